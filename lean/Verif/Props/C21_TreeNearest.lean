import Verif.Lemmas.Tree
import Verif.Lemmas.Transform
import Verif.Lemmas.Mesh
import Verif.Props.C19_BoxTest
import Verif.Props.C22_TreeConstruction

/-! C21: a tree behaves like the list of its members. -/

namespace BR

set_option linter.unusedSectionVars false

variable {F M : Type} [Add F] [Sub F] [Mul F] [Div F] [Neg F] [GoFloat F]

/-! ## Inside -/

mutual
private theorem node_inside (v : Obj F M → Bool) (p : Vec F) (n : Node F M)
    (h : ∀ o ∈ n.members, o.inside p = .ok (v o)) : n.inside p = .ok (n.members.any v) :=
  match n with
  | .leaf bb ls => by rw [Node.inside, Node.members]; exact any_inside v p ls h
  | .inner bb a b => by
    rw [Node.inside, Node.members, List.any_append,
      node_inside v p a (fun o ho => h o (by rw [Node.members]; simp [ho])), ok_bind]
    cases a.members.any v
    · simpa using node_inside v p b (fun o ho => h o (by rw [Node.members]; simp [ho]))
    · rfl
termination_by structural n

private theorem any_inside (v : Obj F M → Bool) (p : Vec F) (ls : List (Obj F M))
    (h : ∀ o ∈ ls, o.inside p = .ok (v o)) : Obj.anyInside ls p = .ok (ls.any v) :=
  match ls with
  | [] => by rw [Obj.anyInside]; rfl
  | o :: ls => by
    rw [Obj.anyInside, h o (by simp), ok_bind, List.any_cons]
    cases v o
    · simpa using any_inside v p ls (fun o ho => h o (by simp [ho]))
    · rfl
termination_by structural ls
end

/-- A point is inside a tree iff it is inside one of its members. Any arithmetic. -/
theorem C21_inside (S : Sorter (Obj F M)) (ch : List (Obj F M)) (t : Obj F M) (l : List (Obj F M))
    (h : mkTree S ch = .ok (t, l)) (p : Vec F) (v : Obj F M → Bool)
    (hv : ∀ o ∈ ch, o.inside p = .ok (v o)) : t.inside p = .ok (ch.any v) := by
  obtain ⟨⟨n, l'⟩, hn, h⟩ := bind_eq_ok.1 h
  cases h
  have hp := (buildTree_boxes S ch n l hn).1
  rw [Obj.inside, node_inside v p n fun o ho => hv o (hp.mem_iff.1 ho), hp.any_eq]

/-! ## Nearest hit -/

section cmp
variable [CmpModel F]

private theorem pos_trans {a b : F} (h : (lit 0 <. a) = true) (h2 : (a <=. b) = true) : (lit 0 <. b) = true := by
  obtain ⟨x, y, hx, hy, hxy⟩ := (CmpModel.lt_iff _ _).1 h
  obtain ⟨u, v, hu, hv, huv⟩ := (CmpModel.le_iff _ _).1 h2
  rw [hy] at hu; cases hu
  exact (CmpModel.lt_iff _ _).2 ⟨x, v, hx, hv, hxy.trans_le huv⟩

private theorem le_of_lt' {a b : F} (h : (a <. b) = true) : (a <=. b) = true := by
  obtain ⟨x, y, hx, hy, hxy⟩ := (CmpModel.lt_iff _ _).1 h
  exact (CmpModel.le_iff _ _).2 ⟨x, y, hx, hy, hxy.le⟩

private theorem le_trans' {a b c : F} (h : (a <=. b) = true) (h2 : (b <=. c) = true) : (a <=. c) = true := by
  obtain ⟨x, y, hx, hy, hxy⟩ := (CmpModel.le_iff _ _).1 h
  obtain ⟨u, v, hu, hv, huv⟩ := (CmpModel.le_iff _ _).1 h2
  rw [hy] at hu; cases hu
  exact (CmpModel.le_iff _ _).2 ⟨x, v, hx, hv, hxy.trans huv⟩

private theorem lt_of_lt_of_le' {a b c : F} (h : (a <. b) = true) (h2 : (b <=. c) = true) : (a <. c) = true := by
  obtain ⟨x, y, hx, hy, hxy⟩ := (CmpModel.lt_iff _ _).1 h
  obtain ⟨u, v, hu, hv, huv⟩ := (CmpModel.le_iff _ _).1 h2
  rw [hy] at hu; cases hu
  exact (CmpModel.lt_iff _ _).2 ⟨x, v, hx, hv, hxy.trans_le huv⟩

private theorem le_of_not_lt' {a b : F} (ha : (lit 0 <. a) = true) (hb : (lit 0 <. b) = true)
    (h : (a <. b) = false) : (b <=. a) = true := by
  obtain ⟨_, x, _, hx, _⟩ := (CmpModel.lt_iff _ _).1 ha
  obtain ⟨_, y, _, hy, _⟩ := (CmpModel.lt_iff _ _).1 hb
  rw [lt_key hx hy, decide_eq_false_iff_not] at h
  rw [le_key hy hx, decide_eq_true_iff]
  exact not_lt.1 h

private theorem le_refl' {a : F} (ha : (lit 0 <. a) = true) : (a <=. a) = true := by
  obtain ⟨_, x, _, hx, _⟩ := (CmpModel.lt_iff _ _).1 ha
  rw [le_key hx hx]; simp

/-- `h` is the nearest of the hits of the objects: it is one of them, in front, and none in front is
nearer. -/
def NearestOf (hits : Obj F M → HitRecord F M) (os : List (Obj F M)) (h : HitRecord F M) : Prop :=
  (∃ o ∈ os, h = hits o) ∧ (lit 0 <. h.t) = true ∧
    ∀ o ∈ os, (lit 0 <. (hits o).t) = true → (h.t <=. (hits o).t) = true

/-- No object is hit in front. -/
def NoneHit (hits : Obj F M → HitRecord F M) (os : List (Obj F M)) : Prop :=
  ∀ o ∈ os, (lit 0 <. (hits o).t) = false

/-- What an object reports for a ray is what `hits` says. Where `hits` says there is no hit, the object may also report
a distance that is not below `9e99`. -/
def TellsOrFar (hits : Obj F M → HitRecord F M) (r : Ray F) (o : Obj F M) : Prop :=
  ∃ h, o.intersect r = .ok (h, r) ∧
    (h = hits o ∨ ((lit 0 <. (hits o).t) = false ∧ (h.t <. (lit (9 * 10 ^ 99) : F)) = false))

private theorem scan_spec (hits : Obj F M → HitRecord F M) (r : Ray F) (os : List (Obj F M))
    (hok : ∀ o ∈ os, TellsOrFar hits r o) (front : HitRecord F M) (hf : (lit 0 <. front.t) = true)
    (hle9 : (front.t <=. (lit (9 * 10 ^ 99) : F)) = true) :
    ∃ h, Obj.scan os front r = .ok (h, r) ∧
      ((h = front ∧ ∀ o ∈ os, (lit 0 <. (hits o).t) = true → (front.t <=. (hits o).t) = true) ∨
       (NearestOf hits os h ∧ (h.t <. front.t) = true)) := by
  induction os generalizing front with
  | nil => exact ⟨front, by rw [Obj.scan], .inl ⟨rfl, fun o ho => by cases ho⟩⟩
  | cons o os ih =>
    obtain ⟨h0, ho, hh0⟩ := hok o (by simp)
    have hos : ∀ o ∈ os, TellsOrFar hits r o := fun o ho => hok o (by simp [ho])
    rw [Obj.scan, ho, ok_bind]
    dsimp only
    obtain rfl | ⟨hn0, hfar0⟩ := hh0
    case inr =>
      have hc : ((lit 0 <. h0.t) && (h0.t <. front.t)) = false := by
        by_contra hc
        rw [Bool.not_eq_false, Bool.and_eq_true] at hc
        rw [lt_of_lt_of_le' hc.2 hle9] at hfar0
        cases hfar0
      rw [hc]
      obtain ⟨h, e, hr⟩ := ih hos front hf hle9
      refine ⟨h, e, ?_⟩
      rcases hr with ⟨rfl, hall⟩ | ⟨⟨⟨o', ho', e'⟩, hp, hall⟩, hlt⟩
      · refine .inl ⟨rfl, ?_⟩
        intro o' ho' hp
        rcases List.mem_cons.1 ho' with rfl | ho'
        · rw [hn0] at hp; cases hp
        · exact hall o' ho' hp
      · refine .inr ⟨⟨⟨o', by simp [ho'], e'⟩, hp, ?_⟩, hlt⟩
        intro o'' ho'' hp''
        rcases List.mem_cons.1 ho'' with rfl | ho''
        · rw [hn0] at hp''; cases hp''
        · exact hall o'' ho'' hp''
    by_cases hc : ((lit 0 <. (hits o).t) && ((hits o).t <. front.t)) = true
    · rw [if_pos hc]
      rw [Bool.and_eq_true] at hc
      obtain ⟨h, e, hr⟩ := ih hos (hits o) hc.1 (le_of_lt' (lt_of_lt_of_le' hc.2 hle9))
      refine ⟨h, e, .inr ?_⟩
      rcases hr with ⟨rfl, hall⟩ | ⟨⟨⟨o', ho', e'⟩, hp, hall⟩, hlt⟩
      · refine ⟨⟨⟨o, by simp, rfl⟩, hc.1, ?_⟩, hc.2⟩
        intro o' ho' hp
        rcases List.mem_cons.1 ho' with rfl | ho'
        · exact le_refl' hp
        · exact hall o' ho' hp
      · refine ⟨⟨⟨o', by simp [ho'], e'⟩, hp, ?_⟩, lt_of_lt_of_le' hlt (le_of_lt' hc.2)⟩
        intro o'' ho'' hp''
        rcases List.mem_cons.1 ho'' with rfl | ho''
        · exact le_of_lt' hlt
        · exact hall o'' ho'' hp''
    · rw [if_neg hc]
      obtain ⟨h, e, hr⟩ := ih hos front hf hle9
      refine ⟨h, e, ?_⟩
      have hle : (lit 0 <. (hits o).t) = true → (front.t <=. (hits o).t) = true := by
        intro hp
        rw [hp, Bool.true_and, Bool.not_eq_true] at hc
        exact le_of_not_lt' hp hf hc
      rcases hr with ⟨rfl, hall⟩ | ⟨⟨⟨o', ho', e'⟩, hp, hall⟩, hlt⟩
      · refine .inl ⟨rfl, ?_⟩
        intro o' ho' hp
        rcases List.mem_cons.1 ho' with rfl | ho'
        · exact hle hp
        · exact hall o' ho' hp
      · refine .inr ⟨⟨⟨o', by simp [ho'], e'⟩, hp, ?_⟩, hlt⟩
        intro o'' ho'' hp''
        rcases List.mem_cons.1 ho'' with rfl | ho''
        · exact le_trans' (le_of_lt' hlt) (hle hp'')
        · exact hall o'' ho'' hp''

/-- The result of a node: the nearest hit, or no hit (reported as the sentinel distance by a leaf). -/
private def NodeRes (hits : Obj F M → HitRecord F M) (n : Node F M) (h : HitRecord F M) : Prop :=
  (NearestOf hits n.members h ∧ (h.t <. (lit (9 * 10 ^ 99) : F)) = true) ∨
  (NoneHit hits n.members ∧ (h = noHit ∨ (h.t = lit 0 ∧ ∃ bb a b, n = .inner bb a b)))

private theorem noneHit_or (hits : Obj F M → HitRecord F M) (os : List (Obj F M)) :
    NoneHit hits os ∨ ∃ o ∈ os, (lit 0 <. (hits o).t) = true := by
  by_cases h : ∃ o ∈ os, (lit 0 <. (hits o).t) = true
  · exact .inr h
  · left
    intro o ho
    by_contra hc
    exact h ⟨o, ho, by simpa using hc⟩

private theorem zero_not_pos : ((lit 0 : F) <. lit 0) = false := by
  rw [lt_key CmpModel.key_zero CmpModel.key_zero]; simp

private theorem node_spec (hsent : ((lit 0 : F) <. lit (9 * 10 ^ 99)) = true)
    (hits : Obj F M → HitRecord F M) (r : Ray F) : ∀ (k : Nat) (n : Node F M), n.depth ≤ k →
    (∀ o ∈ n.members, TellsOrFar hits r o) →
    (∀ o ∈ n.members, (lit 0 <. (hits o).t) = true → ((hits o).t <. (lit (9 * 10 ^ 99) : F)) = true) →
    (∀ x ∈ n.boxes, (∃ o ∈ x.2, (lit 0 <. (hits o).t) = true) → (lit 0 <. x.1.intersect r) = true) →
    ∃ h, n.intersect r = .ok (h, r) ∧ NodeRes hits n h := by
  have leaf : ∀ bb ls, (∀ o ∈ ls, TellsOrFar hits r o) →
      (∀ o ∈ ls, (lit 0 <. (hits o).t) = true → ((hits o).t <. (lit (9 * 10 ^ 99) : F)) = true) →
      ∃ h, (Node.leaf bb ls).intersect r = .ok (h, r) ∧ NodeRes hits (.leaf bb ls) h := by
    intro bb ls hok hfar
    rw [Node.intersect]
    obtain ⟨h, e, hr⟩ := scan_spec hits r ls hok noHit hsent (le_refl' hsent)
    refine ⟨h, e, ?_⟩
    rcases hr with ⟨rfl, hall⟩ | hn
    · refine .inr ⟨?_, .inl rfl⟩
      intro o ho
      rw [Node.members] at ho
      by_contra hc
      rw [Bool.not_eq_false] at hc
      have h1 := hall o ho hc
      have h2 := hfar o ho hc
      have h3 := lt_of_lt_of_le' h2 h1
      obtain ⟨x, y, hx, hy, hxy⟩ := (CmpModel.lt_iff _ _).1 h3
      rw [hx] at hy; cases hy
      exact lt_irrefl _ hxy
    · exact .inl hn
  intro k
  induction k with
  | zero =>
    intro n hn hok hfar _
    cases n with
    | leaf bb ls => exact leaf bb ls hok hfar
    | inner bb a b => simp [Node.depth] at hn
  | succ k ih =>
    intro n hn hok hfar hbox
    cases n with
    | leaf bb ls => exact leaf bb ls hok hfar
    | inner bb a b =>
      simp only [Node.depth, Nat.add_le_add_iff_right] at hn
      simp only [Node.members, List.mem_append] at hok hfar
      simp only [Node.boxes, List.mem_cons, List.mem_append] at hbox
      have bbmem : ∀ n : Node F M, (n.bb, n.members) ∈ n.boxes := by
        intro n; cases n <;> simp [Node.boxes, Node.bb, Node.members]
      -- the first child
      have first : ∃ h, visitChild (lit 0 <. a.bb.intersect r) a.intersect (fun _ _ => true) noHit r = .ok (h, r) ∧
          ((NearestOf hits a.members h ∧ (h.t <. (lit (9 * 10 ^ 99) : F)) = true) ∨
            (NoneHit hits a.members ∧ h = noHit)) := by
        rw [visitChild]
        by_cases hc : (lit 0 <. a.bb.intersect r) = true
        · rw [if_pos hc]
          obtain ⟨h, e, hr⟩ := ih a (le_trans (Nat.le_max_left ..) hn) (fun o ho => hok o (.inl ho))
            (fun o ho => hfar o (.inl ho)) (fun x hx => hbox x (.inr (.inl hx)))
          rw [e, ok_bind]
          dsimp only
          refine ⟨_, rfl, ?_⟩
          rcases hr with ⟨hn, hlt⟩ | ⟨hn, rfl | ⟨h0, -⟩⟩
          · left
            rw [hn.2.1, Bool.true_and, if_pos rfl]
            exact ⟨hn, hlt⟩
          · right
            refine ⟨hn, ?_⟩
            split <;> rfl
          · right
            refine ⟨hn, ?_⟩
            rw [h0, zero_not_pos]; rfl
        · rw [if_neg hc]
          refine ⟨_, rfl, .inr ⟨?_, rfl⟩⟩
          rcases noneHit_or hits a.members with h | h
          · exact h
          · exact absurd (hbox _ (.inr (.inl (bbmem a))) h) hc
      obtain ⟨front, ef, hfront⟩ := first
      have fpos : (lit 0 <. front.t) = true := by
        rcases hfront with ⟨h, -⟩ | ⟨-, rfl⟩
        · exact h.2.1
        · exact hsent
      have fle : (front.t <=. (lit (9 * 10 ^ 99) : F)) = true := by
        rcases hfront with ⟨-, h⟩ | ⟨-, rfl⟩
        · exact le_of_lt' h
        · exact le_refl' hsent
      -- the second child
      have second : ∃ h, visitChild (lit 0 <. b.bb.intersect r) b.intersect
            (fun frag front => frag.t <. front.t) front r = .ok (h, r) ∧
          ((NearestOf hits b.members h ∧ (h.t <. front.t) = true) ∨
            (h = front ∧ ∀ o ∈ b.members, (lit 0 <. (hits o).t) = true → (front.t <=. (hits o).t) = true)) := by
        rw [visitChild]
        by_cases hc : (lit 0 <. b.bb.intersect r) = true
        · rw [if_pos hc]
          obtain ⟨h, e, hr⟩ := ih b (le_trans (Nat.le_max_right ..) hn) (fun o ho => hok o (.inr ho))
            (fun o ho => hfar o (.inr ho)) (fun x hx => hbox x (.inr (.inr hx)))
          rw [e, ok_bind]
          dsimp only
          refine ⟨_, rfl, ?_⟩
          rcases hr with ⟨hn, hlt⟩ | ⟨hn, rfl | ⟨h0, -⟩⟩
          · rw [hn.2.1, Bool.true_and]
            by_cases hlt2 : (h.t <. front.t) = true
            · left
              rw [if_pos hlt2]
              exact ⟨hn, hlt2⟩
            · right
              rw [if_neg hlt2]
              rw [Bool.not_eq_true] at hlt2
              refine ⟨rfl, fun o ho hp => le_trans' (le_of_not_lt' hn.2.1 fpos hlt2) (hn.2.2 o ho hp)⟩
          · right
            refine ⟨?_, fun o ho hp => absurd hp (by rw [hn o ho]; simp)⟩
            have : ((noHit : HitRecord F M).t <. front.t) = false := by
              by_contra hc
              rw [Bool.not_eq_false] at hc
              have := lt_of_lt_of_le' hc fle
              obtain ⟨x, y, hx, hy, hxy⟩ := (CmpModel.lt_iff _ _).1 this
              change CmpModel.key (lit (9 * 10 ^ 99) : F) = some x at hx
              rw [hx] at hy; cases hy
              exact lt_irrefl _ hxy
            rw [this, Bool.and_false]; rfl
          · right
            refine ⟨?_, fun o ho hp => absurd hp (by rw [hn o ho]; simp)⟩
            rw [h0, zero_not_pos]; rfl
        · rw [if_neg hc]
          refine ⟨_, rfl, .inr ⟨rfl, ?_⟩⟩
          intro o ho hp
          exact absurd (hbox _ (.inr (.inr (bbmem b))) ⟨o, ho, hp⟩) hc
      obtain ⟨h, es, hh⟩ := second
      rw [Node.intersect]
      simp only [ef, ok_bind, es, pure_ok]
      refine ⟨_, rfl, ?_⟩
      have neq : ∀ x : F, (x <. (lit (9 * 10 ^ 99) : F)) = true → (x ==. (lit (9 * 10 ^ 99) : F)) = false := by
        intro x hx
        obtain ⟨u, v, hu, hv, huv⟩ := (CmpModel.lt_iff _ _).1 hx
        rw [eq_key hu hv]; simp [huv.ne]
      rcases hh with ⟨hn, hlt⟩ | ⟨rfl, hall⟩
      · have hlt2 := lt_of_lt_of_le' hlt fle
        rw [neq _ hlt2]
        left
        refine ⟨⟨?_, hn.2.1, ?_⟩, hlt2⟩
        · obtain ⟨o, ho, e⟩ := hn.1
          exact ⟨o, by rw [Node.members]; simp [ho], e⟩
        · intro o ho hp
          rw [Node.members, List.mem_append] at ho
          rcases ho with ho | ho
          · rcases hfront with ⟨hf, -⟩ | ⟨hf, -⟩
            · exact le_trans' (le_of_lt' hlt) (hf.2.2 o ho hp)
            · exact absurd hp (by rw [hf o ho]; simp)
          · exact hn.2.2 o ho hp
      · rcases hfront with ⟨hf, hlt⟩ | ⟨hf, rfl⟩
        · rw [neq _ hlt]
          left
          refine ⟨⟨?_, fpos, ?_⟩, hlt⟩
          · obtain ⟨o, ho, e⟩ := hf.1
            exact ⟨o, by rw [Node.members]; simp [ho], e⟩
          · intro o ho hp
            rw [Node.members, List.mem_append] at ho
            rcases ho with ho | ho
            · exact hf.2.2 o ho hp
            · exact hall o ho hp
        · right
          have : ((noHit : HitRecord F M).t ==. (lit (9 * 10 ^ 99) : F)) = true := by
            obtain ⟨_, y, _, hy, _⟩ := (CmpModel.lt_iff _ _).1 hsent
            change ((lit (9 * 10 ^ 99) : F) ==. (lit (9 * 10 ^ 99) : F)) = true
            rw [eq_key hy hy]; simp
          rw [this]
          refine ⟨?_, .inr ⟨rfl, bb, a, b, rfl⟩⟩
          intro o ho
          rw [Node.members, List.mem_append] at ho
          rcases ho with ho | ho
          · exact hf o ho
          · by_contra hc
            rw [Bool.not_eq_false] at hc
            have h1 := hall o ho hc
            have h2 := lt_of_lt_of_le' (hfar o (.inr ho) hc) h1
            obtain ⟨x, y, hx, hy, hxy⟩ := (CmpModel.lt_iff _ _).1 h2
            rw [hx] at hy; cases hy
            exact lt_irrefl _ hxy

/-- Trees of objects that report as `hits` says. -/
theorem tree_reports (hsent : ((lit 0 : F) <. lit (9 * 10 ^ 99)) = true) (S : Sorter (Obj F M))
    (ch : List (Obj F M)) (n : Node F M) (l : List (Obj F M)) (h : buildTree S ch = .ok (n, l)) (r : Ray F)
    (hits : Obj F M → HitRecord F M) (hok : ∀ o ∈ ch, TellsOrFar hits r o)
    (hfar : ∀ o ∈ ch, (lit 0 <. (hits o).t) = true → ((hits o).t <. (lit (9 * 10 ^ 99) : F)) = true)
    (hbox : ∀ x ∈ n.boxes, (∃ o ∈ x.2, (lit 0 <. (hits o).t) = true) → (lit 0 <. x.1.intersect r) = true)
    (hlen : 7 < ch.length ∨ ¬ NoneHit hits ch) :
    ∃ hit, (Obj.tree n).intersect r = .ok (hit, r) ∧
      (NearestOf hits ch hit ∨ (NoneHit hits ch ∧ (lit 0 <. hit.t) = false)) := by
  have hp := (buildTree_boxes S ch n l h).1
  have conv : ∀ hit, NearestOf hits n.members hit → NearestOf hits ch hit := by
    rintro hit ⟨⟨o, ho, e⟩, h1, h2⟩
    exact ⟨⟨o, hp.mem_iff.1 ho, e⟩, h1, fun o ho => h2 o (hp.mem_iff.2 ho)⟩
  have conv' : NoneHit hits n.members → NoneHit hits ch := fun h o ho => h o (hp.mem_iff.2 ho)
  rw [Obj.intersect]
  by_cases hb : (n.bb.intersect r <=. (lit 0 : F)) = true
  · rw [if_pos hb]
    refine ⟨_, rfl, .inr ⟨?_, zero_not_pos⟩⟩
    apply conv'
    rcases noneHit_or hits n.members with h | h
    · exact h
    · have := hbox (n.bb, n.members) (by cases n <;> simp [Node.boxes, Node.bb, Node.members]) h
      have := lt_of_lt_of_le' this hb
      rw [zero_not_pos] at this; cases this
  · rw [if_neg hb]
    obtain ⟨hit, e, hr⟩ := node_spec hsent hits r n.depth n le_rfl (fun o ho => hok o (hp.mem_iff.1 ho))
      (fun o ho => hfar o (hp.mem_iff.1 ho)) hbox
    refine ⟨hit, e, ?_⟩
    rcases hr with ⟨hn, -⟩ | ⟨hn, hh⟩
    · exact .inl (conv _ hn)
    · refine .inr ⟨conv' hn, ?_⟩
      rcases hh with rfl | ⟨h0, -⟩
      · exfalso
        rcases hlen with hlen | hlen
        · -- the root is an inner node
          rw [buildTree, if_neg (by simpa [maxFacePerLeaf] using hlen)] at h
          obtain ⟨bb, -, h⟩ := bind_eq_ok.1 h
          obtain ⟨⟨c1, l1⟩, -, h⟩ := bind_eq_ok.1 h
          dsimp only at h
          obtain ⟨⟨c2, l2⟩, -, h⟩ := bind_eq_ok.1 h
          cases h
          rw [Node.intersect] at e
          obtain ⟨⟨h1, r1⟩, -, e⟩ := bind_eq_ok.1 e
          dsimp only at e
          obtain ⟨⟨h2, r2⟩, -, e⟩ := bind_eq_ok.1 e
          dsimp only at e
          rw [pure_ok] at e
          have e := (Prod.mk.inj (Except.ok.inj e)).1
          have ht := congrArg HitRecord.t e
          change _ = (lit (9 * 10 ^ 99) : F) at ht
          obtain ⟨_, y, _, hy, _⟩ := (CmpModel.lt_iff _ _).1 hsent
          split at ht
          · dsimp only at ht
            rw [ht] at hsent
            rw [← ht, zero_not_pos] at hsent
            cases hsent
          · rename_i hne
            rw [ht, eq_key hy hy] at hne
            simp at hne
        · exact hlen (conv' hn)
      · rw [h0]; exact zero_not_pos

/-- **C21.** For every arithmetic whose comparisons behave like Go's: a tree reports the nearest hit
among all members, or a miss if there is none, provided that every box in the tree passes the box
test whenever a member below it is hit. Missing from the full property: trees of at most 7 members
when no member is hit (see the violation), and members that report hits at `9e99` or beyond. -/
theorem C21_nearest_partial (hsent : ((lit 0 : F) <. lit (9 * 10 ^ 99)) = true) (S : Sorter (Obj F M))
    (ch : List (Obj F M)) (n : Node F M) (l : List (Obj F M)) (h : buildTree S ch = .ok (n, l)) (r : Ray F)
    (hits : Obj F M → HitRecord F M) (hok : ∀ o ∈ ch, o.intersect r = .ok (hits o, r))
    (hfar : ∀ o ∈ ch, (lit 0 <. (hits o).t) = true → ((hits o).t <. (lit (9 * 10 ^ 99) : F)) = true)
    (hbox : ∀ x ∈ n.boxes, (∃ o ∈ x.2, (lit 0 <. (hits o).t) = true) → (lit 0 <. x.1.intersect r) = true)
    (hlen : 7 < ch.length ∨ ¬ NoneHit hits ch) :
    ∃ hit, (Obj.tree n).intersect r = .ok (hit, r) ∧
      (NearestOf hits ch hit ∨ (NoneHit hits ch ∧ (lit 0 <. hit.t) = false)) :=
  tree_reports hsent S ch n l h r hits (fun o ho => ⟨_, hok o ho, .inl rfl⟩) hfar hbox hlen

end cmp

/-! ## Exact arithmetic -/

/-- The coordinates of a hull box are coordinates of the points. -/
private theorem hull_coords {F : Type} [GoFloat F] (l : List (Vec F)) (b : BBox F) (h : BBox.fromHull l = .ok b) :
    (∃ v ∈ l, b.min.x = v.x) ∧ (∃ v ∈ l, b.min.y = v.y) ∧ (∃ v ∈ l, b.min.z = v.z) ∧
    (∃ v ∈ l, b.max.x = v.x) ∧ (∃ v ∈ l, b.max.y = v.y) ∧ (∃ v ∈ l, b.max.z = v.z) := by
  have lo : ∀ a c : F, BBox.lower a c = a ∨ BBox.lower a c = c := by
    intro a c; unfold BBox.lower; split <;> simp
  have up : ∀ a c : F, BBox.upper a c = a ∨ BBox.upper a c = c := by
    intro a c; unfold BBox.upper; split <;> simp
  let P : List (Vec F) → BBox F → Prop := fun l b =>
    (∃ v ∈ l, b.min.x = v.x) ∧ (∃ v ∈ l, b.min.y = v.y) ∧ (∃ v ∈ l, b.min.z = v.z) ∧
    (∃ v ∈ l, b.max.x = v.x) ∧ (∃ v ∈ l, b.max.y = v.y) ∧ (∃ v ∈ l, b.max.z = v.z)
  have key : ∀ (l' : List (Vec F)) (b b' : BBox F), (∀ v ∈ l', v ∈ l) → P l b →
      l'.foldlM BBox.hullStep b = .ok b' → P l b' := by
    intro l'
    induction l' with
    | nil => intro b b' _ hb e; cases e; exact hb
    | cons v l' ih =>
      intro b b' hsub hb e
      rw [List.foldlM_cons] at e
      obtain ⟨c, hc, e⟩ := bind_eq_ok.1 e
      refine ih c b' (fun w hw => hsub w (by simp [hw])) ?_ e
      obtain ⟨_, -, hc⟩ := bind_eq_ok.1 hc
      cases hc
      have hv := hsub v (by simp)
      obtain ⟨h1, h2, h3, h4, h5, h6⟩ := hb
      refine ⟨?_, ?_, ?_, ?_, ?_, ?_⟩ <;> dsimp only
      · rcases lo b.min.x v.x with e | e <;> rw [e]; exacts [h1, ⟨v, hv, rfl⟩]
      · rcases lo b.min.y v.y with e | e <;> rw [e]; exacts [h2, ⟨v, hv, rfl⟩]
      · rcases lo b.min.z v.z with e | e <;> rw [e]; exacts [h3, ⟨v, hv, rfl⟩]
      · rcases up b.max.x v.x with e | e <;> rw [e]; exacts [h4, ⟨v, hv, rfl⟩]
      · rcases up b.max.y v.y with e | e <;> rw [e]; exacts [h5, ⟨v, hv, rfl⟩]
      · rcases up b.max.z v.z with e | e <;> rw [e]; exacts [h6, ⟨v, hv, rfl⟩]
  cases l with
  | nil => cases h
  | cons v0 l =>
    rw [BBox.fromHull] at h
    obtain ⟨b', hb', h⟩ := bind_eq_ok.1 h
    obtain ⟨_, -, h⟩ := bind_eq_ok.1 h
    obtain ⟨_, -, h⟩ := bind_eq_ok.1 h
    cases h
    refine key _ _ _ (fun _ h => h) ?_ hb'
    exact ⟨⟨v0, by simp, rfl⟩, ⟨v0, by simp, rfl⟩, ⟨v0, by simp, rfl⟩, ⟨v0, by simp, rfl⟩, ⟨v0, by simp, rfl⟩,
      ⟨v0, by simp, rfl⟩⟩

/-- The common box of members with finite bounds, as a real box. Its faces are those of members. -/
theorem common_box_faces (ch : List (Obj Ext M)) (bb : BBox Ext) (h : makeBoundingBox ch = .ok bb)
    (bounds : Obj Ext M → BBox ℝ)
    (hb : ∀ o ∈ ch, ∃ b, o.bounds = .ok b ∧ b.Is (bounds o) ∧ (bounds o).Proper) :
    ∃ B : BBox ℝ, bb.Is B ∧ B.Proper ∧ (∀ o ∈ ch, ∀ p, (bounds o).Mem p → B.Mem p) ∧
      (∃ o ∈ ch, B.min.x = (bounds o).min.x ∨ B.min.x = (bounds o).max.x) ∧
      (∃ o ∈ ch, B.max.x = (bounds o).min.x ∨ B.max.x = (bounds o).max.x) ∧
      (∃ o ∈ ch, B.min.y = (bounds o).min.y ∨ B.min.y = (bounds o).max.y) ∧
      (∃ o ∈ ch, B.max.y = (bounds o).min.y ∨ B.max.y = (bounds o).max.y) ∧
      (∃ o ∈ ch, B.min.z = (bounds o).min.z ∨ B.min.z = (bounds o).max.z) ∧
      ∃ o ∈ ch, B.max.z = (bounds o).min.z ∨ B.max.z = (bounds o).max.z := by
  obtain ⟨bs, hbs, h'⟩ := bind_eq_ok.1 h
  clear h
  rename' h' => h
  have h2 := mapM_spec _ _ _ hbs
  have hall : List.Forall₂ Vec.Is (bs.flatMap fun b => [b.min, b.max])
      ((ch.map bounds).flatMap fun b => [b.min, b.max]) := by
    clear hbs h
    induction h2 with
    | nil => exact .nil
    | @cons o b ch bs hob _ ih =>
      obtain ⟨b', hb', his, -⟩ := hb o (by simp)
      rw [hob] at hb'; cases hb'
      exact .cons his.1 (.cons his.2 (ih fun o ho => hb o (by simp [ho])))
  have hne : (bs.flatMap fun b => [b.min, b.max]) ≠ [] := by
    intro hc; rw [hc] at h; cases h
  obtain ⟨b', B, e1, e2, his⟩ := BBox.fromHull_is _ _ hall hne
  rw [h] at e1; cases e1
  obtain ⟨B', e3, hmem, -⟩ := BBox.fromHull_real ((ch.map bounds).flatMap fun b => [b.min, b.max]) (by
    intro hc; rw [hc] at e2; cases e2)
  rw [e2] at e3; cases e3
  have cont : ∀ o ∈ ch, B.Mem (bounds o).min ∧ B.Mem (bounds o).max := fun o ho =>
    ⟨hmem _ (List.mem_flatMap.2 ⟨_, List.mem_map_of_mem ho, by simp⟩),
      hmem _ (List.mem_flatMap.2 ⟨_, List.mem_map_of_mem ho, by simp⟩)⟩
  have hmemAll : ∀ o ∈ ch, ∀ p, (bounds o).Mem p → B.Mem p := by
    intro o ho p hp
    obtain ⟨⟨a1, a2, a3, a4, a5, a6⟩, b1, b2, b3, b4, b5, b6⟩ := cont o ho
    obtain ⟨p1, p2, p3, p4, p5, p6⟩ := hp
    exact ⟨a1.trans p1, p2.trans b2, a3.trans p3, p4.trans b4, a5.trans p5, p6.trans b6⟩
  refine ⟨B, his, ?_, hmemAll, ?_⟩
  · cases h2 with
    | nil => exact absurd rfl hne
    | @cons o b ch bs hob _ =>
      obtain ⟨⟨a1, a2, a3, a4, a5, a6⟩, -⟩ := cont o (by simp)
      exact ⟨a1.trans a2, a3.trans a4, a5.trans a6⟩
  · obtain ⟨c1, c2, c3, c4, c5, c6⟩ := hull_coords _ _ e2
    have get : ∀ v ∈ ((ch.map bounds).flatMap fun b => [b.min, b.max]), ∃ o ∈ ch, v = (bounds o).min ∨ v = (bounds o).max := by
      intro v hv
      obtain ⟨b, hb, hv⟩ := List.mem_flatMap.1 hv
      obtain ⟨o, ho, rfl⟩ := List.mem_map.1 hb
      exact ⟨o, ho, by simpa using hv⟩
    have side : ∀ (x : ℝ) (g : Vec ℝ → ℝ), (∃ v ∈ ((ch.map bounds).flatMap fun b => [b.min, b.max]), x = g v) →
        ∃ o ∈ ch, x = g (bounds o).min ∨ x = g (bounds o).max := by
      rintro x g ⟨v, hv, e⟩
      obtain ⟨o, ho, rfl | rfl⟩ := get v hv
      · exact ⟨o, ho, .inl e⟩
      · exact ⟨o, ho, .inr e⟩
    exact ⟨side _ Vec.x c1, side _ Vec.x c4, side _ Vec.y c2, side _ Vec.y c5, side _ Vec.z c3, side _ Vec.z c6⟩

/-- The common box of members with finite bounds, as a real box. -/
theorem common_box (ch : List (Obj Ext M)) (bb : BBox Ext) (h : makeBoundingBox ch = .ok bb)
    (bounds : Obj Ext M → BBox ℝ)
    (hb : ∀ o ∈ ch, ∃ b, o.bounds = .ok b ∧ b.Is (bounds o) ∧ (bounds o).Proper) :
    ∃ B : BBox ℝ, bb.Is B ∧ B.Proper ∧ (∀ o ∈ ch, ∀ p, (bounds o).Mem p → B.Mem p) ∧
      ∀ p, B.OnFacePlane p → ∃ o ∈ ch, (bounds o).OnFacePlane p := by
  obtain ⟨B, h1, h2, h3, ⟨o1, m1, e1⟩, ⟨o2, m2, e2⟩, ⟨o3, m3, e3⟩, ⟨o4, m4, e4⟩, ⟨o5, m5, e5⟩, ⟨o6, m6, e6⟩⟩ :=
    common_box_faces ch bb h bounds hb
  refine ⟨B, h1, h2, h3, ?_⟩
  unfold BBox.OnFacePlane
  rintro p (hp | hp | hp | hp | hp | hp)
  · exact ⟨o1, m1, by rcases e1 with e | e <;> simp [hp, e]⟩
  · exact ⟨o2, m2, by rcases e2 with e | e <;> simp [hp, e]⟩
  · exact ⟨o3, m3, by rcases e3 with e | e <;> simp [hp, e]⟩
  · exact ⟨o4, m4, by rcases e4 with e | e <;> simp [hp, e]⟩
  · exact ⟨o5, m5, by rcases e5 with e | e <;> simp [hp, e]⟩
  · exact ⟨o6, m6, by rcases e6 with e | e <;> simp [hp, e]⟩

/-- The point lies beyond all the boxes along one of the axes. -/
def BeyondBoxes (P : BBox ℝ → Prop) (p : Vec ℝ) : Prop :=
  (∀ B, P B → p.x < B.min.x) ∨ (∀ B, P B → B.max.x < p.x) ∨ (∀ B, P B → p.y < B.min.y) ∨
  (∀ B, P B → B.max.y < p.y) ∨ (∀ B, P B → p.z < B.min.z) ∨ ∀ B, P B → B.max.z < p.z

/-- The start of the ray shares no coordinate with a face of one of the boxes; or it lies beyond all of them along one
of the axes, and shares a coordinate with a face only along axes the ray moves in. -/
def ClearOf (P : BBox ℝ → Prop) (R : Ray ℝ) : Prop :=
  (∀ B, P B → ¬ B.OnFacePlane R.start) ∨ (BeyondBoxes P R.start ∧ ∀ B, P B → B.NotInFace R)

theorem ClearOf.mono {P Q : BBox ℝ → Prop} {R : Ray ℝ} (h : ClearOf Q R) (hPQ : ∀ B, P B → Q B) : ClearOf P R := by
  rcases h with h | ⟨hb, h⟩
  · exact .inl fun B hB => h B (hPQ B hB)
  · refine .inr ⟨?_, fun B hB => h B (hPQ B hB)⟩
    rcases hb with hb | hb | hb | hb | hb | hb
    · exact .inl fun B hB => hb B (hPQ B hB)
    · exact .inr (.inl fun B hB => hb B (hPQ B hB))
    · exact .inr (.inr (.inl fun B hB => hb B (hPQ B hB)))
    · exact .inr (.inr (.inr (.inl fun B hB => hb B (hPQ B hB))))
    · exact .inr (.inr (.inr (.inr (.inl fun B hB => hb B (hPQ B hB)))))
    · exact .inr (.inr (.inr (.inr (.inr fun B hB => hb B (hPQ B hB)))))

/-- The common box of boxes the ray starts clear of. -/
theorem clear_hull {ch : List (Obj Ext M)} {R : Ray ℝ} {bounds : Obj Ext M → BBox ℝ}
    (hgen : ClearOf (fun B => ∃ o ∈ ch, B = bounds o) R) {ch' : List (Obj Ext M)} (hsub : ∀ o ∈ ch', o ∈ ch)
    {bb : BBox Ext} (h : makeBoundingBox ch' = .ok bb)
    (hb : ∀ o ∈ ch, ∃ b, o.bounds = .ok b ∧ b.Is (bounds o) ∧ (bounds o).Proper) :
    ∃ B : BBox ℝ, bb.Is B ∧ B.Proper ∧ (∀ o ∈ ch', ∀ p, (bounds o).Mem p → B.Mem p) ∧ B.NotInFace R ∧
      ¬ B.OnSurface R.start := by
  rcases hgen with hgen | ⟨hbey, hni⟩
  · obtain ⟨B, his, hprop, hmem, hface⟩ := common_box ch' bb h bounds fun o ho => hb o (hsub o ho)
    have hnf : ¬ B.OnFacePlane R.start := by
      intro hc
      obtain ⟨o', ho', hc⟩ := hface _ hc
      exact hgen _ ⟨o', hsub o' ho', rfl⟩ hc
    refine ⟨B, his, hprop, hmem, ?_, fun hc => hnf hc.2⟩
    unfold BBox.OnFacePlane at hnf
    push Not at hnf
    exact ⟨fun _ => ⟨hnf.1, hnf.2.1⟩, fun _ => ⟨hnf.2.2.1, hnf.2.2.2.1⟩, fun _ => ⟨hnf.2.2.2.2.1, hnf.2.2.2.2.2⟩⟩
  · obtain ⟨B, his, hprop, hmem, ⟨o1, m1, e1⟩, ⟨o2, m2, e2⟩, ⟨o3, m3, e3⟩, ⟨o4, m4, e4⟩, ⟨o5, m5, e5⟩, ⟨o6, m6, e6⟩⟩ :=
      common_box_faces ch' bb h bounds fun o ho => hb o (hsub o ho)
    have pr : ∀ o ∈ ch', (bounds o).Proper := fun o ho => by
      obtain ⟨_, _, _, h⟩ := hb o (hsub o ho); exact h
    have ni : ∀ o ∈ ch', (bounds o).NotInFace R := fun o ho => hni _ ⟨o, hsub o ho, rfl⟩
    refine ⟨B, his, hprop, hmem, ⟨fun h => ⟨?_, ?_⟩, fun h => ⟨?_, ?_⟩, fun h => ⟨?_, ?_⟩⟩, ?_⟩
    · have := (ni o1 m1).1 h
      rcases e1 with e | e <;> rw [e]; exacts [this.1, this.2]
    · have := (ni o2 m2).1 h
      rcases e2 with e | e <;> rw [e]; exacts [this.1, this.2]
    · have := (ni o3 m3).2.1 h
      rcases e3 with e | e <;> rw [e]; exacts [this.1, this.2]
    · have := (ni o4 m4).2.1 h
      rcases e4 with e | e <;> rw [e]; exacts [this.1, this.2]
    · have := (ni o5 m5).2.2 h
      rcases e5 with e | e <;> rw [e]; exacts [this.1, this.2]
    · have := (ni o6 m6).2.2 h
      rcases e6 with e | e <;> rw [e]; exacts [this.1, this.2]
    · rintro ⟨⟨q1, q2, q3, q4, q5, q6⟩, -⟩
      rcases hbey with hc | hc | hc | hc | hc | hc
      · have := hc _ ⟨o1, hsub o1 m1, rfl⟩
        have := (pr o1 m1).1
        rcases e1 with e | e <;> linarith
      · have := hc _ ⟨o2, hsub o2 m2, rfl⟩
        have := (pr o2 m2).1
        rcases e2 with e | e <;> linarith
      · have := hc _ ⟨o3, hsub o3 m3, rfl⟩
        have := (pr o3 m3).2.1
        rcases e3 with e | e <;> linarith
      · have := hc _ ⟨o4, hsub o4 m4, rfl⟩
        have := (pr o4 m4).2.1
        rcases e4 with e | e <;> linarith
      · have := hc _ ⟨o5, hsub o5 m5, rfl⟩
        have := (pr o5 m5).2.2
        rcases e5 with e | e <;> linarith
      · have := hc _ ⟨o6, hsub o6 m6, rfl⟩
        have := (pr o6 m6).2.2
        rcases e6 with e | e <;> linarith

/-- Trees of objects that report as `hits` says, in exact arithmetic. -/
theorem tree_reports_exact (S : Sorter (Obj Ext M)) (ch : List (Obj Ext M)) (n : Node Ext M)
    (l : List (Obj Ext M)) (h : buildTree S ch = .ok (n, l)) (r : Ray Ext) (R : Ray ℝ) (hr : r.Is R)
    (hd : R.dir ≠ ⟨0, 0, 0⟩) (hits : Obj Ext M → HitRecord Ext M)
    (hok : ∀ o ∈ ch, TellsOrFar hits r o) (bounds : Obj Ext M → BBox ℝ)
    (hb : ∀ o ∈ ch, ∃ b, o.bounds = .ok b ∧ b.Is (bounds o) ∧ (bounds o).Proper)
    (hin : ∀ o ∈ ch, (lit 0 <. (hits o).t) = true →
      ∃ T : ℝ, (hits o).t.Is T ∧ T < 9 * 10 ^ 99 ∧ (bounds o).Mem (R.at T))
    (hgen : ClearOf (fun B => ∃ o ∈ ch, B = bounds o) R)
    (hlen : 7 < ch.length ∨ ¬ NoneHit hits ch) :
    ∃ hit, (Obj.tree n).intersect r = .ok (hit, r) ∧
      (NearestOf hits ch hit ∨ (NoneHit hits ch ∧ (lit 0 <. hit.t) = false)) := by
  refine tree_reports (by simp) S ch n l h r hits hok ?_ ?_ hlen
  · intro o ho hp
    obtain ⟨T, ⟨s, e⟩, hT, -⟩ := hin o ho hp
    rw [e, Ext.lit_ext, Ext.lt_num]
    push_cast
    simpa using hT
  · rintro ⟨bx, os⟩ hx ⟨o, ho, hp⟩
    obtain ⟨-, -, hboxes⟩ := buildTree_boxes S ch n l h
    obtain ⟨ch', bb, hbb, e, hperm, hsub⟩ := hboxes _ hx
    have hsub' : ∀ o ∈ ch', o ∈ ch := fun o ho => hsub o (hperm.mem_iff.2 ho)
    obtain ⟨B, his, hprop, hmem, hni, hns⟩ := clear_hull hgen hsub' hbb hb
    have e' : bx = bb := e
    rw [e']
    obtain ⟨T, hT, -, hm⟩ := hin o (hsub o ho) hp
    have hTpos : 0 < T := by
      obtain ⟨s, e⟩ := hT
      rw [e, Ext.lit_ext, Ext.lt_num] at hp
      simpa using hp
    exact (C19_off_surface bb B his hprop r R hr hd hni hns).2
      ⟨T, hTpos, hmem o (hperm.mem_iff.1 ho) _ hm⟩

/-- **C21, exact arithmetic.** When every member has finite bounds and its hits lie within its bounds,
a tree reports the nearest hit among its members, or a miss if there is none, for every ray that
starts clear of the members' bounds; no condition on the inner boxes of the tree is needed. Missing: as for `C21_nearest_partial`. -/
theorem C21_exact_partial (S : Sorter (Obj Ext M)) (ch : List (Obj Ext M)) (n : Node Ext M)
    (l : List (Obj Ext M)) (h : buildTree S ch = .ok (n, l)) (r : Ray Ext) (R : Ray ℝ) (hr : r.Is R)
    (hd : R.dir ≠ ⟨0, 0, 0⟩) (hits : Obj Ext M → HitRecord Ext M)
    (hok : ∀ o ∈ ch, o.intersect r = .ok (hits o, r)) (bounds : Obj Ext M → BBox ℝ)
    (hb : ∀ o ∈ ch, ∃ b, o.bounds = .ok b ∧ b.Is (bounds o) ∧ (bounds o).Proper)
    (hin : ∀ o ∈ ch, (lit 0 <. (hits o).t) = true →
      ∃ T : ℝ, (hits o).t.Is T ∧ T < 9 * 10 ^ 99 ∧ (bounds o).Mem (R.at T))
    (hgen : ClearOf (fun B => ∃ o ∈ ch, B = bounds o) R)
    (hlen : 7 < ch.length ∨ ¬ NoneHit hits ch) :
    ∃ hit, (Obj.tree n).intersect r = .ok (hit, r) ∧
      (NearestOf hits ch hit ∨ (NoneHit hits ch ∧ (lit 0 <. hit.t) = false)) :=
  tree_reports_exact S ch n l h r R hr hd hits (fun o ho => ⟨_, hok o ho, .inl rfl⟩) bounds hb hin hgen hlen

/-- **C21 for boxes.** A tree of more than 7 boxes: it misses exactly when the forward ray meets none of
the boxes, and otherwise reports the hit of one of them, no farther than that of any other. -/
theorem C21_boxes_partial (S : Sorter (Obj Ext M)) (ch : List (Obj Ext M)) (n : Node Ext M)
    (l : List (Obj Ext M)) (h : buildTree S ch = .ok (n, l)) (r : Ray Ext) (R : Ray ℝ) (hr : r.Is R)
    (hd : R.dir ≠ ⟨0, 0, 0⟩) (bounds : Obj Ext M → BBox ℝ)
    (hb : ∀ o ∈ ch, ∃ b m, o = .box b m ∧ b.Is (bounds o) ∧ (bounds o).Proper)
    (hfar : ∀ o ∈ ch, ∀ T : ℝ, (bounds o).Mem (R.at T) → T < 9 * 10 ^ 99)
    (hgen : ∀ o ∈ ch, ¬ (bounds o).OnFacePlane R.start) (hlen : 7 < ch.length) :
    ∃ hit, (Obj.tree n).intersect r = .ok (hit, r) ∧
      ((lit 0 <. hit.t) = false ↔ ∀ o ∈ ch, ∀ T > 0, ¬ (bounds o).Mem (R.at T)) ∧
      ((lit 0 <. hit.t) = true → (∃ o ∈ ch, o.intersect r = .ok (hit, r)) ∧
        ∀ o ∈ ch, ∀ h', o.intersect r = .ok (h', r) → (lit 0 <. h'.t) = true → (hit.t <=. h'.t) = true) := by
  have hni : ∀ o ∈ ch, (bounds o).NotInFace R := by
    intro o ho
    have := hgen o ho
    simp only [BBox.OnFacePlane, not_or] at this
    obtain ⟨a1, a2, a3, a4, a5, a6⟩ := this
    exact ⟨fun _ => ⟨a1, a2⟩, fun _ => ⟨a3, a4⟩, fun _ => ⟨a5, a6⟩⟩
  have hhit : ∀ o ∈ ch, ∃ h, o.intersect r = .ok (h, r) ∧
      ((lit 0 <. h.t) = true ↔ ∃ T > 0, (bounds o).Mem (R.at T)) ∧
      ((lit 0 <. h.t) = true → ∃ T : ℝ, h.t.Is T ∧ (bounds o).Mem (R.at T)) := by
    intro o ho
    obtain ⟨b, m, rfl, hbI, hbP⟩ := hb o ho
    obtain ⟨h, e, h0, h1⟩ := C19_box_object b _ hbI hbP r R hr hd (hni _ ho) m
    have hiff := C19_off_surface b _ hbI hbP r R hr hd (hni _ ho) (fun hc => hgen _ ho hc.2)
    refine ⟨h, by rw [Obj.intersect, e]; rfl, ?_, ?_⟩
    · rw [← hiff]
      cases hi : b.intersects r with
      | false => simp [h0 hi, HitRecord.miss]
      | true =>
        obtain ⟨T, N, hT, h0', -⟩ := h1 hi
        obtain ⟨s, e⟩ := hT
        simp [e, h0']
    · intro hp
      cases hi : b.intersects r with
      | false => rw [h0 hi] at hp; simp [HitRecord.miss] at hp
      | true =>
        obtain ⟨T, N, hT, -, hs, -⟩ := h1 hi
        exact ⟨T, hT, hs.1⟩
  classical
  let hits : Obj Ext M → HitRecord Ext M := fun o => if ho : o ∈ ch then (hhit o ho).choose else HitRecord.miss
  have hsp : ∀ o ∈ ch, o.intersect r = .ok (hits o, r) ∧
      ((lit 0 <. (hits o).t) = true ↔ ∃ T > 0, (bounds o).Mem (R.at T)) ∧
      ((lit 0 <. (hits o).t) = true → ∃ T : ℝ, (hits o).t.Is T ∧ (bounds o).Mem (R.at T)) := by
    intro o ho
    simp only [hits, dif_pos ho]
    exact (hhit o ho).choose_spec
  obtain ⟨hit, e, hres⟩ := C21_exact_partial S ch n l h r R hr hd hits (fun o ho => (hsp o ho).1) bounds
    (by
      intro o ho
      obtain ⟨b, m, rfl, hbI, hbP⟩ := hb o ho
      exact ⟨b, by rw [Obj.bounds], hbI, hbP⟩)
    (by
      intro o ho hp
      obtain ⟨T, hT, hm⟩ := (hsp o ho).2.2 hp
      exact ⟨T, hT, hfar o ho T hm, hm⟩) (.inl (by rintro _ ⟨o, ho, rfl⟩; exact hgen o ho)) (.inl hlen)
  refine ⟨hit, e, ?_, ?_⟩
  · rcases hres with ⟨⟨o, ho, e⟩, hp, -⟩ | ⟨hn, hf⟩
    · rw [hp]
      refine ⟨fun hc => (by cases hc), fun hc => ?_⟩
      subst e
      obtain ⟨T, hT, hm⟩ := (hsp o ho).2.1.1 hp
      exact absurd hm (hc o ho T hT)
    · rw [hf]
      refine ⟨fun _ o ho T hT hm => ?_, fun _ => rfl⟩
      have := (hsp o ho).2.1.2 ⟨T, hT, hm⟩
      rw [hn o ho] at this; cases this
  · intro hp
    rcases hres with ⟨⟨o, ho, e⟩, -, hall⟩ | ⟨-, hf⟩
    · refine ⟨⟨o, ho, by rw [e]; exact (hsp o ho).1⟩, fun o' ho' h' e' hp' => ?_⟩
      have e2 := (hsp o' ho').1
      rw [e'] at e2
      simp only [Except.ok.injEq, Prod.mk.injEq, and_true] at e2
      rw [e2] at hp' ⊢
      exact hall o' ho' hp'
    · rw [hf] at hp; cases hp

/-- A row of eight unit cubes and a ray along it: the hypotheses above are met. -/
example (S : Sorter (Obj Ext Unit)) : ∃ (ch : List (Obj Ext Unit)) (n : Node Ext Unit) (l : List (Obj Ext Unit))
    (r : Ray Ext) (R : Ray ℝ) (bounds : Obj Ext Unit → BBox ℝ),
    buildTree S ch = .ok (n, l) ∧ r.Is R ∧ R.dir ≠ ⟨0, 0, 0⟩ ∧
    (∀ o ∈ ch, ∃ b m, o = .box b m ∧ b.Is (bounds o) ∧ (bounds o).Proper) ∧
    (∀ o ∈ ch, ∀ T : ℝ, (bounds o).Mem (R.at T) → T < 9 * 10 ^ 99) ∧
    (∀ o ∈ ch, ¬ (bounds o).OnFacePlane R.start) ∧ 7 < ch.length ∧
    ∃ o ∈ ch, ∃ T > 0, (bounds o).Mem (R.at T) := by
  classical
  let cube : ℕ → BBox Ext := fun k => ⟨⟨Ext.fin (2 * k), Ext.fin 0, Ext.fin 0⟩, ⟨Ext.fin (2 * k + 1), Ext.fin 1, Ext.fin 1⟩⟩
  let cubeR : ℕ → BBox ℝ := fun k => ⟨⟨2 * k, 0, 0⟩, ⟨2 * k + 1, 1, 1⟩⟩
  let ch : List (Obj Ext Unit) := (List.range 8).map fun k => .box (cube k) none
  let bounds : Obj Ext Unit → BBox ℝ := fun o => match o with
    | .box ⟨⟨.num x _, _, _⟩, _⟩ _ => ⟨⟨x, 0, 0⟩, ⟨x + 1, 1, 1⟩⟩
    | _ => ⟨⟨0, 0, 0⟩, ⟨0, 0, 0⟩⟩
  have hm : ∀ o ∈ ch, ∃ k < 8, o = .box (cube k) none ∧ bounds o = cubeR k := by
    intro o ho
    obtain ⟨k, hk, rfl⟩ := List.mem_map.1 ho
    exact ⟨k, List.mem_range.1 hk, rfl, rfl⟩
  have hI : ∀ k, (cube k).Is (cubeR k) := fun k =>
    ⟨⟨⟨_, rfl⟩, ⟨_, rfl⟩, ⟨_, rfl⟩⟩, ⟨_, rfl⟩, ⟨_, rfl⟩, ⟨_, rfl⟩⟩
  obtain ⟨n, l, h⟩ := C22_builds S ch (by simp [ch]) (by
    intro o ho
    obtain ⟨k, -, rfl, -⟩ := hm o ho
    exact ⟨_, rfl, rfl, rfl⟩)
  refine ⟨ch, n, l, ⟨⟨Ext.fin (-1), Ext.fin (1 / 2), Ext.fin (1 / 2)⟩, ⟨Ext.fin 1, Ext.fin 0, Ext.fin 0⟩⟩,
    ⟨⟨-1, 1 / 2, 1 / 2⟩, ⟨1, 0, 0⟩⟩, bounds, h,
    ⟨⟨⟨_, rfl⟩, ⟨_, rfl⟩, ⟨_, rfl⟩⟩, ⟨_, rfl⟩, ⟨_, rfl⟩, ⟨_, rfl⟩⟩, by simp, ?_, ?_, ?_, by simp [ch],
    .box (cube 0) none, List.mem_map.2 ⟨0, by simp, rfl⟩, 3 / 2, by norm_num, ?_⟩
  · intro o ho
    obtain ⟨k, -, rfl, e⟩ := hm o ho
    refine ⟨_, _, rfl, by rw [e]; exact hI k, by rw [e]; norm_num [BBox.Proper, cubeR]⟩
  · intro o ho T hT
    obtain ⟨k, hk, rfl, e⟩ := hm o ho
    rw [e] at hT
    have h2 := hT.2.1
    simp only [cubeR, Ray.at, Vec.madd] at h2
    have : (k : ℝ) < 8 := by exact_mod_cast hk
    have : (100 : ℝ) < 9 * 10 ^ 99 := by norm_num
    linarith
  · intro o ho hc
    obtain ⟨k, -, rfl, e⟩ := hm o ho
    rw [e] at hc
    have : (0 : ℝ) ≤ k := by positivity
    simp only [BBox.OnFacePlane, cubeR] at hc
    rcases hc with h | h | h | h | h | h <;> linarith
  · norm_num [BBox.Mem, Ray.at, Vec.madd, bounds, cube, Ext.fin]

/-! ## Violation: small trees report hits that do not exist -/

/-- A tree of at most 7 members none of which is hit reports a miss, or, past its box, a hit at `9e99`. -/
theorem tree_none [CmpModel F] (hsent : ((lit 0 : F) <. lit (9 * 10 ^ 99)) = true)
    (S : Sorter (Obj F M)) (ch : List (Obj F M)) (hlen : ch.length ≤ 7) (n : Node F M) (l : List (Obj F M))
    (h : buildTree S ch = .ok (n, l)) (r : Ray F) (hits : Obj F M → HitRecord F M)
    (hok : ∀ o ∈ ch, TellsOrFar hits r o) (hnone : NoneHit hits ch) :
    (Obj.tree n).intersect r = .ok (if (n.bb.intersect r <=. lit 0) = true then HitRecord.miss else noHit, r) := by
  rw [buildTree, if_pos (show ch.length ≤ maxFacePerLeaf from hlen)] at h
  obtain ⟨bb, -, h⟩ := bind_eq_ok.1 h
  cases h
  rw [Obj.intersect]
  by_cases hc : ((Node.leaf bb.toF ch).bb.intersect r <=. lit 0) = true
  · rw [if_pos hc, if_pos hc]
  · rw [if_neg hc, if_neg hc, Node.intersect]
    obtain ⟨hit, e, hr⟩ := scan_spec hits r ch hok noHit hsent (le_refl' hsent)
    rw [e]
    rcases hr with ⟨rfl, -⟩ | ⟨⟨⟨o, ho, rfl⟩, hp, -⟩, -⟩
    · rfl
    · rw [hnone o ho] at hp; cases hp

/-- What remains of the property when no member is hit: a tree reports a miss, or a hit at `9e99`. Any arithmetic. -/
theorem C21_none_partial [CmpModel F] (hsent : ((lit 0 : F) <. lit (9 * 10 ^ 99)) = true)
    (S : Sorter (Obj F M)) (ch : List (Obj F M)) (hlen : ch.length ≤ 7) (n : Node F M) (l : List (Obj F M))
    (h : buildTree S ch = .ok (n, l)) (r : Ray F) (hits : Obj F M → HitRecord F M)
    (hok : ∀ o ∈ ch, o.intersect r = .ok (hits o, r)) (hnone : NoneHit hits ch) :
    ∃ hit, (Obj.tree n).intersect r = .ok (hit, r) ∧
      ((lit 0 <. hit.t) = false ∨ (n.bb.intersect r <=. lit 0) = false ∧ hit.t = lit (9 * 10 ^ 99)) := by
  rw [buildTree, if_pos (show ch.length ≤ maxFacePerLeaf from hlen)] at h
  obtain ⟨bb, -, h⟩ := bind_eq_ok.1 h
  cases h
  rw [Obj.intersect]
  by_cases hc : ((Node.leaf bb.toF ch).bb.intersect r <=. lit 0) = true
  · rw [if_pos hc]
    exact ⟨_, rfl, .inl zero_not_pos⟩
  · rw [if_neg hc, Node.intersect]
    obtain ⟨hit, e, hr⟩ := scan_spec hits r ch (fun o ho => ⟨_, hok o ho, .inl rfl⟩) noHit hsent (le_refl' hsent)
    refine ⟨hit, e, ?_⟩
    rcases hr with ⟨rfl, -⟩ | ⟨⟨⟨o, ho, rfl⟩, hp, -⟩, -⟩
    · exact .inr ⟨by simpa using hc, rfl⟩
    · rw [hnone o ho] at hp; cases hp

/-- **C21, violated.** Any tree of at most 7 members reports a hit (at distance `9e99`, without a material) for
every ray that meets its box but none of its members. -/
theorem C21_violated_phantom [CmpModel F] (hsent : ((lit 0 : F) <. lit (9 * 10 ^ 99)) = true)
    (S : Sorter (Obj F M)) (ch : List (Obj F M)) (hlen : ch.length ≤ 7) (n : Node F M) (l : List (Obj F M))
    (h : buildTree S ch = .ok (n, l)) (r : Ray F) (hits : Obj F M → HitRecord F M)
    (hok : ∀ o ∈ ch, o.intersect r = .ok (hits o, r)) (hnone : NoneHit hits ch)
    (hbox : (lit 0 <. n.bb.intersect r) = true) :
    ∃ hit, (Obj.tree n).intersect r = .ok (hit, r) ∧ (lit 0 <. hit.t) = true ∧ hit.t = lit (9 * 10 ^ 99) ∧ hit.mat = none := by
  rw [buildTree, if_pos (show ch.length ≤ maxFacePerLeaf from hlen)] at h
  obtain ⟨bb, -, h⟩ := bind_eq_ok.1 h
  cases h
  rw [Obj.intersect, if_neg ?_, Node.intersect]
  · obtain ⟨hit, e, hr⟩ := scan_spec hits r ch (fun o ho => ⟨_, hok o ho, .inl rfl⟩) noHit hsent (le_refl' hsent)
    refine ⟨hit, e, ?_⟩
    rcases hr with ⟨rfl, -⟩ | ⟨⟨⟨o, ho, rfl⟩, hp, -⟩, -⟩
    · exact ⟨hsent, rfl, rfl⟩
    · rw [hnone o ho] at hp; cases hp
  · intro hc
    have := lt_of_lt_of_le' hbox hc
    rw [zero_not_pos] at this; cases this

/-- A triangle is a tree with one leaf. -/
private theorem triangle_spec (S : Sorter (Obj F M)) (m : Option M) (a b c : Vec F) :
    ∃ na nb nc : Vec F,
      triangle S m a b c = (makeBoundingBox (M := M)
          [.face ⟨a, na, lit 0, lit 0⟩ ⟨b, nb, lit 1, lit 0⟩ ⟨c, nc, lit 0, lit 1⟩] >>= fun bb =>
        .ok (.withMaterial m (.tree (.leaf bb.toF
          [.face ⟨a, na, lit 0, lit 0⟩ ⟨b, nb, lit 1, lit 0⟩ ⟨c, nc, lit 0, lit 1⟩])))) := by
  have hv : mkVertices [a, b, c] (some [((lit 0 : F), (lit 0 : F)), (lit 1, lit 0), (lit 0, lit 1)])
      = .ok [⟨a, Vec.zero, lit 0, lit 0⟩, ⟨b, Vec.zero, lit 1, lit 0⟩, ⟨c, Vec.zero, lit 0, lit 1⟩] := rfl
  set vs : List (Vertex F) := [⟨a, Vec.zero, lit 0, lit 0⟩, ⟨b, Vec.zero, lit 1, lit 0⟩, ⟨c, Vec.zero, lit 0, lit 1⟩]
  have hf : ([(0, 1, 2)] : List (Int × Int × Int)).mapM (triRef vs.length) = .ok [(0, 1, 2)] := rfl
  obtain ⟨na, ha⟩ := calcNormals_get vs [(0, 1, 2)] 0 _ rfl
  obtain ⟨nb, hb⟩ := calcNormals_get vs [(0, 1, 2)] 1 _ rfl
  obtain ⟨nc, hc⟩ := calcNormals_get vs [(0, 1, 2)] 2 _ rfl
  refine ⟨na, nb, nc, ?_⟩
  have hfs : ([(0, 1, 2)] : List Tri).mapM (faceObj (M := M) (calcNormals vs [(0, 1, 2)])) =
      .ok [.face ⟨a, na, lit 0, lit 0⟩ ⟨b, nb, lit 1, lit 0⟩ ⟨c, nc, lit 0, lit 1⟩] := by
    simp only [List.mapM_cons, List.mapM_nil, faceObj, ha, hb, hc]
    rfl
  rw [triangle, meshWithUV, hv, ok_bind, hf, ok_bind, meshObj]
  simp only [hfs, ok_bind, mkTree]
  rw [buildTree, if_pos (by simp [maxFacePerLeaf])]
  generalize makeBoundingBox (F := F) (M := M) _ = x
  cases x with
  | error e => rfl
  | ok bb => rfl

open Ext in
/-- The effect for a user: a ray that passes beside a triangle, but within its bounding box, is
reported as hitting it, with the triangle's material. -/
theorem C21_violated_triangle (S : Sorter (Obj Ext M)) (m : Option M) :
    ∃ (o : Obj Ext M) (hit : HitRecord Ext M) (r : Ray Ext),
      triangle S m ⟨fin 0, fin 0, fin 0⟩ ⟨fin 1, fin 0, fin 0⟩ ⟨fin 0, fin 1, fin 0⟩ = .ok o ∧
      r = ⟨⟨fin (3 / 4), fin (3 / 4), fin (-1)⟩, ⟨fin 0, fin 0, fin 1⟩⟩ ∧
      o.intersect r = .ok (hit, r) ∧ (lit 0 <. hit.t) = true ∧ hit.mat = m := by
  obtain ⟨na, nb, nc, e⟩ := triangle_spec S m (⟨fin 0, fin 0, fin 0⟩ : Vec Ext) ⟨fin 1, fin 0, fin 0⟩ ⟨fin 0, fin 1, fin 0⟩
  set A : Vertex Ext := ⟨⟨fin 0, fin 0, fin 0⟩, na, lit 0, lit 0⟩
  set B : Vertex Ext := ⟨⟨fin 1, fin 0, fin 0⟩, nb, lit 1, lit 0⟩
  set C : Vertex Ext := ⟨⟨fin 0, fin 1, fin 0⟩, nc, lit 0, lit 1⟩
  set r : Ray Ext := ⟨⟨fin (3 / 4), fin (3 / 4), fin (-1)⟩, ⟨fin 0, fin 0, fin 1⟩⟩
  have hbb : makeBoundingBox [(.face A B C : Obj Ext M)]
      = .ok ⟨⟨fin 0, fin 0, fin 0⟩, ⟨fin 1, fin 1, fin 0⟩⟩ := by
    simp only [makeBoundingBox, List.mapM_cons, List.mapM_nil, Obj.bounds, Face.bounds, BBox.fromHull,
      List.foldlM_cons, List.foldlM_nil, BBox.hullStep, checkNaNVec, A, B, C, fin, isNaN_num, Bool.or_self,
      Bool.false_eq_true, if_false, ok_bind, pure_ok, BBox.lower, BBox.upper, lt_num]
    norm_num [checkNaNVec, ok_bind, List.foldlM_cons, List.foldlM_nil, BBox.hullStep, BBox.lower, BBox.upper, pure_ok]
  have hbox : (lit 0 <. (⟨⟨fin 0, fin 0, fin 0⟩, ⟨fin 1, fin 1, fin 0⟩⟩ : BBox Ext).intersect r) = true := by
    simp only [BBox.intersect, BBox.tenTex, BBox.slab, BBox.max3, BBox.min3, r, fin, lit_ext, fmin, fmax]
    norm_num [num_div_num, num_div_zero, num_sub_num, num_mul_inf, inf_mul_num, num_mul_num, num_add_num, neg_num, sgn]
  have hface : (Face.hit A B C r : HitRecord Ext M) = HitRecord.miss := by
    have ht : Face.planeT A B C r = fin 1 := by
      simp only [Face.planeT, Vec.sub, Vec.cross, Vec.dot, fin, A, B, C, r]
      norm_num [num_sub_num, num_mul_num, num_add_num, neg_num, num_div_num, sgn]
    have hb : (Face.bary A B C r (fin 1)).2.1.Is (3 / 4) ∧ (Face.bary A B C r (fin 1)).1.Is (-1 / 2) := by
      simp only [Face.bary, Vec.sub, Vec.cross, Vec.dot, Vec.madd, Vec.len2, fin, A, B, C, r]
      norm_num [num_sub_num, num_mul_num, num_add_num, neg_num, num_div_num, sgn]
      exact ⟨⟨_, rfl⟩, ⟨_, rfl⟩⟩
    obtain ⟨s, hs⟩ := hb.2
    simp only [Face.hit, ht, hs]
    norm_num [fin]
  have hnode : buildTree S [(.face A B C : Obj Ext M)] = .ok (.leaf ⟨⟨fin 0, fin 0, fin 0⟩, ⟨fin 1, fin 1, fin 0⟩⟩ [.face A B C], [.face A B C]) := by
    rw [buildTree, if_pos (by simp [maxFacePerLeaf]), hbb]; rfl
  obtain ⟨hit, e2, hp, -⟩ := C21_violated_phantom (by simp) S [.face A B C] (by simp) _ _ hnode r
    (fun _ => HitRecord.miss) (by
      intro o ho
      rw [List.mem_singleton] at ho
      subst ho
      rw [Obj.intersect, hface]) (fun o ho => by simp [HitRecord.miss]) hbox
  refine ⟨_, { hit with mat := m }, r, by rw [e, hbb, ok_bind], rfl, ?_, hp, rfl⟩
  rw [Obj.intersect]
  have e3 : (Obj.tree (.leaf (BBox.toF ⟨⟨fin 0, fin 0, fin 0⟩, ⟨fin 1, fin 1, fin 0⟩⟩) [.face A B C]) : Obj Ext M).intersect r = .ok (hit, r) := e2
  rw [e3, ok_bind]; rfl

end BR
