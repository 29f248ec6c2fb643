import Verif.Spec.Backdrop
import Verif.Lemmas.Showable

/-! In front of a backdrop the records by which small trees report a miss do no harm. -/

namespace BR
set_option linter.unusedSectionVars false

variable {F S M : Type} [Add F] [Sub F] [Mul F] [Div F] [Neg F] [GoFloat F]

/-- A record that has a material with `P`, if it is in front of the ray, or none and is far beyond the backdrop. -/
def Veiled (P : M → Prop) (h : HitRecord F M) : Prop :=
  (h.t >. lit 0) = true → (∃ m, h.mat = some m ∧ P m) ∨ h.mat = none ∧ (lit (9 * 10 ^ 99) <=. h.t) = true

variable [CmpModel F] {P : M → Prop} (law : FarLaw F)
include law

theorem miss_veiled : Veiled P (HitRecord.miss : HitRecord F M) := fun h => .inl (miss_dressed h)

theorem noHit_veiled : Veiled P (noHit : HitRecord F M) := fun _ => by
  obtain ⟨_, x, -, hx, -⟩ := (CmpModel.lt_iff _ _).1 law.sentinel
  exact .inr ⟨rfl, (CmpModel.le_iff _ _).2 ⟨x, x, hx, hx, le_rfl⟩⟩

theorem far_beyond {t : F} (h : (lit (9 * 10 ^ 99) <=. t) = true) : (lit (10 ^ 99) <. t) = true := by
  obtain ⟨x, y, hx, hy, hxy⟩ := (CmpModel.lt_iff _ _).1 law.sentinel
  obtain ⟨y', z, hy', hz, hyz⟩ := (CmpModel.le_iff _ _).1 h
  rw [hy, Option.some.injEq] at hy'
  subst hy'
  exact (CmpModel.lt_iff _ _).2 ⟨x, z, hx, hz, hxy.trans_le hyz⟩

theorem le_of_gt_zero {a : F} (h : (lit 0 <. a) = true) : (lit 0 <=. a) = true := by
  obtain ⟨x, y, hx, hy, hxy⟩ := (CmpModel.lt_iff _ _).1 h
  exact (CmpModel.le_iff _ _).2 ⟨x, y, hx, hy, hxy.le⟩

theorem zero_le_zero : ((lit 0 : F) <=. lit 0) = true :=
  (CmpModel.le_iff _ _).2 ⟨0, 0, CmpModel.key_zero, CmpModel.key_zero, le_rfl⟩

theorem marchLoop_veiled {isect : Ray F → GoM (HitRecord F M × Ray F)} (hi : ∀ r h r', isect r = .ok (h, r') → Veiled P h)
    {inside : Vec F → GoM Bool} (want : Bool) (maxT : F) (start : Vec F) (ttl : Nat)
    (tOff : F) (hoff : (lit 0 <=. tOff) = true) (h : HitRecord F M) (r : Ray F) (hh : Veiled P h)
    (h' : HitRecord F M) (r' : Ray F) (e : marchLoop isect inside want maxT start ttl tOff h r = .ok (h', r')) :
    Veiled P h' := by
  induction ttl generalizing tOff h r with
  | zero =>
    unfold marchLoop at e
    split at e <;> simp only [Except.ok.injEq, Prod.mk.injEq] at e <;> rw [← e.1] <;> exact miss_veiled law
  | succ n ih =>
    unfold marchLoop at e
    split at e
    next hc =>
      obtain ⟨b, eb, e⟩ := bind_eq_ok.1 e
      simp only [Bool.and_eq_true] at hc
      split at e
      · simp only [pure_ok, Except.ok.injEq, Prod.mk.injEq] at e
        rw [← e.1]
        intro _
        rcases hh hc.1.1 with h1 | ⟨h1, h2⟩
        · exact .inl h1
        · exact .inr ⟨h1, law.add_far _ _ h2 hoff⟩
      · obtain ⟨⟨h2, r2⟩, e2, e⟩ := bind_eq_ok.1 e
        refine ih _ ?_ _ _ (hi _ _ _ e2) e
        exact law.add_nonneg _ _ hoff (law.add_nonneg _ _ (le_of_gt_zero law hc.1.1) (le_of_gt_zero law law.tiny_pos))
    · simp only [Except.ok.injEq, Prod.mk.injEq] at e
      rw [← e.1]; exact miss_veiled law

theorem march_veiled {isect : Ray F → GoM (HitRecord F M × Ray F)} (hi : ∀ r h r', isect r = .ok (h, r') → Veiled P h)
    {inside : Vec F → GoM Bool} (want : Bool) (maxT : F) (r : Ray F) (h : HitRecord F M) (r' : Ray F)
    (e : march isect inside want r maxT = .ok (h, r')) : Veiled P h := by
  dsimp only [march] at e
  obtain ⟨⟨h1, r1⟩, e1, e⟩ := bind_eq_ok.1 e
  exact marchLoop_veiled law hi _ _ _ _ _ (zero_le_zero law) _ _ (hi _ _ _ e1) _ _ e

omit law in
theorem frontmost_cases (a b : HitRecord F M) :
    HitRecord.frontmost a b = a ∨ HitRecord.frontmost a b = b ∨ (HitRecord.frontmost a b).t = lit 0 := by
  unfold HitRecord.frontmost
  dsimp only
  split <;> dsimp only <;> split <;> first | exact .inl rfl | exact .inr (.inl rfl) | (split <;> first | exact .inl rfl | exact .inr (.inl rfl) | exact .inr (.inr rfl))

theorem marchBoth_veiled {isectA isectB : Ray F → GoM (HitRecord F M × Ray F)}
    (ha : ∀ r h r', isectA r = .ok (h, r') → Veiled P h) (hb : ∀ r h r', isectB r = .ok (h, r') → Veiled P h)
    {insideA insideB : Vec F → GoM Bool} (want : Bool) (r : Ray F) (h : HitRecord F M) (r' : Ray F)
    (e : marchBoth isectA insideA isectB insideB want r = .ok (h, r')) : Veiled P h := by
  dsimp only [marchBoth] at e
  obtain ⟨⟨h1, r1⟩, e1, e⟩ := bind_eq_ok.1 e
  obtain ⟨⟨h2, r2⟩, e2, e⟩ := bind_eq_ok.1 e
  simp only [pure_ok, Except.ok.injEq, Prod.mk.injEq] at e
  have d1 := march_veiled law ha want GoFloat.inf _ _ _ e1
  have d2 := march_veiled law hb want _ _ _ _ e2
  rw [← e.1]
  rcases frontmost_cases h1 h2 with h | h | h
  · rw [h]; exact d1
  · rw [h]; exact d2
  · intro hp
    rw [h, zero_not_pos] at hp; cases hp

theorem visitChild_veiled {isect : Ray F → GoM (HitRecord F M × Ray F)}
    (hi : ∀ r h r', isect r = .ok (h, r') → Veiled P h) {b : Bool} {better : HitRecord F M → HitRecord F M → Bool}
    {front : HitRecord F M} (hf : Veiled P front) {r : Ray F} {h : HitRecord F M} {r' : Ray F}
    (e : visitChild b isect better front r = .ok (h, r')) : Veiled P h := by
  unfold visitChild at e
  split at e
  · obtain ⟨⟨h1, r1⟩, e1, e⟩ := bind_eq_ok.1 e
    simp only [pure_ok, Except.ok.injEq, Prod.mk.injEq] at e
    rw [← e.1]
    split
    · exact hi _ _ _ e1
    · exact hf
  · simp only [Except.ok.injEq, Prod.mk.injEq] at e
    rw [← e.1]; exact hf

mutual

theorem Obj.Clad.veiled (o : Obj F M) (ho : o.Clad P) (r : Ray F) (h : HitRecord F M) (r' : Ray F)
    (e : o.intersect r = .ok (h, r')) : Veiled P h := by
  cases o with
  | backdrop m =>
    rw [Obj.Clad] at ho
    exact fun hp => .inl (Obj.Wears.dressed (.backdrop m) (by rw [Obj.Wears]; exact ho) _ _ _ e hp)
  | box bb m =>
    rw [Obj.Clad] at ho
    exact fun hp => .inl (Obj.Wears.dressed (.box bb m) (by rw [Obj.Wears]; exact ho) _ _ _ e hp)
  | quadric q =>
    rw [Obj.Clad] at ho
    exact fun hp => .inl (Obj.Wears.dressed (.quadric q) (by rw [Obj.Wears]; exact ho) _ _ _ e hp)
  | iso s =>
    rw [Obj.Clad] at ho
    exact fun hp => .inl (Obj.Wears.dressed (.iso s) (by rw [Obj.Wears]; exact ho) _ _ _ e hp)
  | withMaterial m o =>
    rw [Obj.Clad] at ho
    exact fun hp => .inl (Obj.Wears.dressed (.withMaterial m o) (by rw [Obj.Wears]; exact ho) _ _ _ e hp)
  | prim i ins b =>
    rw [Obj.Clad] at ho
    exact fun hp => .inl (Obj.Wears.dressed (.prim i ins b) (by rw [Obj.Wears]; exact ho) _ _ _ e hp)
  | face => rw [Obj.Clad] at ho; exact ho.elim
  | allSpace => rw [Obj.Clad] at ho; exact ho.elim
  | bounded bb o =>
    rw [Obj.Clad] at ho
    rw [Obj.intersect] at e
    split at e
    · simp only [Except.ok.injEq, Prod.mk.injEq] at e
      rw [← e.1]; exact miss_veiled law
    · exact Obj.Clad.veiled o ho _ _ _ e
  | tree root =>
    rw [Obj.Clad] at ho
    rw [Obj.intersect] at e
    split at e
    · simp only [Except.ok.injEq, Prod.mk.injEq] at e
      rw [← e.1]; exact miss_veiled law
    · exact Node.Clad.veiled root ho _ _ _ e
  | transformed bb f i o =>
    rw [Obj.Clad] at ho
    rw [Obj.intersect] at e
    split at e
    · simp only [Except.ok.injEq, Prod.mk.injEq] at e
      rw [← e.1]; exact miss_veiled law
    · obtain ⟨⟨h1, r1⟩, e1, e⟩ := bind_eq_ok.1 e
      simp only [pure_ok, Except.ok.injEq, Prod.mk.injEq] at e
      rw [← e.1]
      exact (Obj.Clad.veiled o ho _ h1 _ e1 :)
  | and a b =>
    rw [Obj.Clad] at ho
    rw [Obj.intersect] at e
    exact marchBoth_veiled law (Obj.Clad.veiled a ho.1) (Obj.Clad.veiled b ho.2) true _ _ _ e
  | or a b =>
    rw [Obj.Clad] at ho
    rw [Obj.intersect] at e
    exact marchBoth_veiled law (Obj.Clad.veiled a ho.1) (Obj.Clad.veiled b ho.2) false _ _ _ e
  | restrict a b =>
    rw [Obj.Clad] at ho
    rw [Obj.intersect] at e
    exact march_veiled law (Obj.Clad.veiled a ho) true _ _ _ _ e
  | not o =>
    rw [Obj.Clad] at ho
    rw [Obj.intersect] at e
    obtain ⟨⟨h1, r1⟩, e1, e⟩ := bind_eq_ok.1 e
    simp only [pure_ok, Except.ok.injEq, Prod.mk.injEq] at e
    rw [← e.1]
    exact (Obj.Clad.veiled o ho _ h1 _ e1 :)
  | hollow o => rw [Obj.Clad] at ho; rw [Obj.intersect] at e; exact Obj.Clad.veiled o ho _ _ _ e
  | remapped o f =>
    rw [Obj.Clad] at ho
    rw [Obj.intersect] at e
    obtain ⟨⟨h1, r1⟩, e1, e⟩ := bind_eq_ok.1 e
    simp only [pure_ok, Except.ok.injEq, Prod.mk.injEq] at e
    rw [← e.1]
    exact (Obj.Clad.veiled o ho _ h1 _ e1 :)

theorem Node.Clad.veiled (n : Node F M) (hn : n.Clad P) (r : Ray F) (h : HitRecord F M) (r' : Ray F)
    (e : n.intersect r = .ok (h, r')) : Veiled P h := by
  cases n with
  | leaf bb os =>
    rw [Node.Clad] at hn
    rw [Node.intersect] at e
    exact Obj.AllClad.veiled os hn noHit (noHit_veiled law) r h r' e
  | inner bb a b =>
    rw [Node.Clad] at hn
    rw [Node.intersect] at e
    dsimp only at e
    obtain ⟨⟨h1, r1⟩, e1, e⟩ := bind_eq_ok.1 e
    obtain ⟨⟨h2, r2⟩, e2, e⟩ := bind_eq_ok.1 e
    simp only [pure_ok, Except.ok.injEq, Prod.mk.injEq] at e
    have l1 := visitChild_veiled law (Node.Clad.veiled a hn.1) (noHit_veiled law) e1
    have l2 := visitChild_veiled law (Node.Clad.veiled b hn.2) l1 e2
    rw [← e.1]
    split
    · intro hp
      dsimp only at hp
      rw [zero_not_pos] at hp; cases hp
    · exact l2

theorem Obj.AllClad.veiled (os : List (Obj F M)) (hos : Obj.AllClad P os) (front : HitRecord F M)
    (hf : Veiled P front) (r : Ray F) (h : HitRecord F M) (r' : Ray F) (e : Obj.scan os front r = .ok (h, r')) :
    Veiled P h := by
  cases os with
  | nil =>
    rw [Obj.scan] at e
    simp only [Except.ok.injEq, Prod.mk.injEq] at e
    rw [← e.1]; exact hf
  | cons o os =>
    rw [Obj.AllClad] at hos
    rw [Obj.scan] at e
    obtain ⟨⟨h1, r1⟩, e1, e⟩ := bind_eq_ok.1 e
    refine Obj.AllClad.veiled os hos.2 _ ?_ _ _ _ e
    split
    · exact Obj.Clad.veiled o hos.1 _ _ _ e1
    · exact hf

end

/-! ## Scenes -/

omit law in
/-- What is needed of an object to be shown in front of a backdrop. -/
def Meek (o : Obj F (Mat F)) : Prop := Replies o.intersect ∧ ∀ r h r', o.intersect r = .ok (h, r') → Veiled Mat.Total h

theorem meek_of {o : Obj F (Mat F)} (h1 : o.Sturdy) (h2 : o.Clad Mat.Total) : Meek o :=
  ⟨Obj.Sturdy.answers o h1, Obj.Clad.veiled law o h2⟩

omit law in
theorem Meek.black {o : Obj F (Mat F)} (h : Meek o) : Meek (.withMaterial (some .black) o) := by
  refine ⟨fun r => ?_, fun r h' r' e _ => .inl ?_⟩
  · obtain ⟨a, r', e⟩ := h.1 r
    rw [Obj.intersect, e, ok_bind]
    exact ⟨_, _, rfl⟩
  · rw [Obj.intersect] at e
    obtain ⟨⟨h1, r1⟩, -, e⟩ := bind_eq_ok.1 e
    simp only [pure_ok, Except.ok.injEq, Prod.mk.injEq] at e
    rw [← e.1]; exact ⟨_, rfl, trivial⟩

/-- Once something not beyond the backdrop has been found, what is found has a material. -/
theorem intersectLoop_near {os : List (Obj F (Mat F))} (hos : ∀ o ∈ os, Meek o) (front : HitRecord F (Mat F))
    (hf : ∃ m, front.mat = some m ∧ m.Total) (hn : (lit (10 ^ 99) <. front.t) = false) (r : Ray F) :
    ∃ h r', intersectLoop os front r = .ok (h, r') ∧ (lit (10 ^ 99) <. h.t) = false ∧ ∃ m, h.mat = some m ∧ m.Total := by
  induction os generalizing front r with
  | nil => exact ⟨_, _, rfl, hn, hf⟩
  | cons o os ih =>
    obtain ⟨h, r', e⟩ := (hos o (by simp)).1 r
    rw [intersectLoop, e, ok_bind]
    have key : ((h.t >. lit 0 && h.t <=. front.t) = true) → (lit (10 ^ 99) <. h.t) = false := by
      intro hc
      simp only [Bool.and_eq_true] at hc
      rw [Bool.eq_false_iff]
      intro hlt
      obtain ⟨x, y, hx, hy, hxy⟩ := (CmpModel.lt_iff _ _).1 hlt
      obtain ⟨y', z, hy', hz, hyz⟩ := (CmpModel.le_iff _ _).1 hc.2
      rw [hy, Option.some.injEq] at hy'
      subst hy'
      have := (CmpModel.lt_iff _ _).2 ⟨x, z, hx, hz, hxy.trans_le hyz⟩
      rw [hn] at this; cases this
    refine ih (fun o ho => hos o (by simp [ho])) _ ?_ ?_ _
    · split
      next hc =>
        have := key hc
        simp only [Bool.and_eq_true] at hc
        rcases (hos o (by simp)).2 _ _ _ e hc.1 with h1 | ⟨-, h2⟩
        · exact h1
        · rw [far_beyond law h2] at this; cases this
      next => exact hf
    · split
      next hc => exact key hc
      next => exact hn

theorem intersectLoop_backed {os : List (Obj F (Mat F))} (hos : ∀ o ∈ os, Meek o) (hb : ∃ m, Obj.backdrop m ∈ os)
    (front : HitRecord F (Mat F)) (hf : (∃ m, front.mat = some m ∧ m.Total) ∨ (lit (10 ^ 99) <. front.t) = true) (r : Ray F) :
    ∃ h r', intersectLoop os front r = .ok (h, r') ∧ (lit (10 ^ 99) <. h.t) = false ∧ ∃ m, h.mat = some m ∧ m.Total := by
  induction os generalizing front r with
  | nil => obtain ⟨m, h⟩ := hb; cases h
  | cons o os ih =>
    by_cases hm : ∃ m, Obj.backdrop m ∈ os
    · obtain ⟨h, r', e⟩ := (hos o (by simp)).1 r
      rw [intersectLoop, e, ok_bind]
      refine ih (fun o ho => hos o (by simp [ho])) hm _ ?_ _
      split
      next hc =>
        simp only [Bool.and_eq_true] at hc
        exact ((hos o (by simp)).2 _ _ _ e hc.1).imp id fun h => far_beyond law h.2
      next => exact hf
    · obtain ⟨m, hmem⟩ := hb
      rcases List.mem_cons.1 hmem with hmem | hmem
      · subst hmem
        have hb := (hos (.backdrop m) (by simp)).2 r ⟨lit (10 ^ 99), r.dir, r.dir, m⟩ r (by rw [Obj.intersect])
        have hself : ((lit (10 ^ 99) : F) <. lit (10 ^ 99)) = false := by
          rw [Bool.eq_false_iff]
          intro hlt
          obtain ⟨x, y, hx, hy, hxy⟩ := (CmpModel.lt_iff _ _).1 hlt
          rw [hx, Option.some.injEq] at hy
          exact absurd hxy (by rw [hy]; exact lt_irrefl _)
        have hmat : ∃ x, m = some x ∧ x.Total := by
          rcases hb law.pos with h | ⟨-, h⟩
          · exact h
          · rw [far_beyond law h] at hself; cases hself
        rw [intersectLoop, Obj.intersect, ok_bind]
        dsimp only
        rw [show ((lit (10 ^ 99) : F) >. lit 0) = true from law.pos, Bool.true_and]
        cases hc : ((lit (10 ^ 99) : F) <=. front.t) with
        | true =>
          rw [if_pos rfl]
          exact intersectLoop_near law (fun o ho => hos o (by simp [ho])) _ hmat hself r
        | false =>
          rw [if_neg (by simp)]
          have hlt : ((lit (10 ^ 99) : F) <. front.t) = false := by
            rw [Bool.eq_false_iff]
            intro hlt
            obtain ⟨x, y, hx, hy, hxy⟩ := (CmpModel.lt_iff _ _).1 hlt
            have := (CmpModel.le_iff _ _).2 ⟨x, y, hx, hy, hxy.le⟩
            rw [hc] at this; cases this
          refine intersectLoop_near law (fun o ho => hos o (by simp [ho])) _ ?_ hlt r
          rcases hf with h | h
          · exact h
          · rw [hlt] at h; cases h
      · exact absurd ⟨m, hmem⟩ hm

omit law in
theorem occludeLoop_meek {os : List (Obj F (Mat F))} (hos : ∀ o ∈ os, Meek o) (len : F) (c : Color F) (r : Ray F) :
    ∃ c' r', occludeLoop os len c r = .ok (c', r') := by
  induction os generalizing c r with
  | nil => exact ⟨_, _, rfl⟩
  | cons o os ih =>
    obtain ⟨h, r', e⟩ := (hos o (by simp)).1 r
    rw [occludeLoop, e, ok_bind]
    dsimp only
    have ih' := fun c r => ih (fun o ho => hos o (by simp [ho])) c r
    split
    next hc =>
      simp only [Bool.and_eq_true] at hc
      rcases (hos o (by simp)).2 _ _ _ e hc.1 with ⟨m, em, hm⟩ | ⟨em, -⟩
      · rw [em]
        cases m with
        | transparent tex b =>
          obtain ⟨k, ek⟩ := hm h.loc
          simp only [Mat.filter?, ek, ok_bind, pure_ok]
          exact ih' _ _
        | _ => exact ⟨_, _, rfl⟩
      · rw [em]; exact ⟨_, _, rfl⟩
    next => exact ih' _ _

/-! ## Constructors -/

omit law [CmpModel F]

theorem allClad_iff (os : List (Obj F M)) : Obj.AllClad P os ↔ ∀ o ∈ os, o.Clad P := by
  induction os with
  | nil => simp [Obj.AllClad]
  | cons o os ih => rw [Obj.AllClad, ih]; simp

theorem buildTree_clad (Srt : Sorter (Obj F M)) (ch : List (Obj F M)) (hch : ∀ o ∈ ch, o.Clad P)
    (root : Node F M) (l : List (Obj F M)) (e : buildTree Srt ch = .ok (root, l)) : root.Clad P :=
  buildTree_prop (fun bb os h => by rw [Node.Clad]; exact (allClad_iff os).2 h)
    (fun bb a b ha hb => by rw [Node.Clad]; exact ⟨ha, hb⟩) Srt _ ch le_rfl hch root l e

mutual

theorem Obj.Wears.clad (o : Obj F M) (ho : o.Wears P) : o.Clad P := by
  cases o with
  | backdrop | box | quadric | iso | withMaterial | prim => rw [Obj.Wears] at ho; rw [Obj.Clad]; exact ho
  | face | allSpace => rw [Obj.Wears] at ho; exact ho.elim
  | bounded _ o | transformed _ _ _ o | not o | hollow o | remapped o _ | restrict o _ =>
    rw [Obj.Wears] at ho; rw [Obj.Clad]; exact Obj.Wears.clad o ho
  | and a b | or a b => rw [Obj.Wears] at ho; rw [Obj.Clad]; exact ⟨Obj.Wears.clad a ho.1, Obj.Wears.clad b ho.2⟩
  | tree root =>
    cases root with
    | leaf bb os => rw [Obj.Wears] at ho; exact ho.elim
    | inner bb a b =>
      rw [Obj.Wears] at ho; rw [Obj.Clad, Node.Clad]
      exact ⟨Node.Wears.clad a ho.1, Node.Wears.clad b ho.2⟩

theorem Node.Wears.clad (n : Node F M) (hn : n.Wears P) : n.Clad P := by
  cases n with
  | leaf bb os => rw [Node.Wears] at hn; rw [Node.Clad]; exact Obj.AllWear.clad os hn
  | inner bb a b => rw [Node.Wears] at hn; rw [Node.Clad]; exact ⟨Node.Wears.clad a hn.1, Node.Wears.clad b hn.2⟩

theorem Obj.AllWear.clad (os : List (Obj F M)) (hos : Obj.AllWear P os) : Obj.AllClad P os := by
  cases os with
  | nil => rw [Obj.AllClad]; trivial
  | cons o os => rw [Obj.AllWear] at hos; rw [Obj.AllClad]; exact ⟨Obj.Wears.clad o hos.1, Obj.AllWear.clad os hos.2⟩

end

theorem transformed_solid (t : Affine F) (o o' : Obj F (Mat F)) (ho : o.Solid) (e : o.mkTransformed t = .ok o') : o'.Solid := by
  have base : ∀ (o o' : Obj F (Mat F)) (t : Affine F), o.Solid → (do
      let bb ← o.bounds
      let bounds ← bb.transform t
      return .transformed bounds t t.inverse o : GoM (Obj F (Mat F))) = .ok o' → o'.Solid := by
    intro o o' t ho e
    obtain ⟨bb, -, e⟩ := bind_eq_ok.1 e
    obtain ⟨bounds, -, e⟩ := bind_eq_ok.1 e
    simp only [pure_ok, Except.ok.injEq] at e
    subst e
    exact ⟨by rw [Obj.Sturdy]; exact ho.1, by rw [Obj.Clad]; exact ho.2.1, by rw [Obj.Decides]; exact ho.2.2⟩
  revert t
  cases o with
  | transformed b f i o =>
    intro t e
    have ho' : o.Solid := by
      obtain ⟨h1, h2, h3⟩ := ho
      rw [Obj.Sturdy] at h1
      rw [Obj.Clad] at h2
      rw [Obj.Decides] at h3
      exact ⟨h1, h2, h3⟩
    rw [Obj.mkTransformed] at e
    exact transformed_solid (f.before t) o o' ho' e
  | _ => intro t e; exact base _ _ t ho e

theorem Obj.Good.solid {o : Obj F (Mat F)} (h : o.Good) : o.Solid := ⟨h.1.1, Obj.Wears.clad o h.1.2, h.2⟩

end BR
