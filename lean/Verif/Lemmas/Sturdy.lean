import Verif.Lemmas.GoM
import Verif.Lemmas.Cmp
import Verif.Lemmas.Object
import Verif.Num.Flo
import Verif.Spec.Sturdy
import Verif.Lemmas.Agree

/-! Sturdy scenes never crash: by induction over objects, materials and the recursion depth. -/

namespace BR
set_option linter.unusedSectionVars false

variable {F S M : Type} [Add F] [Sub F] [Mul F] [Div F] [Neg F] [GoFloat F]

/-- An intersection routine that always answers. -/
def Replies (isect : Ray F → GoM (HitRecord F M × Ray F)) : Prop := ∀ r, ∃ h r', isect r = .ok (h, r')

mutual

theorem Obj.Decides.total (o : Obj F M) (ho : o.Decides) (p : Vec F) : ∃ b, o.inside p = .ok b := by
  cases o with
  | backdrop => exact ⟨_, rfl⟩
  | bounded bb o =>
    rw [Obj.Decides] at ho
    rw [Obj.inside]
    split
    · exact ⟨_, rfl⟩
    · exact Obj.Decides.total o ho p
  | box => rw [Obj.inside]; exact ⟨_, rfl⟩
  | quadric => rw [Obj.inside]; exact ⟨_, rfl⟩
  | iso s => rw [Obj.Decides] at ho; rw [Obj.inside]; exact ho p
  | face => rw [Obj.inside]; exact ⟨_, rfl⟩
  | tree root => rw [Obj.Decides] at ho; rw [Obj.inside]; exact Node.Decides.total root ho p
  | withMaterial m o => rw [Obj.Decides] at ho; rw [Obj.inside]; exact Obj.Decides.total o ho p
  | transformed bb f i o => rw [Obj.Decides] at ho; rw [Obj.inside]; exact Obj.Decides.total o ho _
  | and a b =>
    rw [Obj.Decides] at ho
    rw [Obj.inside]
    obtain ⟨x, ex⟩ := Obj.Decides.total a ho.1 p
    rw [ex, ok_bind]
    split
    · exact Obj.Decides.total b ho.2 p
    · exact ⟨_, rfl⟩
  | or a b =>
    rw [Obj.Decides] at ho
    rw [Obj.inside]
    obtain ⟨x, ex⟩ := Obj.Decides.total a ho.1 p
    rw [ex, ok_bind]
    split
    · exact ⟨_, rfl⟩
    · exact Obj.Decides.total b ho.2 p
  | restrict a b =>
    rw [Obj.Decides] at ho
    rw [Obj.inside]
    obtain ⟨x, ex⟩ := Obj.Decides.total a ho.1 p
    rw [ex, ok_bind]
    split
    · exact Obj.Decides.total b ho.2 p
    · exact ⟨_, rfl⟩
  | not o =>
    rw [Obj.Decides] at ho
    rw [Obj.inside]
    obtain ⟨x, ex⟩ := Obj.Decides.total o ho p
    rw [ex, ok_bind]
    exact ⟨_, rfl⟩
  | hollow o => rw [Obj.inside]; exact ⟨_, rfl⟩
  | remapped o f => rw [Obj.Decides] at ho; rw [Obj.inside]; exact Obj.Decides.total o ho p
  | allSpace => rw [Obj.inside]; exact ⟨_, rfl⟩
  | prim i ins b => rw [Obj.Decides] at ho; rw [Obj.inside]; exact ho p

theorem Node.Decides.total (n : Node F M) (hn : n.Decides) (p : Vec F) : ∃ b, n.inside p = .ok b := by
  cases n with
  | leaf bb os => rw [Node.Decides] at hn; rw [Node.inside]; exact Obj.AllDecide.total os hn p
  | inner bb a b =>
    rw [Node.Decides] at hn
    rw [Node.inside]
    obtain ⟨x, ex⟩ := Node.Decides.total a hn.1 p
    rw [ex, ok_bind]
    split
    · exact ⟨_, rfl⟩
    · exact Node.Decides.total b hn.2 p

theorem Obj.AllDecide.total (os : List (Obj F M)) (hos : Obj.AllDecide os) (p : Vec F) :
    ∃ b, Obj.anyInside os p = .ok b := by
  cases os with
  | nil => rw [Obj.anyInside]; exact ⟨_, rfl⟩
  | cons o os =>
    rw [Obj.AllDecide] at hos
    rw [Obj.anyInside]
    obtain ⟨x, ex⟩ := Obj.Decides.total o hos.1 p
    rw [ex, ok_bind]
    split
    · exact ⟨_, rfl⟩
    · exact Obj.AllDecide.total os hos.2 p

end

theorem marchLoop_answers {isect : Ray F → GoM (HitRecord F M × Ray F)} (hi : Replies isect)
    {inside : Vec F → GoM Bool} (hin : ∀ p, ∃ b, inside p = .ok b) (want : Bool) (maxT : F) (start : Vec F) (ttl : Nat)
    (tOff : F) (h : HitRecord F M) (r : Ray F) : ∃ h' r', marchLoop isect inside want maxT start ttl tOff h r = .ok (h', r') := by
  induction ttl generalizing tOff h r with
  | zero =>
    unfold marchLoop
    split
    · exact ⟨_, _, rfl⟩
    · exact ⟨_, _, rfl⟩
  | succ n ih =>
    unfold marchLoop
    split
    · obtain ⟨b, eb⟩ := hin (r.at h.t)
      simp only [eb, ok_bind]
      split
      · exact ⟨_, _, rfl⟩
      · obtain ⟨h', r', e⟩ := hi { r with start := r.at (h.t + tiny) }
        simp only [e, ok_bind]
        exact ih _ _ _
    · exact ⟨_, _, rfl⟩

theorem march_answers {isect : Ray F → GoM (HitRecord F M × Ray F)} (hi : Replies isect)
    {inside : Vec F → GoM Bool} (hin : ∀ p, ∃ b, inside p = .ok b) (want : Bool) (maxT : F) :
    Replies fun r => march isect inside want r maxT := by
  intro r
  obtain ⟨h, r', e⟩ := hi r
  simp only [march, e, ok_bind]
  exact marchLoop_answers hi hin _ _ _ _ _ _ _

theorem marchBoth_answers {isectA isectB : Ray F → GoM (HitRecord F M × Ray F)} (ha : Replies isectA)
    (hb : Replies isectB) {insideA insideB : Vec F → GoM Bool} (ia : ∀ p, ∃ b, insideA p = .ok b)
    (ib : ∀ p, ∃ b, insideB p = .ok b) (want : Bool) :
    Replies fun r => marchBoth isectA insideA isectB insideB want r := by
  intro r
  obtain ⟨h, r', e⟩ := march_answers ha ib want GoFloat.inf r
  dsimp only at e
  simp only [marchBoth, e, ok_bind]
  obtain ⟨h2, r2, e2⟩ := march_answers hb ia want (if h.t >. lit 0 then h.t else GoFloat.inf) r'
  dsimp only at e2
  simp only [e2, ok_bind]
  exact ⟨_, _, rfl⟩

theorem visitChild_answers {isect : Ray F → GoM (HitRecord F M × Ray F)} (hi : Replies isect) (b : Bool)
    (better : HitRecord F M → HitRecord F M → Bool) (front : HitRecord F M) : Replies (visitChild b isect better front) := by
  intro r
  unfold visitChild
  split
  · obtain ⟨h, r', e⟩ := hi r
    rw [e, ok_bind]
    exact ⟨_, _, rfl⟩
  · exact ⟨_, _, rfl⟩

mutual

theorem Obj.Sturdy.answers (o : Obj F M) (ho : o.Sturdy) : Replies o.intersect := by
  intro r
  cases o with
  | backdrop => rw [Obj.intersect]; exact ⟨_, _, rfl⟩
  | bounded bb o =>
    rw [Obj.Sturdy] at ho
    rw [Obj.intersect]
    split
    · exact ⟨_, _, rfl⟩
    · exact Obj.Sturdy.answers o ho r
  | box bb m =>
    rw [Obj.Sturdy] at ho
    rw [Obj.intersect]
    obtain ⟨h, e⟩ := ho r
    rw [e, ok_bind]
    exact ⟨_, _, rfl⟩
  | quadric => rw [Obj.intersect]; exact ⟨_, _, rfl⟩
  | iso s =>
    rw [Obj.Sturdy] at ho
    rw [Obj.intersect]
    obtain ⟨h, e⟩ := ho r
    rw [e, ok_bind]
    exact ⟨_, _, rfl⟩
  | face => rw [Obj.intersect]; exact ⟨_, _, rfl⟩
  | tree root =>
    rw [Obj.Sturdy] at ho
    rw [Obj.intersect]
    split
    · exact ⟨_, _, rfl⟩
    · exact Node.Sturdy.answers root ho r
  | withMaterial m o =>
    rw [Obj.Sturdy] at ho
    rw [Obj.intersect]
    obtain ⟨h, r', e⟩ := Obj.Sturdy.answers o ho r
    rw [e, ok_bind]
    exact ⟨_, _, rfl⟩
  | transformed bb f i o =>
    rw [Obj.Sturdy] at ho
    rw [Obj.intersect]
    split
    · exact ⟨_, _, rfl⟩
    · obtain ⟨h, r', e⟩ := Obj.Sturdy.answers o ho ⟨i.point r.start, i.dir r.dir⟩
      simp only [e, ok_bind]
      exact ⟨_, _, rfl⟩
  | and a b =>
    rw [Obj.Sturdy] at ho
    rw [Obj.intersect]
    exact marchBoth_answers (Obj.Sturdy.answers a ho.1.1) (Obj.Sturdy.answers b ho.2.1) (Obj.Decides.total a ho.1.2)
      (Obj.Decides.total b ho.2.2) true r
  | or a b =>
    rw [Obj.Sturdy] at ho
    rw [Obj.intersect]
    exact marchBoth_answers (Obj.Sturdy.answers a ho.1.1) (Obj.Sturdy.answers b ho.2.1) (Obj.Decides.total a ho.1.2)
      (Obj.Decides.total b ho.2.2) false r
  | restrict a b =>
    rw [Obj.Sturdy] at ho
    rw [Obj.intersect]
    exact march_answers (Obj.Sturdy.answers a ho.1) (Obj.Decides.total b ho.2) true GoFloat.inf r
  | not o =>
    rw [Obj.Sturdy] at ho
    rw [Obj.intersect]
    obtain ⟨h, r', e⟩ := Obj.Sturdy.answers o ho r
    rw [e, ok_bind]
    exact ⟨_, _, rfl⟩
  | hollow o => rw [Obj.Sturdy] at ho; rw [Obj.intersect]; exact Obj.Sturdy.answers o ho r
  | remapped o f =>
    rw [Obj.Sturdy] at ho
    rw [Obj.intersect]
    obtain ⟨h, r', e⟩ := Obj.Sturdy.answers o ho r
    rw [e, ok_bind]
    exact ⟨_, _, rfl⟩
  | allSpace => rw [Obj.Sturdy] at ho; exact ho.elim
  | prim i ins b =>
    rw [Obj.Sturdy] at ho
    rw [Obj.intersect]
    obtain ⟨h, e⟩ := ho r
    rw [e, ok_bind]
    exact ⟨_, _, rfl⟩

theorem Node.Sturdy.answers (n : Node F M) (hn : n.Sturdy) : Replies n.intersect := by
  intro r
  cases n with
  | leaf bb os => rw [Node.Sturdy] at hn; rw [Node.intersect]; exact Obj.AllSturdy.answers os hn _ r
  | inner bb a b =>
    rw [Node.Sturdy] at hn
    rw [Node.intersect]
    dsimp only
    obtain ⟨h1, r1, e1⟩ := visitChild_answers (Node.Sturdy.answers a hn.1) (a.bb.intersect r >. lit 0) (fun _ _ => true) noHit r
    rw [e1, ok_bind]
    dsimp only
    obtain ⟨h2, r2, e2⟩ := visitChild_answers (Node.Sturdy.answers b hn.2) (b.bb.intersect r >. lit 0)
      (fun frag front => frag.t <. front.t) h1 r1
    rw [e2, ok_bind]
    exact ⟨_, _, rfl⟩

theorem Obj.AllSturdy.answers (os : List (Obj F M)) (hos : Obj.AllSturdy os) (front : HitRecord F M) :
    Replies (Obj.scan os front) := by
  intro r
  cases os with
  | nil => rw [Obj.scan]; exact ⟨_, _, rfl⟩
  | cons o os =>
    rw [Obj.AllSturdy] at hos
    rw [Obj.scan]
    obtain ⟨h, r', e⟩ := Obj.Sturdy.answers o hos.1 r
    rw [e, ok_bind]
    exact Obj.AllSturdy.answers os hos.2 _ _

end

/-! ## Materials of hits -/

variable [CmpModel F]

theorem zero_not_pos : ((lit 0 : F) >. lit 0) = false := by
  rw [lt_key CmpModel.key_zero CmpModel.key_zero]; simp

/-- Hits in front of the ray have a material with `P`. -/
def Dressed (P : M → Prop) (isect : Ray F → GoM (HitRecord F M × Ray F)) : Prop :=
  ∀ r h r', isect r = .ok (h, r') → (h.t >. lit 0) = true → ∃ m, h.mat = some m ∧ P m

theorem miss_dressed {P : M → Prop} : ((HitRecord.miss : HitRecord F M).t >. lit 0) = true → ∃ m, (HitRecord.miss : HitRecord F M).mat = some m ∧ P m := by
  intro h
  rw [show (HitRecord.miss : HitRecord F M).t = lit 0 from rfl, zero_not_pos] at h
  exact absurd h (by simp)

theorem marchLoop_dressed {P : M → Prop} {isect : Ray F → GoM (HitRecord F M × Ray F)} (hi : Dressed P isect)
    {inside : Vec F → GoM Bool} (want : Bool) (maxT : F) (start : Vec F) (ttl : Nat)
    (tOff : F) (h : HitRecord F M) (r : Ray F) (hh : (h.t >. lit 0) = true → ∃ m, h.mat = some m ∧ P m)
    (h' : HitRecord F M) (r' : Ray F) (e : marchLoop isect inside want maxT start ttl tOff h r = .ok (h', r'))
    (hp : (h'.t >. lit 0) = true) : ∃ m, h'.mat = some m ∧ P m := by
  induction ttl generalizing tOff h r with
  | zero =>
    unfold marchLoop at e
    split at e
    · simp only [Except.ok.injEq, Prod.mk.injEq] at e
      rw [← e.1] at hp ⊢
      exact miss_dressed hp
    · simp only [Except.ok.injEq, Prod.mk.injEq] at e
      rw [← e.1] at hp ⊢
      exact miss_dressed hp
  | succ n ih =>
    unfold marchLoop at e
    split at e
    next hc =>
      obtain ⟨b, eb, e⟩ := bind_eq_ok.1 e
      split at e
      · simp only [pure_ok, Except.ok.injEq, Prod.mk.injEq] at e
        rw [← e.1]
        simp only [Bool.and_eq_true] at hc
        exact hh hc.1.1
      · obtain ⟨⟨h2, r2⟩, e2, e⟩ := bind_eq_ok.1 e
        exact ih _ _ _ (hi _ _ _ e2) e
    · simp only [Except.ok.injEq, Prod.mk.injEq] at e
      rw [← e.1] at hp ⊢
      exact miss_dressed hp

theorem march_dressed {P : M → Prop} {isect : Ray F → GoM (HitRecord F M × Ray F)} (hi : Dressed P isect)
    {inside : Vec F → GoM Bool} (want : Bool) (maxT : F) : Dressed P fun r => march isect inside want r maxT := by
  intro r h r' e
  dsimp only [march] at e
  obtain ⟨⟨h1, r1⟩, e1, e⟩ := bind_eq_ok.1 e
  exact marchLoop_dressed hi _ _ _ _ _ _ _ (hi _ _ _ e1) _ _ e

theorem marchBoth_dressed {P : M → Prop} {isectA isectB : Ray F → GoM (HitRecord F M × Ray F)} (ha : Dressed P isectA)
    (hb : Dressed P isectB) {insideA insideB : Vec F → GoM Bool} (want : Bool) :
    Dressed P fun r => marchBoth isectA insideA isectB insideB want r := by
  intro r h r' e hp
  dsimp only [marchBoth] at e
  obtain ⟨⟨h1, r1⟩, e1, e⟩ := bind_eq_ok.1 e
  obtain ⟨⟨h2, r2⟩, e2, e⟩ := bind_eq_ok.1 e
  simp only [pure_ok, Except.ok.injEq, Prod.mk.injEq] at e
  have d1 := march_dressed ha want GoFloat.inf _ _ _ e1
  have d2 := march_dressed hb want _ _ _ _ e2
  rw [← e.1] at hp ⊢
  unfold HitRecord.frontmost
  by_cases hlt : (h2.t <. h1.t) = true
  · rw [if_pos hlt]
    dsimp only
    split
    next h => exact d2 h
    next =>
      split
      next h => exact d1 h
      next h3 h4 =>
        exfalso
        unfold HitRecord.frontmost at hp
        rw [if_pos hlt] at hp
        dsimp only at hp
        rw [if_neg h3, if_neg h4] at hp
        exact absurd (zero_not_pos.symm.trans hp) (by simp)
  · rw [if_neg hlt]
    dsimp only
    split
    next h => exact d1 h
    next =>
      split
      next h => exact d2 h
      next h3 h4 =>
        exfalso
        unfold HitRecord.frontmost at hp
        rw [if_neg hlt] at hp
        dsimp only at hp
        rw [if_neg h3, if_neg h4] at hp
        exact absurd (zero_not_pos.symm.trans hp) (by simp)

/-- A record that has a material with `P`, if it is in front, or stands for "nothing hit" in a tree. -/
def LeafOK (P : M → Prop) (h : HitRecord F M) : Prop :=
  (h.t >. lit 0) = true → (∃ m, h.mat = some m ∧ P m) ∨ h.t = lit (9 * 10 ^ 99)

theorem visitChild_dressed {P : M → Prop} {isect : Ray F → GoM (HitRecord F M × Ray F)}
    (hi : ∀ r h r', isect r = .ok (h, r') → LeafOK P h) {b : Bool} {better : HitRecord F M → HitRecord F M → Bool}
    {front : HitRecord F M} (hf : LeafOK P front) {r : Ray F} {h : HitRecord F M} {r' : Ray F}
    (e : visitChild b isect better front r = .ok (h, r')) : LeafOK P h := by
  unfold visitChild at e
  split at e
  · obtain ⟨⟨h1, r1⟩, e1, e⟩ := bind_eq_ok.1 e
    simp only [pure_ok, Except.ok.injEq, Prod.mk.injEq] at e
    rw [← e.1]
    split
    · exact hi _ _ _ e1
    · exact hf
  · simp only [Except.ok.injEq, Prod.mk.injEq] at e
    rw [← e.1]; exact hf

theorem noHit_leafOK {P : M → Prop} : LeafOK P (noHit : HitRecord F M) := fun _ => .inr rfl

/-- The end of the search in an inner node: the record for "nothing hit" becomes a miss. -/
theorem innerEnd_dressed {P : M → Prop} {front : HitRecord F M} (hf : LeafOK P front)
    (hp : ((if front.t ==. lit (9 * 10 ^ 99) then { front with t := lit 0 } else front).t >. lit 0) = true) :
    ∃ m, (if front.t ==. lit (9 * 10 ^ 99) then { front with t := lit 0 } else front).mat = some m ∧ P m := by
  split at hp
  next h =>
    exfalso
    dsimp only at hp
    rw [zero_not_pos] at hp; cases hp
  next h =>
    rw [if_neg h]
    rcases hf hp with h1 | h1
    · exact h1
    · exfalso
      apply h
      obtain ⟨_, y, -, hy, -⟩ := (CmpModel.lt_iff _ _).1 hp
      exact (CmpModel.eq_iff _ _).2 ⟨y, y, hy, h1 ▸ hy, rfl⟩

mutual

theorem Obj.Wears.dressed {P : M → Prop} (o : Obj F M) (ho : o.Wears P) : Dressed P o.intersect := by
  intro r h r' e hp
  cases o with
  | backdrop m =>
    rw [Obj.Wears] at ho
    rw [Obj.intersect] at e
    simp only [Except.ok.injEq, Prod.mk.injEq] at e
    rw [← e.1]; exact ho
  | bounded bb o =>
    rw [Obj.Wears] at ho
    rw [Obj.intersect] at e
    split at e
    · simp only [Except.ok.injEq, Prod.mk.injEq] at e
      rw [← e.1] at hp ⊢
      exact miss_dressed hp
    · exact Obj.Wears.dressed o ho _ _ _ e hp
  | box bb m =>
    rw [Obj.Wears] at ho
    rw [Obj.intersect] at e
    obtain ⟨h1, e1, e⟩ := bind_eq_ok.1 e
    simp only [pure_ok, Except.ok.injEq, Prod.mk.injEq] at e
    rw [← e.1] at hp ⊢
    unfold BBox.hit at e1
    dsimp only at e1
    split at e1
    · simp only [Except.ok.injEq] at e1
      rw [← e1] at hp ⊢
      exact miss_dressed hp
    · obtain ⟨n, -, e1⟩ := bind_eq_ok.1 e1
      simp only [pure_ok, Except.ok.injEq] at e1
      rw [← e1]; exact ho
  | quadric q =>
    rw [Obj.Wears] at ho
    rw [Obj.intersect] at e
    simp only [Except.ok.injEq, Prod.mk.injEq] at e
    rw [← e.1] at hp ⊢
    have key : q.hit r = HitRecord.miss ∨ ∃ t, q.hit r = q.record r t := by
      unfold Quadric.hit
      dsimp only
      split
      · exact .inl rfl
      · split <;> dsimp only <;> split <;> first | exact .inr ⟨_, rfl⟩ | (split <;> first | exact .inr ⟨_, rfl⟩ | exact .inl rfl)
    rcases key with e | ⟨t, e⟩
    · rw [e] at hp ⊢; exact miss_dressed hp
    · rw [e]; exact ho
  | iso s =>
    rw [Obj.Wears] at ho
    rw [Obj.intersect] at e
    obtain ⟨h1, e1, e⟩ := bind_eq_ok.1 e
    simp only [pure_ok, Except.ok.injEq, Prod.mk.injEq] at e
    rw [← e.1] at hp ⊢
    unfold Iso.hit at e1
    dsimp only at e1
    split at e1
    · simp only [Except.ok.injEq] at e1
      rw [← e1] at hp ⊢
      exact miss_dressed hp
    · obtain ⟨t, -, e1⟩ := bind_eq_ok.1 e1
      split at e1
      · simp only [pure_ok, Except.ok.injEq] at e1
        rw [← e1] at hp ⊢
        exact miss_dressed hp
      · obtain ⟨n, -, e1⟩ := bind_eq_ok.1 e1
        simp only [pure_ok, Except.ok.injEq] at e1
        rw [← e1]; exact ho
  | face => rw [Obj.Wears] at ho; exact ho.elim
  | tree root =>
    cases root with
    | leaf bb os => rw [Obj.Wears] at ho; exact ho.elim
    | inner bb a b =>
      rw [Obj.Wears] at ho
      rw [Obj.intersect] at e
      split at e
      · simp only [Except.ok.injEq, Prod.mk.injEq] at e
        rw [← e.1] at hp ⊢
        exact miss_dressed hp
      · rw [Node.intersect] at e
        dsimp only at e
        obtain ⟨⟨h1, r1⟩, e1, e⟩ := bind_eq_ok.1 e
        obtain ⟨⟨h2, r2⟩, e2, e⟩ := bind_eq_ok.1 e
        simp only [pure_ok, Except.ok.injEq, Prod.mk.injEq] at e
        have l1 := visitChild_dressed (Node.Wears.dressed a ho.1) noHit_leafOK e1
        have l2 := visitChild_dressed (Node.Wears.dressed b ho.2) l1 e2
        rw [← e.1] at hp ⊢
        exact innerEnd_dressed l2 hp
  | withMaterial m o =>
    rw [Obj.Wears] at ho
    rw [Obj.intersect] at e
    obtain ⟨⟨h1, r1⟩, -, e⟩ := bind_eq_ok.1 e
    simp only [pure_ok, Except.ok.injEq, Prod.mk.injEq] at e
    rw [← e.1]; exact ho
  | transformed bb f i o =>
    rw [Obj.Wears] at ho
    rw [Obj.intersect] at e
    split at e
    · simp only [Except.ok.injEq, Prod.mk.injEq] at e
      rw [← e.1] at hp ⊢
      exact miss_dressed hp
    · obtain ⟨⟨h1, r1⟩, e1, e⟩ := bind_eq_ok.1 e
      simp only [pure_ok, Except.ok.injEq, Prod.mk.injEq] at e
      rw [← e.1] at hp ⊢
      exact (Obj.Wears.dressed o ho _ h1 _ e1 hp :)
  | and a b =>
    rw [Obj.Wears] at ho
    rw [Obj.intersect] at e
    exact marchBoth_dressed (Obj.Wears.dressed a ho.1) (Obj.Wears.dressed b ho.2) true _ _ _ e hp
  | or a b =>
    rw [Obj.Wears] at ho
    rw [Obj.intersect] at e
    exact marchBoth_dressed (Obj.Wears.dressed a ho.1) (Obj.Wears.dressed b ho.2) false _ _ _ e hp
  | restrict a b =>
    rw [Obj.Wears] at ho
    rw [Obj.intersect] at e
    exact march_dressed (Obj.Wears.dressed a ho) true _ _ _ _ e hp
  | not o =>
    rw [Obj.Wears] at ho
    rw [Obj.intersect] at e
    obtain ⟨⟨h1, r1⟩, e1, e⟩ := bind_eq_ok.1 e
    simp only [pure_ok, Except.ok.injEq, Prod.mk.injEq] at e
    rw [← e.1] at hp ⊢
    exact (Obj.Wears.dressed o ho _ h1 _ e1 hp :)
  | hollow o => rw [Obj.Wears] at ho; rw [Obj.intersect] at e; exact Obj.Wears.dressed o ho _ _ _ e hp
  | remapped o f =>
    rw [Obj.Wears] at ho
    rw [Obj.intersect] at e
    obtain ⟨⟨h1, r1⟩, e1, e⟩ := bind_eq_ok.1 e
    simp only [pure_ok, Except.ok.injEq, Prod.mk.injEq] at e
    rw [← e.1] at hp ⊢
    exact (Obj.Wears.dressed o ho _ h1 _ e1 hp :)
  | allSpace => rw [Obj.Wears] at ho; exact ho.elim
  | prim i ins b =>
    rw [Obj.Wears] at ho
    rw [Obj.intersect] at e
    obtain ⟨h1, e1, e⟩ := bind_eq_ok.1 e
    simp only [pure_ok, Except.ok.injEq, Prod.mk.injEq] at e
    rw [← e.1] at hp ⊢
    exact ho _ _ e1 hp

theorem Node.Wears.dressed {P : M → Prop} (n : Node F M) (hn : n.Wears P) (r : Ray F) (h : HitRecord F M) (r' : Ray F)
    (e : n.intersect r = .ok (h, r')) : LeafOK P h := by
  cases n with
  | leaf bb os =>
    rw [Node.Wears] at hn
    rw [Node.intersect] at e
    exact Obj.AllWear.dressed os hn noHit noHit_leafOK r h r' e
  | inner bb a b =>
    rw [Node.Wears] at hn
    rw [Node.intersect] at e
    dsimp only at e
    obtain ⟨⟨h1, r1⟩, e1, e⟩ := bind_eq_ok.1 e
    obtain ⟨⟨h2, r2⟩, e2, e⟩ := bind_eq_ok.1 e
    simp only [pure_ok, Except.ok.injEq, Prod.mk.injEq] at e
    have l1 := visitChild_dressed (Node.Wears.dressed a hn.1) noHit_leafOK e1
    have l2 := visitChild_dressed (Node.Wears.dressed b hn.2) l1 e2
    intro hp
    rw [← e.1] at hp ⊢
    exact .inl (innerEnd_dressed l2 hp)

theorem Obj.AllWear.dressed {P : M → Prop} (os : List (Obj F M)) (hos : Obj.AllWear P os) (front : HitRecord F M)
    (hf : LeafOK P front) (r : Ray F) (h : HitRecord F M) (r' : Ray F) (e : Obj.scan os front r = .ok (h, r')) :
    LeafOK P h := by
  cases os with
  | nil =>
    rw [Obj.scan] at e
    simp only [Except.ok.injEq, Prod.mk.injEq] at e
    rw [← e.1]; exact hf
  | cons o os =>
    rw [Obj.AllWear] at hos
    rw [Obj.scan] at e
    obtain ⟨⟨h1, r1⟩, e1, e⟩ := bind_eq_ok.1 e
    refine Obj.AllWear.dressed os hos.2 _ ?_ _ _ _ e
    split
    · exact fun hp => .inl (Obj.Wears.dressed o hos.1 _ _ _ e1 hp)
    · exact hf

end

/-! ## Scenes -/

/-- What is needed of an object to be shown. -/
def Fit (o : Obj F (Mat F)) : Prop := Replies o.intersect ∧ Dressed Mat.Total o.intersect

theorem Obj.Showable.fit {o : Obj F (Mat F)} (h : o.Showable) : Fit o :=
  ⟨Obj.Sturdy.answers o h.1, Obj.Wears.dressed o h.2⟩

theorem Fit.black {o : Obj F (Mat F)} (h : Fit o) : Fit (.withMaterial (some .black) o) := by
  refine ⟨fun r => ?_, fun r h' r' e _ => ?_⟩
  · obtain ⟨a, r', e⟩ := h.1 r
    rw [Obj.intersect, e, ok_bind]
    exact ⟨_, _, rfl⟩
  · rw [Obj.intersect] at e
    obtain ⟨⟨h1, r1⟩, -, e⟩ := bind_eq_ok.1 e
    simp only [pure_ok, Except.ok.injEq, Prod.mk.injEq] at e
    rw [← e.1]; exact ⟨_, rfl, trivial⟩

theorem intersectLoop_fit {os : List (Obj F (Mat F))} (hos : ∀ o ∈ os, Fit o) (front : HitRecord F (Mat F))
    (hf : ∃ m, front.mat = some m ∧ m.Total) (r : Ray F) :
    ∃ h r', intersectLoop os front r = .ok (h, r') ∧ ∃ m, h.mat = some m ∧ m.Total := by
  induction os generalizing front r with
  | nil => exact ⟨_, _, rfl, hf⟩
  | cons o os ih =>
    obtain ⟨h, r', e⟩ := (hos o (by simp)).1 r
    rw [intersectLoop, e, ok_bind]
    refine ih (fun o ho => hos o (by simp [ho])) _ ?_ _
    split
    next hc =>
      simp only [Bool.and_eq_true] at hc
      exact (hos o (by simp)).2 _ _ _ e hc.1
    next => exact hf

theorem occludeLoop_fit {os : List (Obj F (Mat F))} (hos : ∀ o ∈ os, Fit o) (len : F) (c : Color F) (r : Ray F) :
    ∃ c' r', occludeLoop os len c r = .ok (c', r') := by
  induction os generalizing c r with
  | nil => exact ⟨_, _, rfl⟩
  | cons o os ih =>
    obtain ⟨h, r', e⟩ := (hos o (by simp)).1 r
    rw [occludeLoop, e, ok_bind]
    dsimp only
    have ih' := fun c r => ih (fun o ho => hos o (by simp [ho])) c r
    split
    next hc =>
      simp only [Bool.and_eq_true] at hc
      obtain ⟨m, em, hm⟩ := (hos o (by simp)).2 _ _ _ e hc.1
      rw [em]
      cases m with
      | transparent tex b =>
        obtain ⟨k, ek⟩ := hm h.loc
        simp only [Mat.filter?, ek, ok_bind, pure_ok]
        exact ih' _ _
      | _ => exact ⟨_, _, rfl⟩
    next => exact ih' _ _

/-- The sequences of the context are those of `fr`, and produce numbers. -/
def Ctx.At (fr : Frame F) (c : Ctx F S) : Prop := c.Ready ∧ c.seq1 = fr.seq1 ∧ c.seq2 = fr.seq2 ∧ c.seqL = fr.seqL ∧ c.aa = fr.aa

/-- Context computations that always succeed at depth `d`, and leave a context of the same kind. -/
def Does (fr : Frame F) (d : Int) {α : Type} (m : CtxM F S α) : Prop :=
  ∀ c : Ctx F S, c.depth = d ∧ c.At fr → ∃ a c', m c = .ok (a, c') ∧ c'.depth = d ∧ c'.At fr

variable {fr : Frame F}

theorem gen2_does (rng : Rng F S) {d : Int} (hd : d ≠ 0) : Does fr d (fun c => c.generate2 rng) := by
  rintro c ⟨hc, ⟨h1, h2⟩, hk⟩
  dsimp only [Ctx.generate2]
  rw [if_neg (by rw [hc]; exact hd)]
  obtain ⟨uv, e1⟩ := h1
  obtain ⟨uv2, e2⟩ := h2
  split
  · rw [e1, ok_bind]; exact ⟨_, _, rfl, hc, ⟨⟨_, e1⟩, _, e2⟩, hk⟩
  · split
    · rw [e2, ok_bind]; exact ⟨_, _, rfl, hc, ⟨⟨_, e1⟩, _, e2⟩, hk⟩
    · exact ⟨_, _, rfl, hc, ⟨⟨_, e1⟩, _, e2⟩, hk⟩

theorem Light.sample_does (rng : Rng F S) {d : Int} (hd : d ≠ 0) (l : Light F) (p : Vec F) : Does fr d (l.sample rng p) := by
  induction l generalizing p with
  | point => intro c hc; exact ⟨_, _, rfl, hc⟩
  | planar =>
    intro c hc
    obtain ⟨uv, c', e, hc'⟩ := gen2_does rng hd c hc
    dsimp only at e
    rw [sample, e, ok_bind]
    exact ⟨_, _, rfl, hc'⟩
  | transformed f i o ob ih =>
    intro c hc
    obtain ⟨⟨x, y⟩, c', e, hc'⟩ := ih (i.point p) c hc
    rw [sample, e, ok_bind]
    exact ⟨_, _, rfl, hc'⟩

/-- An occlusion test that always answers. -/
def OcclOK (occl : Ray F → F → Color F → GoM (Color F × Ray F)) : Prop := ∀ r l c, ∃ c' r', occl r l c = .ok (c', r')

theorem directLoop_does (rng : Rng F S) {d : Int} (hd : d ≠ 0) {occl : Ray F → F → Color F → GoM (Color F × Ray F)}
    (ho : OcclOK occl) (p n : Vec F) (ls : List (Light F)) (acc : Color F) : Does fr d (directLoop rng occl p n ls acc) := by
  induction ls generalizing acc with
  | nil => intro c hc; exact ⟨_, _, rfl, hc⟩
  | cons l ls ih =>
    intro c hc
    obtain ⟨⟨lp, i⟩, c1, e1, hc1⟩ := l.sample_does rng hd p c hc
    rw [directLoop, e1, ok_bind]
    dsimp only
    split
    · exact ih _ _ hc1
    · split
      · exact ih _ _ hc1
      · obtain ⟨c', r', e⟩ := ho ⟨p, (lp.sub p).normalized⟩ (lp.sub p).len i
        rw [e, ok_bind]
        exact ih _ _ hc1

theorem take_ok {d : Int} {c : Ctx F S} (h : c.depth = d ∧ c.At fr) : c.takeRay.2.depth = d ∧ c.takeRay.2.At fr := h
theorem put_ok {d : Int} {c : Ctx F S} (h : c.depth = d ∧ c.At fr) (a : Nat) : (c.putRay a).depth = d ∧ (c.putRay a).At fr := h

theorem withRay_does {lf : LF F S} {d : Int} (hlf : ∀ f r, Does fr d (lf f r)) (f : Field) (r : Ray F) :
    Does fr d (withRay lf f r) := by
  intro c hc
  unfold withRay
  dsimp only
  obtain ⟨x, c1, e, hc1⟩ := hlf f r _ (take_ok hc)
  rw [e, ok_bind]
  exact ⟨_, _, rfl, put_ok hc1 _⟩

theorem shadeMatte_does {rng : Rng F S} {s : Scene F} {lf : LF F S} {d : Int} (hd : d ≠ 0) (ho : OcclOK s.occlude)
    (hlf : ∀ f r, Does fr d (lf f r)) {tex : Tex F} (ht : Tex.Total tex) (r : Ray F) (h : HitCoords F) :
    Does fr d (shadeMatte rng s lf tex r h) := by
  intro c hc
  unfold shadeMatte
  dsimp only
  obtain ⟨acc, c1, e1, hc1⟩ := directLoop_does rng hd ho _ _ s.lights Color.black _ (take_ok hc)
  rw [e1, ok_bind]
  obtain ⟨uv, c2, e2, hc2⟩ := gen2_does rng hd c1 hc1
  dsimp only at e2 ⊢
  rw [e2, ok_bind]
  obtain ⟨x, c3, e3, hc3⟩ := hlf .indirect ⟨_, cosineSphere uv.1 uv.2 (flipTowards h.normal r.dir)⟩ c2 hc2
  rw [e3, ok_bind]
  obtain ⟨k, ek⟩ := ht h.loc
  dsimp only
  rw [ek, ok_bind]
  exact ⟨_, _, rfl, put_ok hc3 _⟩

theorem shadeRefractive_does {lf : LF F S} {d : Int} (hlf : ∀ f r, Does fr d (lf f r)) (n1 n2 : F) (r : Ray F)
    (h : HitCoords F) : Does fr d (shadeRefractive lf n1 n2 r h) := by
  intro c hc
  unfold shadeRefractive
  dsimp only
  split
  · exact withRay_does hlf _ _ _ hc
  · obtain ⟨x, c1, e1, hc1⟩ := hlf .direct ⟨_, _⟩ _ (take_ok hc)
    rw [e1, ok_bind]
    obtain ⟨y, c2, e2, hc2⟩ := hlf .direct ⟨_, _⟩ _ (take_ok hc1)
    dsimp only
    rw [e2, ok_bind]
    exact ⟨_, _, rfl, hc2⟩

theorem Mat.shade_does {rng : Rng F S} {s : Scene F} {lf : LF F S} {d : Int} (hd : d ≠ 0) (ho : OcclOK s.occlude)
    (hlf : ∀ f r, Does fr d (lf f r)) (m : Mat F) (hm : m.Total) (r : Ray F) (h : HitCoords F) :
    Does fr d (m.shade rng s lf r h) := by
  induction m with
  | black => intro c hc; exact ⟨_, _, rfl, hc⟩
  | flat tex =>
    intro c hc
    obtain ⟨k, ek⟩ := hm h.loc
    rw [shade, ek, ok_bind]
    exact ⟨_, _, rfl, hc⟩
  | matte tex => intro c hc; rw [shade]; exact shadeMatte_does hd ho hlf hm _ _ c hc
  | reflective col =>
    intro c hc
    obtain ⟨x, c1, e, hc1⟩ := withRay_does hlf .direct ⟨r.at (h.t - tiny), reflect r.dir h.normal⟩ c hc
    rw [shade, e, ok_bind]
    exact ⟨_, _, rfl, hc1⟩
  | reflectFresnel n u ih =>
    intro c hc
    rw [Mat.Total] at hm
    obtain ⟨x, c1, e1, hc1⟩ := ih hm _ (take_ok hc)
    obtain ⟨y, c2, e2, hc2⟩ := hlf .direct ⟨r.at (h.t - tiny), reflect r.dir h.normal⟩ c1 hc1
    rw [shade]
    dsimp only
    rw [e1, ok_bind]
    dsimp only
    rw [e2, ok_bind]
    exact ⟨_, _, rfl, hc2⟩
  | refractive n1 n2 => intro c hc; rw [shade]; exact shadeRefractive_does hlf _ _ _ _ c hc
  | transparent tex b =>
    intro c hc
    obtain ⟨x, c1, e1, hc1⟩ := hlf .indirect ⟨r.at (h.t + tiny), r.dir⟩ _ (take_ok hc)
    obtain ⟨k, ek⟩ := hm h.loc
    rw [shade]
    dsimp only
    rw [e1, ok_bind]
    dsimp only
    rw [ek, ok_bind]
    exact ⟨_, _, rfl, hc1⟩
  | twoSided f b ihf ihb =>
    intro c hc
    rw [Mat.Total] at hm
    rw [shade]
    split
    · exact ihf hm.1 c hc
    · exact ihb hm.2 c hc
  | blend a ma b mb iha ihb =>
    intro c hc
    rw [Mat.Total] at hm
    obtain ⟨x, c1, e1, hc1⟩ := iha hm.1 c hc
    obtain ⟨y, c2, e2, hc2⟩ := ihb hm.2 c1 hc1
    rw [shade, e1, ok_bind]
    dsimp only
    rw [e2, ok_bind]
    exact ⟨_, _, rfl, hc2⟩
  | blendMap tex ma mb iha ihb =>
    intro c hc
    rw [Mat.Total] at hm
    have key : ∀ (k : F) {m : CtxM F S (Color F)}, Does fr d m → Does fr d (whenPos k m) := by
      intro k m hm c hc
      unfold whenPos
      split
      · exact hm c hc
      · exact ⟨_, _, rfl, hc⟩
    obtain ⟨k, ek⟩ := hm.1 h.loc
    obtain ⟨x, c1, e1, hc1⟩ := key k.R (iha hm.2.1) c hc
    obtain ⟨y, c2, e2, hc2⟩ := key (lit 1 - k.R) (ihb hm.2.2) c1 hc1
    rw [shade, ek, ok_bind]
    dsimp only
    rw [e1, ok_bind]
    dsimp only
    rw [e2, ok_bind]
    exact ⟨_, _, rfl, hc2⟩
  | func f =>
    intro c hc
    obtain ⟨k, ek⟩ := hm r h
    rw [shade, ek, ok_bind]
    exact ⟨_, _, rfl, hc⟩

theorem fogLoop_does (rng : Rng F S) {d : Int} (hd : d ≠ 0) {occl : Ray F → F → Color F → GoM (Color F × Ray F)}
    (ho : OcclOK occl) (p : Vec F) (w : F) (n : Int) (ls : List (Light F)) (acc : Color F) :
    Does fr d (fogLoop rng occl p w n ls acc) := by
  induction ls generalizing n acc with
  | nil => intro c hc; exact ⟨_, _, rfl, hc⟩
  | cons l ls ih =>
    intro c hc
    rw [fogLoop]
    split
    · exact ⟨_, _, rfl, hc⟩
    · obtain ⟨⟨lp, i⟩, c1, e1, hc1⟩ := l.sample_does rng hd p c hc
      rw [e1, ok_bind]
      dsimp only
      split
      · exact ih _ _ _ hc1
      · obtain ⟨c', r', e⟩ := ho ⟨p, (lp.sub p).normalized⟩ (lp.sub p).len i
        rw [e, ok_bind]
        exact ih _ _ _ hc1

theorem isInitial_ok {d : Int} (hd : d ≠ 0) {c : Ctx F S} (hc : c.depth = d) : c.isInitial = .ok (c.depth == 1) := by
  unfold Ctx.isInitial
  rw [if_neg (by rw [hc]; exact hd)]

theorem fogInterval_length (hsub : SubLaw F) (height : F) (r : Ray F) (tMax : F) :
    ((fogInterval height r tMax).2 - (fogInterval height r tMax).1 >=. lit 0) = true := by
  unfold fogInterval
  dsimp only
  unfold intersectIntervals
  dsimp only
  split
  · exact hsub.1
  · next h => exact hsub.2 _ _ (by simpa using h)

theorem Medium.filter_does {rng : Rng F S} {s : Scene F} (hsub : SubLaw F) {d : Int} (hd : d ≠ 0) (ho : OcclOK s.occlude)
    (m : Medium F) (r : Ray F) (tMax : F) (orig : Color F) : Does fr d (m.filter rng s r tMax orig) := by
  intro c hc
  cases m with
  | expFog density ambient height =>
    rw [filter, isInitial_ok hd hc.1, ok_bind]
    split
    · exact ⟨_, _, rfl, hc⟩
    · dsimp only
      rw [if_neg (by rw [fogInterval_length hsub]; simp)]
      exact ⟨_, _, rfl, hc⟩
  | fog density height n =>
    rw [filter, isInitial_ok hd hc.1, ok_bind]
    split
    · exact ⟨_, _, rfl, hc⟩
    · dsimp only
      unfold fogScatter
      dsimp only
      obtain ⟨uv, c1, e1, hc1⟩ := gen2_does rng hd c hc
      dsimp only at e1
      rw [e1, ok_bind]
      dsimp only
      obtain ⟨acc, c2, e2, hc2⟩ := fogLoop_does rng hd ho _ _ _ s.lights Color.black _ (take_ok hc1)
      rw [e2, ok_bind]
      exact ⟨_, _, rfl, hc2⟩

theorem mediaLoop_does {rng : Rng F S} {s : Scene F} (hsub : SubLaw F) {d : Int} (hd : d ≠ 0) (ho : OcclOK s.occlude)
    (r : Ray F) (t : F) (ms : List (Medium F)) (col : Color F) : Does fr d (mediaLoop rng s r t ms col) := by
  induction ms generalizing col with
  | nil => intro c hc; exact ⟨_, _, rfl, hc⟩
  | cons m ms ih =>
    intro c hc
    obtain ⟨x, c1, e1, hc1⟩ := m.filter_does (rng := rng) hsub hd ho r t col c hc
    rw [mediaLoop, e1, ok_bind]
    exact ih _ _ hc1

/-- Light can be followed through a scene in which every ray sees a material that can be shown, and in which it can be
found out what is in the way. -/
theorem lightField_does_of {rng : Rng F S} {s : Scene F} (hsub : SubLaw F) (hoc : OcclOK s.occlude)
    (hseen : ∀ f r, ∃ h r', intersectLoop (s.seen f) (frontDefault r) r = .ok (h, r') ∧ ∃ m, h.mat = some m ∧ m.Total)
    (n : Nat) (d : Int) (h0 : 0 ≤ d) (hn : d + n = s.recursionDepth) (f : Field)
    (r : Ray F) : Does fr d (s.lightField rng n f r) := by
  unfold Scene.lightField
  induction n generalizing d f r with
  | zero =>
    intro c hc
    unfold Scene.lightFieldFrom
    rw [if_pos (by rw [hc.1]; simpa using hn.symm)]
    exact ⟨_, _, rfl, hc⟩
  | succ n ih =>
    intro c hc
    unfold Scene.lightFieldFrom
    rw [if_neg (by rw [hc.1]; omega)]
    dsimp only
    obtain ⟨front, r', e, m, em, hm⟩ := hseen f r
    rw [intersectFrontmost, e, ok_bind]
    dsimp only
    have hd : d + 1 ≠ 0 := by omega
    obtain ⟨x, c1, e1, hc1⟩ := m.shade_does (rng := rng) (s := s) hd hoc
      (fun f r => ih (d + 1) (by omega) (by push_cast at hn; omega) f r) hm r' ⟨front.t, front.normal.normalized, front.loc⟩
      { c with depth := c.depth + 1 } ⟨by rw [hc.1], hc.2⟩
    simp only [shadeFront, em]
    rw [e1, ok_bind]
    dsimp only
    obtain ⟨y, c2, e2, hc2⟩ := mediaLoop_does (rng := rng) hsub hd hoc r' front.t s.media x c1 hc1
    rw [e2, ok_bind]
    exact ⟨_, _, rfl, by dsimp only; omega, hc2.2⟩

theorem lightField_does {rng : Rng F S} {s : Scene F} (hsub : SubLaw F) (ho : ∀ o ∈ s.objects, Fit o)
    (hl : ∀ l ∈ s.lights, Fit l.object) (n : Nat) (d : Int) (h0 : 0 ≤ d) (hn : d + n = s.recursionDepth) (f : Field)
    (r : Ray F) : Does fr d (s.lightField rng n f r) := by
  have hseen : ∀ f, ∀ o ∈ s.seen f, Fit o := by
    intro f o h
    cases f with
    | direct =>
      rcases List.mem_append.1 h with h | h
      · exact ho o h
      · obtain ⟨l, hm, rfl⟩ := List.mem_map.1 h
        exact hl l hm
    | indirect =>
      rcases List.mem_append.1 h with h | h
      · exact ho o h
      · obtain ⟨l, hm, rfl⟩ := List.mem_map.1 h
        exact (hl l hm).black
  exact lightField_does_of hsub (fun r l c => occludeLoop_fit ho l c r)
    (fun f r => intersectLoop_fit (hseen f) (frontDefault r) ⟨_, rfl, trivial⟩ r) n d h0 hn f r

end BR
