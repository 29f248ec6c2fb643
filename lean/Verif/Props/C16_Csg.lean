import Verif.Model.Construct
import Verif.Lemmas.GoM
import Verif.Spec.Csg
import Verif.Num.Real

/-! C16: CSG membership is a Boolean algebra. For every arithmetic. -/

namespace BR

set_option linter.unusedSectionVars false

variable {F M : Type} [Add F] [Sub F] [Mul F] [Div F] [Neg F] [GoFloat F]

/-- Inside(And(a,b)) is the conjunction. -/
theorem C16_and (a b : Obj F M) (p : Vec F) (x y : Bool) (ha : a.inside p = .ok x)
    (hb : b.inside p = .ok y) : (Obj.and a b).inside p = .ok (x && y) := by
  rw [Obj.inside, ha, ok_bind]
  cases x
  · rfl
  · simpa using hb

/-- Inside(Or(a,b)) is the disjunction. -/
theorem C16_or (a b : Obj F M) (p : Vec F) (x y : Bool) (ha : a.inside p = .ok x)
    (hb : b.inside p = .ok y) : (Obj.or a b).inside p = .ok (x || y) := by
  rw [Obj.inside, ha, ok_bind]
  cases x
  · simpa using hb
  · rfl

/-- Inside(Not(a)) is the negation. -/
theorem C16_not (a : Obj F M) (p : Vec F) (x : Bool) (ha : a.inside p = .ok x) :
    (Obj.not a).inside p = .ok (!x) := by
  rw [Obj.inside, ha, ok_bind]; rfl

/-- Inside(Difference(a,b)) is "in a and not in b"; the same for `AndNot` and `Remove`. -/
theorem C16_difference (a b : Obj F M) (p : Vec F) (x y : Bool) (ha : a.inside p = .ok x)
    (hb : b.inside p = .ok y) :
    (Obj.difference a b).inside p = .ok (x && !y) ∧ (Obj.remove a b).inside p = .ok (x && !y) := by
  have h := C16_and a (.not b) p x (!y) ha (C16_not b p y hb)
  refine ⟨h, ?_⟩
  rw [Obj.inside] at h
  rw [Obj.remove, Obj.inside]
  exact h

/-- Inside(Restrict(a,b)) is the conjunction, Inside(Hollow(a)) is false, and materials and
remapped coordinates do not matter. -/
theorem C16_restrict_hollow_wrappers (a b : Obj F M) (p : Vec F) (x y : Bool)
    (ha : a.inside p = .ok x) (hb : b.inside p = .ok y) (m : Option M) (f : Vec F → Vec F) :
    (Obj.restrict a b).inside p = .ok (x && y) ∧ (Obj.hollow a).inside p = .ok false ∧
    (Obj.withMaterial m a).inside p = .ok x ∧ (Obj.remapped a f).inside p = .ok x := by
  have h := C16_and a b p x y ha hb
  rw [Obj.inside] at h
  refine ⟨?_, ?_, ?_, ?_⟩
  · rw [Obj.inside]; exact h
  · rw [Obj.inside]
  · rw [Obj.inside]; exact ha
  · rw [Obj.inside]; exact ha

/-- The object built by the CSG constructors from a Boolean expression over objects. -/
def BExpr.toObj : BExpr (Obj F M) → Obj F M
  | .atom a => a
  | .and x y => .and x.toObj y.toObj
  | .or x y => .or x.toObj y.toObj
  | .not x => .not x.toObj
  | .diff x y => Obj.difference x.toObj y.toObj

/-- The atoms of an expression. -/
def BExpr.atoms {α : Type} : BExpr α → List α
  | .atom a => [a]
  | .and x y => x.atoms ++ y.atoms
  | .or x y => x.atoms ++ y.atoms
  | .not x => x.atoms
  | .diff x y => x.atoms ++ y.atoms

/-- **C16.** A point is inside a CSG tree iff the corresponding Boolean combination of "inside the
atom" is true, for trees of any shape and any atomic objects whose `Inside` does not panic. -/
theorem C16_boolean (e : BExpr (Obj F M)) (p : Vec F) (v : Obj F M → Bool)
    (hv : ∀ a ∈ e.atoms, a.inside p = .ok (v a)) : e.toObj.inside p = .ok (e.eval v) := by
  induction e with
  | atom a => exact hv a (by simp [BExpr.atoms])
  | and x y ihx ihy =>
    exact C16_and _ _ _ _ _ (ihx fun a h => hv a (by simp [BExpr.atoms, h]))
      (ihy fun a h => hv a (by simp [BExpr.atoms, h]))
  | or x y ihx ihy =>
    exact C16_or _ _ _ _ _ (ihx fun a h => hv a (by simp [BExpr.atoms, h]))
      (ihy fun a h => hv a (by simp [BExpr.atoms, h]))
  | not x ihx => exact C16_not _ _ _ (ihx fun a h => hv a (by simp [BExpr.atoms, h]))
  | diff x y ihx ihy =>
    exact (C16_difference _ _ _ _ _ (ihx fun a h => hv a (by simp [BExpr.atoms, h]))
      (ihy fun a h => hv a (by simp [BExpr.atoms, h]))).1

/-- Hence every Boolean law holds: two expressions with the same truth table describe the same set
of points. -/
theorem C16_laws (e₁ e₂ : BExpr (Obj F M)) (heq : ∀ v, e₁.eval v = e₂.eval v) (p : Vec F)
    (ok : ∀ a ∈ e₁.atoms ++ e₂.atoms, ∃ x, a.inside p = .ok x) :
    e₁.toObj.inside p = e₂.toObj.inside p := by
  let v : Obj F M → Bool := fun a => match a.inside p with | .ok x => x | .error _ => false
  have hv : ∀ a ∈ e₁.atoms ++ e₂.atoms, a.inside p = .ok (v a) := by
    intro a h
    obtain ⟨x, hx⟩ := ok a h
    simp only [v, hx]
  rw [C16_boolean e₁ p v fun a h => hv a (by simp [h]),
    C16_boolean e₂ p v fun a h => hv a (by simp [h]), heq v]

/-- De Morgan for objects, as an instance of `C16_laws`. -/
theorem C16_de_morgan (a b : Obj F M) (p : Vec F) (ha : ∃ x, a.inside p = .ok x)
    (hb : ∃ x, b.inside p = .ok x) :
    (Obj.not (.and a b)).inside p = (Obj.or (.not a) (.not b)).inside p ∧
    (Obj.not (.or a b)).inside p = (Obj.and (.not a) (.not b)).inside p := by
  refine ⟨C16_laws (.not (.and (.atom a) (.atom b))) (.or (.not (.atom a)) (.not (.atom b))) ?_ p ?_,
    C16_laws (.not (.or (.atom a) (.atom b))) (.and (.not (.atom a)) (.not (.atom b))) ?_ p ?_⟩
  · intro v; simp [BExpr.eval]
  · intro x hx; simp [BExpr.atoms] at hx; rcases hx with rfl | rfl | rfl | rfl <;> assumption
  · intro v; simp [BExpr.eval]
  · intro x hx; simp [BExpr.atoms] at hx; rcases hx with rfl | rfl | rfl | rfl <;> assumption

/-- A box minus a sphere, at a point of the box that is outside the sphere: membership is defined
and true. -/
example : (Obj.difference (Obj.boxWithBounds (F := ℝ) (M := Unit) none ⟨-1, -1, -1⟩ ⟨1, 1, 1⟩)
    (Obj.sphere none 1 Vec.zero)).inside ⟨9 / 10, 0, 0⟩ = .ok true := by
  have h1 : (Obj.boxWithBounds (F := ℝ) (M := Unit) none ⟨-1, -1, -1⟩ ⟨1, 1, 1⟩).inside
      ⟨9 / 10, 0, 0⟩ = .ok true := by
    rw [Obj.boxWithBounds, Obj.inside, BBox.inside]; norm_num
  have h2 : (Obj.sphere (F := ℝ) (M := Unit) none 1 Vec.zero).inside ⟨9 / 10, 0, 0⟩ = .ok false := by
    rw [Obj.sphere, Obj.inside, Quadric.inside]
    norm_num [Obj.sphereQ, BBox.inside, BBox.withMargin, BBox.translated, Vec.add, Vec.zero, tiny]
  exact (C16_difference _ _ _ _ _ h1 h2).1

end BR
