import Verif.Model.Scene

/-! What is in front on a ray. -/

namespace BR

variable {F : Type} [Add F] [Sub F] [Mul F] [Div F] [Neg F] [GoFloat F]

/-- Among the objects `os`, the ray meets `o` first, with the record `h`: nothing is met before, and of what is met at the
same distance `o` is the last in the list. -/
def FirstMet (os : List (Obj F (Mat F))) (r : Ray F) (o : Obj F (Mat F)) (h : HitRecord F (Mat F)) : Prop :=
  ∃ pre post, os = pre ++ o :: post ∧ o.intersect r = .ok (h, r) ∧ (lit 0 <. h.t) = true ∧ (h.t <=. GoFloat.inf) = true ∧
    (∀ x ∈ pre, ∃ y, x.intersect r = .ok (y, r) ∧ ((lit 0 <. y.t) = true → (y.t <. h.t) = false)) ∧
    ∀ x ∈ post, ∃ y, x.intersect r = .ok (y, r) ∧ ((lit 0 <. y.t) = true → (y.t <=. h.t) = false)

/-- The ray meets none of the objects. -/
def NoneMet (os : List (Obj F (Mat F))) (r : Ray F) : Prop := ∀ x ∈ os, ∃ y, x.intersect r = .ok (y, r) ∧ (lit 0 <. y.t) = false

end BR
