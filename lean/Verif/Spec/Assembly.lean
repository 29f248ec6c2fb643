import Verif.Spec.Picture

/-! Specification vocabulary for things that are put together from other things. -/

namespace BR

/-- `th'` is the thing `th`, placed by the map `T` of space, with its colours. -/
def PlacedBy (T : Vec ℝ → Vec ℝ) (th th' : Thing) : Prop :=
  ∀ q, (th'.on (T q) ↔ th.on q) ∧ th'.col (T q) = th.col q

/-- The part of the thing where `P` holds. -/
def Thing.part (P : Vec ℝ → Prop) (th : Thing) : Thing := ⟨fun p => th.on p ∧ P p, th.col⟩

/-- The thing painted over in one colour. -/
def Thing.painted (C : Color ℝ) (th : Thing) : Thing := ⟨th.on, fun _ => C⟩

/-- Something solid: the things that make up its surface, and what is within. -/
structure Solid where
  surface : List Thing
  within : Vec ℝ → Prop

/-- What is within both solids. Its surface is that of each where it is within the other. -/
def Solid.and (A B : Solid) : Solid :=
  ⟨A.surface.map (Thing.part B.within) ++ B.surface.map (Thing.part A.within), fun p => A.within p ∧ B.within p⟩

/-- What is within one of the solids. Its surface is that of each where it is not within the other. -/
def Solid.or (A B : Solid) : Solid :=
  ⟨A.surface.map (Thing.part fun p => ¬ B.within p) ++ B.surface.map (Thing.part fun p => ¬ A.within p),
    fun p => A.within p ∨ B.within p⟩

/-- All but the solid, with the same surface. -/
def Solid.not (A : Solid) : Solid := ⟨A.surface, fun p => ¬ A.within p⟩

/-- `A'` is the solid `A`, placed by the map `T` of space. -/
def Solid.PlacedBy (T : Vec ℝ → Vec ℝ) (A A' : Solid) : Prop :=
  List.Forall₂ (BR.PlacedBy T) A.surface A'.surface ∧ ∀ q, A'.within (T q) ↔ A.within q

/-- The block that fills the box, with its colours relative to the lower corner. -/
def Solid.block (B : BBox ℝ) (Col : Vec ℝ → Color ℝ) : Solid :=
  ⟨[⟨B.OnSurface, fun p => Col (p.sub B.min)⟩],
    fun p => (B.min.x < p.x ∧ p.x < B.max.x) ∧ (B.min.y < p.y ∧ p.y < B.max.y) ∧ B.min.z < p.z ∧ p.z < B.max.z⟩

/-- Along the ray, `C` is the colour of a nearest point of all things; that of the sky in the direction of the ray if the
ray meets none. -/
def SeesBefore (sky : Vec ℝ → Color ℝ) (things : List Thing) (R : Ray ℝ) (C : Color ℝ) : Prop :=
  (∃ th ∈ things, ∃ T > 0, th.on (R.at T) ∧ C = th.col (R.at T) ∧
    ∀ other ∈ things, ∀ T' > 0, other.on (R.at T') → T ≤ T') ∨
  ((∀ th ∈ things, ∀ T > 0, ¬ th.on (R.at T)) ∧ C = sky R.dir)

end BR
