import Verif.Spec.Chance
import Verif.Model.Ctx
import Mathlib.MeasureTheory.Integral.Bochner.Set

/-! What more passes tend to. -/

namespace BR

open MeasureTheory Set

/-- A quantity that depends on a random choice `p` from the region `Q` in a way that is bounded, and continuous except for
choices of no measure (the edges of lamps, of shadows and of objects). -/
structure Tame {P : Type} [TopologicalSpace P] [MeasureSpace P] (Q : Set P) (g : P → ℝ) : Prop where
  measurable : Measurable g
  bounded : ∃ C, ∀ p ∈ Q, |g p| ≤ C
  continuous : ∀ᵐ p ∂(volume.restrict Q), ContinuousAt g p

/-- The sequence, initialised for a pixel and a pass, gives the pair `uv`. -/
def GivesPair (s : HaltonSeq ℝ) (pixel pass : ℕ) (uv : ℝ × ℝ) : Prop :=
  ∃ s', s.init pixel pass = .ok s' ∧ s'.generate2 = .ok uv

end BR
