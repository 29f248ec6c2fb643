import Verif.Model.Golden
import Verif.Lemmas.Load
import Mathlib.Analysis.SpecialFunctions.Sqrt
import Mathlib.Algebra.BigOperators.Ring.Finset

/-! What it means for two pictures to be close. -/

namespace BR

open Finset

/-- How much two pixels differ: the sum over red, green and blue, of 65535 each. -/
def pixelGap (p q : Nat × Nat × Nat) : ℤ := |(p.1 : ℤ) - q.1| + |(p.2.1 : ℤ) - q.2.1| + |(p.2.2 : ℤ) - q.2.2|

/-- How much two pictures differ within the frame of the first; a picture is black outside of its own frame. -/
def totalGap (A B : Decoded) : ℤ := ∑ y ∈ range A.h, ∑ x ∈ range A.w, pixelGap (A.at x y) (B.at x y)

/-- The colour with what is brighter than white cut off. -/
noncomputable def cutOff (c : Color ℝ) : Color ℝ := ⟨min 1 c.R, min 1 c.G, min 1 c.B⟩

/-- The square of the distance of two colours. -/
def colorGap (a b : Color ℝ) : ℝ := (a.R - b.R) ^ 2 + (a.G - b.G) ^ 2 + (a.B - b.B) ^ 2

/-- The root of the mean square of the distance of the pixels of two pictures of the same size. -/
noncomputable def rootMeanSquare (w h : ℕ) (f g : ℕ → ℕ → Color ℝ) : ℝ :=
  Real.sqrt ((∑ y ∈ range h, ∑ x ∈ range w, colorGap (cutOff (f x y)) (cutOff (g x y))) / (w * h))

end BR
