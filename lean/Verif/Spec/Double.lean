import Verif.Model.Sampler
import Verif.Lemmas.FloErr
import Mathlib.Algebra.BigOperators.Group.Finset.Basic

/-! Vocabulary for pictures accumulated in double precision. -/

namespace BR

open Finset

/-- The channels of the computed colour are the finite numbers of `C`. -/
def Color.FIs (c : Color Flo) (C : Color ℝ) : Prop := c.R.Is C.R ∧ c.G.Is C.G ∧ c.B.Is C.B

/-- No channel is brighter than a million. -/
def Color.Moderate (C : Color ℝ) : Prop := |C.R| ≤ 2 ^ 20 ∧ |C.G| ≤ 2 ^ 20 ∧ |C.B| ≤ 2 ^ 20

/-- `X` is the mean of the first `n` members of `x`, but for a rounding error of at most `(2 n + 4) / 2^53` of the mean
magnitude (and an amount far below the smallest visible one). -/
def NearMean (x : ℕ → ℝ) (n : ℕ) (X : ℝ) : Prop :=
  |X - (∑ k ∈ range n, x k) / n| ≤ (2 * n + 4) / 2 ^ 53 * ((∑ k ∈ range n, |x k|) / n) + 1 / 2 ^ 190

/-- `V` is the unbiased sample variance of the first `n` members of `x`, but for a rounding error of at most `(8 n + 32) / 2^53`
of the sum of the squares over `n - 1` (and an amount far below the smallest visible one). -/
def NearVariance (x : ℕ → ℝ) (n : ℕ) (V : ℝ) : Prop :=
  |V - (∑ k ∈ range n, (x k - (∑ j ∈ range n, x j) / n) ^ 2) / (n - 1)| ≤
    (8 * n + 32) / 2 ^ 53 * ((∑ k ∈ range n, x k ^ 2) / (n - 1)) + 1 / 2 ^ 100

end BR
