import Verif.Num.Real
import Verif.Model.Geom
import Mathlib.Analysis.SpecialFunctions.Trigonometric.Sinc

/-! C111: the wave function for height maps, and the greatest of three numbers. In exact arithmetic. -/

namespace BR

theorem sinc_real : (sinc : ℝ → ℝ) = Real.sinc := by
  funext x
  unfold sinc Real.sinc
  by_cases h : x = 0
  · have : (x ==. lit 0) = true := by show decide (x = ((0 : ℚ) : ℝ)) = true; simp [h]
    rw [if_pos this, if_pos h]
    show ((1 : ℚ) : ℝ) = 1
    simp
  · have : (x ==. lit 0) = false := by show decide (x = ((0 : ℚ) : ℝ)) = false; simp [h]
    rw [this, if_neg h]
    rfl

/-- **The wave function** has the value 1 in the middle and `sin x / x` elsewhere. It has no step, not even in the middle, is the same on both
sides, and stays between -1 and 1. -/
theorem C111_sinc : sinc (0 : ℝ) = 1 ∧ (∀ x : ℝ, x ≠ 0 → sinc x = Real.sin x / x) ∧ Continuous (sinc : ℝ → ℝ) ∧
    (∀ x : ℝ, sinc (-x) = sinc x) ∧ ∀ x : ℝ, |sinc x| ≤ 1 := by
  rw [sinc_real]
  exact ⟨Real.sinc_zero, fun x h => Real.sinc_of_ne_zero h, Real.continuous_sinc, Real.sinc_neg, Real.abs_sinc_le_one⟩

/-- **A height map made from it**, as in the tests, `(sinc r + 1) / 2`, stays between 0 and 1. -/
theorem C111_height (r : ℝ) : 0 ≤ 1 / 2 * sinc r + 1 / 2 ∧ 1 / 2 * sinc r + 1 / 2 ≤ 1 := by
  have := abs_le.1 (C111_sinc.2.2.2.2 r)
  constructor <;> linarith [this.1, this.2]

/-- **The waves die out**: at a distance `r` from the middle they are no higher than `1 / r`. -/
theorem C111_decay {r : ℝ} (h : 0 < r) : |sinc r| ≤ 1 / r := by
  rw [C111_sinc.2.1 r h.ne', abs_div, abs_of_pos h]
  exact div_le_div_of_nonneg_right (Real.abs_sin_le_one r) h.le

/-- **The greatest of three numbers** is one of them and at least as large as each. -/
theorem C111_max3 (x y z : ℝ) : (fmax3 x y z = x ∨ fmax3 x y z = y ∨ fmax3 x y z = z) ∧ x ≤ fmax3 x y z ∧ y ≤ fmax3 x y z ∧ z ≤ fmax3 x y z := by
  have e : fmax3 x y z = max (max x y) z := by
    have g : ∀ a b : ℝ, (if b >. a then b else a) = max a b := by
      intro a b
      by_cases h : a < b
      · rw [if_pos (by show decide (a < b) = true; simpa using h), max_eq_right h.le]
      · rw [if_neg (by show ¬ decide (a < b) = true; simpa using h), max_eq_left (not_lt.1 h)]
    unfold fmax3
    dsimp only
    rw [g, g]
  rw [e]
  refine ⟨?_, le_max_of_le_left (le_max_left _ _), le_max_of_le_left (le_max_right _ _), le_max_right _ _⟩
  rcases max_choice (max x y) z with h | h <;> rw [h]
  · rcases max_choice x y with h | h <;> rw [h] <;> simp
  · simp

/-- The waves at a half turn from the middle are level with the sea. -/
example : sinc Real.pi = (0 : ℝ) := by rw [C111_sinc.2.1 _ Real.pi_ne_zero, Real.sin_pi, zero_div]

example : fmax3 (1 : ℝ) 3 2 = 3 := by
  obtain ⟨h, _, h2, _⟩ := C111_max3 1 3 2
  rcases h with h | h | h <;> linarith

end BR
