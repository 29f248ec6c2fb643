import Verif.Props.C05_Mean

/-!
# C06 The error estimate

Stated per colour channel; exact arithmetic.
-/

namespace BR

open Finset

/-- Unbiased sample variance of `n` numbers. -/
noncomputable def sampleVariance (x : Nat → ℝ) (n : Nat) : ℝ :=
  (∑ k ∈ range n, (x k - mean x n) ^ 2) / (n - 1)

/-- The reported variance is the unbiased sample variance of the samples. -/
theorem C06_variance (g : Nat → Color ℝ) (n : Nat) (hn : 2 ≤ n) :
    (accumulate g Cell.zero n).variance =
      ⟨sampleVariance (fun k => (g k).R) n, sampleVariance (fun k => (g k).G) n,
       sampleVariance (fun k => (g k).B) n⟩ := by
  have h1 : (n : ℝ) ≠ 0 := by positivity
  have h2 : (n : ℝ) - 1 ≠ 0 := by
    have : (2 : ℝ) ≤ n := by exact_mod_cast hn
    linarith
  have key : ∀ x : Nat → ℝ, (n * ∑ k ∈ range n, x k ^ 2 - (∑ k ∈ range n, x k) * ∑ k ∈ range n, x k)
      * (1 / (n * (n - 1))) = sampleVariance x n := by
    intro x
    rw [← sq, sum_sq_dev x n (by omega)]
    unfold sampleVariance mean
    field_simp
  rw [accumulate_real]
  simp only [Cell.variance, ofInt_real, lit_real, sqr]
  push_cast
  ext <;> simp only [key]

theorem sampleVariance_nonneg (x : Nat → ℝ) (n : Nat) (hn : 2 ≤ n) : 0 ≤ sampleVariance x n := by
  have : (2 : ℝ) ≤ n := by exact_mod_cast hn
  exact div_nonneg (sum_nonneg fun k _ => sq_nonneg _) (by linarith)

/-- The variance is never negative and the standard deviation is its square root. -/
theorem C06_nonneg (g : Nat → Color ℝ) (n : Nat) (hn : 2 ≤ n) :
    let s := accumulate g Cell.zero n
    (0 ≤ s.variance.R ∧ 0 ≤ s.variance.G ∧ 0 ≤ s.variance.B) ∧
    (s.stddev.R ^ 2 = s.variance.R ∧ s.stddev.G ^ 2 = s.variance.G ∧ s.stddev.B ^ 2 = s.variance.B) ∧
    (0 ≤ s.stddev.R ∧ 0 ≤ s.stddev.G ∧ 0 ≤ s.stddev.B) := by
  intro s
  have h : (0 ≤ s.variance.R ∧ 0 ≤ s.variance.G ∧ 0 ≤ s.variance.B) := by
    simp only [s, C06_variance g n hn]
    exact ⟨sampleVariance_nonneg _ n hn, sampleVariance_nonneg _ n hn, sampleVariance_nonneg _ n hn⟩
  refine ⟨h, ?_, ?_⟩
  · simp only [Cell.stddev, sqrt_real]
    exact ⟨Real.sq_sqrt h.1, Real.sq_sqrt h.2.1, Real.sq_sqrt h.2.2⟩
  · simp only [Cell.stddev, sqrt_real]
    exact ⟨Real.sqrt_nonneg _, Real.sqrt_nonneg _, Real.sqrt_nonneg _⟩

theorem sampleVariance_eq_zero (x : Nat → ℝ) (n : Nat) (hn : 2 ≤ n) :
    sampleVariance x n = 0 ↔ ∀ j < n, ∀ k < n, x j = x k := by
  have h2 : (n : ℝ) - 1 ≠ 0 := by
    have : (2 : ℝ) ≤ n := by exact_mod_cast hn
    linarith
  have h1 : (n : ℝ) ≠ 0 := by positivity
  unfold sampleVariance
  rw [div_eq_zero_iff, or_iff_left h2, sum_eq_zero_iff_of_nonneg fun k _ => sq_nonneg _]
  constructor
  · intro h j hj k hk
    have hj := h j (mem_range.2 hj)
    have hk := h k (mem_range.2 hk)
    rw [sq_eq_zero_iff, sub_eq_zero] at hj hk
    rw [hj, hk]
  · intro h k hk
    have hk := mem_range.1 hk
    have : mean x n = x k := by
      unfold mean
      rw [sum_congr rfl (fun j hj => h j (mem_range.1 hj) k hk)]
      simp [h1]
    rw [this]; simp

/-- The variance is zero exactly when all samples agree. -/
theorem C06_zero (g : Nat → Color ℝ) (n : Nat) (hn : 2 ≤ n) :
    (accumulate g Cell.zero n).variance = ⟨0, 0, 0⟩ ↔ ∀ j < n, ∀ k < n, g j = g k := by
  rw [C06_variance g n hn, Color.mk.injEq, sampleVariance_eq_zero _ n hn,
    sampleVariance_eq_zero _ n hn, sampleVariance_eq_zero _ n hn]
  constructor
  · rintro ⟨hr, hg, hb⟩ j hj k hk
    exact Color.ext (hr j hj k hk) (hg j hj k hk) (hb j hj k hk)
  · intro h
    exact ⟨fun j hj k hk => by rw [h j hj k hk], fun j hj k hk => by rw [h j hj k hk],
      fun j hj k hk => by rw [h j hj k hk]⟩

/-- With one sample there is no estimate: the code divides by zero and reports NaN. -/
theorem C06_single : (accumulate (fun _ => (Color.white : Color Ext)) Cell.zero 1).variance.R
    = .nan := by
  simp [accumulate, Cell.zero, Cell.push, Color.white, Color.black, Color.isNaN, Color.add,
    Cell.variance, sqr, Ext.num_add_num, Ext.num_mul_num, Ext.num_sub_num, Ext.num_div_zero,
    Ext.num_mul_inf]

/-- Non-vacuity: samples 0 and 2 have variance 2. -/
example : sampleVariance (fun k => if k = 0 then 0 else 2) 2 = 2 := by
  simp [sampleVariance, mean, sum_range_succ]; norm_num

end BR
