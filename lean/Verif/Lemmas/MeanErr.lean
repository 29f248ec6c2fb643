import Verif.Lemmas.SampleErr
import Verif.Lemmas.Sampler
import Mathlib.Algebra.Order.Chebyshev

/-! Rounding errors of sums, means and sample variances in double precision. -/

namespace BR
set_option linter.unusedSectionVars false

namespace Dbl

open Finset

theorem sumAbs_nonneg (x : ℕ → ℝ) (n : ℕ) : 0 ≤ ∑ k ∈ range n, |x k| := sum_nonneg fun _ _ => abs_nonneg _

/-- The sum of numbers, rounded after every addition. -/
noncomputable def rsum (x : ℕ → ℝ) : ℕ → ℝ
  | 0 => 0
  | n + 1 => roundBits 53 (rsum x n + x n)

theorem chain {a b c e f : ℝ} (h1 : |a - b| ≤ e) (h2 : |b - c| ≤ f) : |a - c| ≤ e + f :=
  (abs_sub_le a b c).trans (add_le_add h1 h2)

theorem abs_le_of_near {a b e B : ℝ} (h : |a - b| ≤ e) (hb : |b| ≤ B) : |a| ≤ B + e := by
  have := abs_sub_abs_le_abs_sub a b
  linarith

theorem rsum_err (x : ℕ → ℝ) (n : ℕ) (hn : n ≤ 2 ^ 50) : |rsum x n - ∑ k ∈ range n, x k| ≤
    2 * n / 2 ^ 53 * (∑ k ∈ range n, |x k|) + 2 * n / 2 ^ 200 := by
  induction n with
  | zero => simp [rsum]
  | succ n ih =>
    have ih := ih (by omega)
    rw [rsum, sum_range_succ, sum_range_succ]
    have hA := sumAbs_nonneg x n
    have hS : |∑ k ∈ range n, x k| ≤ ∑ k ∈ range n, |x k| := abs_sum_le_sum_abs _ _
    have hr := roundBits_err 53 (by norm_num) (rsum x n + x n)
    generalize ∑ k ∈ range n, |x k| = A at *
    generalize ∑ k ∈ range n, x k = S at *
    generalize rsum x n = R at *
    generalize roundBits 53 (R + x n) = R' at *
    have hx := abs_nonneg (x n)
    have hnR : (n : ℝ) ≤ 2 ^ 50 := by exact_mod_cast (by omega : n ≤ 2 ^ 50)
    have n0 : (0 : ℝ) ≤ n := by positivity
    have h1 : |R + x n - (S + x n)| ≤ 2 * n / 2 ^ 53 * A + 2 * n / 2 ^ 200 := by
      rwa [add_sub_add_right_eq_sub]
    have hnu : 2 * (n : ℝ) / 2 ^ 53 ≤ 1 / 4 := by
      rw [div_le_iff₀ (by norm_num)]
      rw [show (1 / 4 * 2 ^ 53 : ℝ) = 2 * 2 ^ 50 by norm_num]
      linarith
    have h2 : |R + x n| ≤ A + |x n| + (2 * n / 2 ^ 53 * A + 2 * n / 2 ^ 200) :=
      abs_le_of_near h1 ((abs_add_le S (x n)).trans (by linarith))
    refine (chain hr h1).trans ?_
    have h3 : |R + x n| / 2 ^ 53 ≤ (A + |x n| + (2 * n / 2 ^ 53 * A + 2 * n / 2 ^ 200)) / 2 ^ 53 :=
      div_le_div_of_nonneg_right h2 (by positivity)
    have h4 : 2 * (n : ℝ) / 2 ^ 53 * A ≤ 1 / 4 * A := mul_le_mul_of_nonneg_right hnu hA
    have h5 : 2 * (n : ℝ) / 2 ^ 200 / 2 ^ 53 ≤ 1 / 2 ^ 200 * (1 / 4) := by
      calc 2 * (n : ℝ) / 2 ^ 200 / 2 ^ 53 = 1 / 2 ^ 200 * (2 * n / 2 ^ 53) := by ring
        _ ≤ _ := mul_le_mul_of_nonneg_left hnu (by positivity)
    have h6 : 0 ≤ 2 * (n : ℝ) / 2 ^ 53 * |x n| := by positivity
    have h7 : (0 : ℝ) ≤ 1 / 2 ^ 200 := by positivity
    push_cast
    have e1 : (A + |x n| + (2 * n / 2 ^ 53 * A + 2 * n / 2 ^ 200)) / 2 ^ 53 =
        (A + |x n|) / 2 ^ 53 + 2 * n / 2 ^ 53 * A / 2 ^ 53 + 2 * n / 2 ^ 200 / 2 ^ 53 := by ring
    have e2 : 2 * ((n : ℝ) + 1) / 2 ^ 53 * (A + |x n|) + 2 * (n + 1) / 2 ^ 200 =
        2 * n / 2 ^ 53 * A + 2 * n / 2 ^ 53 * |x n| + 2 * (A + |x n|) / 2 ^ 53 + 2 * n / 2 ^ 200 + 2 / 2 ^ 200 := by ring
    have h8 : 2 * n / 2 ^ 53 * A / 2 ^ 53 ≤ 1 / 4 * A / 2 ^ 53 := div_le_div_of_nonneg_right h4 (by positivity)
    have e3 : 1 / 4 * A / 2 ^ 53 = 1 / 4 * (A / 2 ^ 53) := by ring
    have e4 : 2 * (A + |x n|) / 2 ^ 53 = 2 * (A / 2 ^ 53) + 2 * (|x n| / 2 ^ 53) := by ring
    have e5 : (A + |x n|) / 2 ^ 53 = A / 2 ^ 53 + |x n| / 2 ^ 53 := by ring
    have e6 : (2 : ℝ) / 2 ^ 200 = 2 * (1 / 2 ^ 200) := by ring
    have h9 : 0 ≤ A / 2 ^ 53 := by positivity
    have h10 : 0 ≤ |x n| / 2 ^ 53 := by positivity
    rw [e2, e4, e6]
    rw [e1, e5] at h3
    rw [e3] at h8
    generalize (1 : ℝ) / 2 ^ 200 = η at *
    linarith

/-- The mean: the sum times the reciprocal of the count. -/
theorem mean_err (x : ℕ → ℝ) (n : ℕ) (h1 : 1 ≤ n) (hn : n ≤ 2 ^ 50) {r m : ℝ} (hr : |r - 1 / n| ≤ 1 / n / 2 ^ 53)
    (hm : |m - rsum x n * r| ≤ |rsum x n * r| / 2 ^ 53 + 1 / 2 ^ 200) :
    |m - (∑ k ∈ range n, x k) / n| ≤ (2 * n + 4) / 2 ^ 53 * ((∑ k ∈ range n, |x k|) / n) + 5 / 2 ^ 200 := by
  have hA := sumAbs_nonneg x n
  have hS : |∑ k ∈ range n, x k| ≤ ∑ k ∈ range n, |x k| := abs_sum_le_sum_abs _ _
  have he := rsum_err x n hn
  generalize ∑ k ∈ range n, |x k| = A at *
  generalize ∑ k ∈ range n, x k = S at *
  generalize rsum x n = R at *
  have n1 : (1 : ℝ) ≤ n := by exact_mod_cast h1
  have n0 : (0 : ℝ) < n := by linarith
  have hnR : (n : ℝ) ≤ 2 ^ 50 := by exact_mod_cast hn
  obtain ⟨M, rfl⟩ : ∃ M, A = M * n := ⟨A / n, by field_simp⟩
  obtain ⟨σ, rfl⟩ : ∃ σ, S = σ * n := ⟨S / n, by field_simp⟩
  obtain ⟨ρ, rfl⟩ : ∃ ρ, r = ρ / n := ⟨r * n, by field_simp⟩
  obtain ⟨τ, rfl⟩ : ∃ τ, R = τ * n := ⟨R / n, by field_simp⟩
  have hM : 0 ≤ M := by
    by_contra h
    nlinarith
  have hσ : |σ| ≤ M := by
    rw [abs_mul, abs_of_pos n0] at hS
    exact le_of_mul_le_mul_right hS n0
  have hρ : |ρ - 1| ≤ 1 / 2 ^ 53 := by
    have e : ρ / n - 1 / n = (ρ - 1) / n := by ring
    rw [e, abs_div, abs_of_pos n0, div_le_iff₀ n0] at hr
    calc _ ≤ 1 / (n : ℝ) / 2 ^ 53 * n := hr
      _ = 1 / 2 ^ 53 := by field_simp
  have hτ : |τ - σ| ≤ 2 * n / 2 ^ 53 * M + 2 / 2 ^ 200 := by
    rw [← sub_mul, abs_mul, abs_of_pos n0] at he
    refine le_of_mul_le_mul_right (he.trans (le_of_eq ?_)) n0
    ring
  have e0 : τ * n * (ρ / n) = τ * ρ := by field_simp
  rw [e0] at hm
  rw [mul_div_cancel_right₀ _ n0.ne', mul_div_cancel_right₀ _ n0.ne']
  have hnu : 2 * (n : ℝ) / 2 ^ 53 ≤ 1 / 4 := by
    rw [div_le_iff₀ (by norm_num)]
    rw [show (1 / 4 * 2 ^ 53 : ℝ) = 2 * 2 ^ 50 by norm_num]
    linarith
  have hη : (0 : ℝ) ≤ 1 / 2 ^ 200 := by positivity
  have hη' : (1 : ℝ) / 2 ^ 200 ≤ 1 := by norm_num
  have hw : |τ * ρ - σ| ≤ (2 * n / 2 ^ 53 * M + 2 / 2 ^ 200) * (1 + 1 / 2 ^ 53) + M * (1 / 2 ^ 53) := by
    have e : τ * ρ - σ = (τ - σ) * ρ + σ * (ρ - 1) := by ring
    rw [e]
    refine (abs_add_le _ _).trans ?_
    rw [abs_mul, abs_mul]
    have : |ρ| ≤ 1 + 1 / 2 ^ 53 := abs_le_of_near hρ (by norm_num)
    exact add_le_add (mul_le_mul hτ this (abs_nonneg _) (by positivity)) (mul_le_mul hσ hρ (abs_nonneg _) hM)
  have hq : 2 * (n : ℝ) / 2 ^ 53 * M ≤ 1 / 4 * M := mul_le_mul_of_nonneg_right hnu hM
  have hw2 : |τ * ρ - σ| ≤ 2 * n / 2 ^ 53 * M + 2 * (M / 2 ^ 53) + 3 / 2 ^ 200 := by
    refine hw.trans ?_
    have e : (2 * (n : ℝ) / 2 ^ 53 * M + 2 / 2 ^ 200) * (1 + 1 / 2 ^ 53) + M * (1 / 2 ^ 53) =
      2 * n / 2 ^ 53 * M + (2 * n / 2 ^ 53 * M) / 2 ^ 53 + 2 * (1 / 2 ^ 200) + 2 * (1 / 2 ^ 200) * (1 / 2 ^ 53) + M / 2 ^ 53 := by ring
    have h2 : (2 * n / 2 ^ 53 * M) / 2 ^ 53 ≤ (1 / 4 * M) / 2 ^ 53 := div_le_div_of_nonneg_right hq (by positivity)
    have h3 : 2 * ((1 : ℝ) / 2 ^ 200) * (1 / 2 ^ 53) ≤ 1 / 2 ^ 200 := by
      generalize (1 : ℝ) / 2 ^ 200 = η at *
      have : (1 : ℝ) / 2 ^ 53 ≤ 1 / 2 := by norm_num
      nlinarith
    have e3 : (3 : ℝ) / 2 ^ 200 = 3 * (1 / 2 ^ 200) := by ring
    have e4 : (1 / 4 * M) / 2 ^ 53 = 1 / 4 * (M / 2 ^ 53) := by ring
    have h5 : 0 ≤ M / 2 ^ 53 := by positivity
    rw [e, e3]
    rw [e4] at h2
    generalize (1 : ℝ) / 2 ^ 200 = η at *
    linarith
  have hb : |τ * ρ| ≤ 3 / 2 * M + 1 / 2 ^ 53 := by
    refine (abs_le_of_near hw2 hσ).trans ?_
    have : M / 2 ^ 53 ≤ M * (1 / 8) := by rw [div_eq_mul_inv]; exact mul_le_mul_of_nonneg_left (by norm_num) hM
    have h3 : (3 : ℝ) / 2 ^ 200 ≤ 1 / 2 ^ 53 := by norm_num
    linarith
  refine (chain hm hw2).trans ?_
  have h6 : |τ * ρ| / 2 ^ 53 ≤ (3 / 2 * M + 3 / 2 ^ 200) / 2 ^ 53 := by
    refine div_le_div_of_nonneg_right ?_ (by positivity)
    refine (abs_le_of_near hw2 hσ).trans ?_
    have : M / 2 ^ 53 ≤ M * (1 / 8) := by rw [div_eq_mul_inv]; exact mul_le_mul_of_nonneg_left (by norm_num) hM
    linarith
  have h7 : (3 / 2 * M + 3 / 2 ^ 200) / 2 ^ 53 ≤ 3 / 2 * (M / 2 ^ 53) + 1 / 2 ^ 200 := by
    have e : (3 / 2 * M + 3 / 2 ^ 200) / 2 ^ 53 = 3 / 2 * (M / 2 ^ 53) + 3 / 2 ^ 53 * (1 / 2 ^ 200) := by ring
    rw [e]
    have : (3 : ℝ) / 2 ^ 53 * (1 / 2 ^ 200) ≤ 1 * (1 / 2 ^ 200) := mul_le_mul_of_nonneg_right (by norm_num) hη
    linarith
  have h5 : 0 ≤ M / 2 ^ 53 := by positivity
  have e8 : (2 * (n : ℝ) + 4) / 2 ^ 53 * M = 2 * n / 2 ^ 53 * M + 4 * (M / 2 ^ 53) := by ring
  have e9 : (5 : ℝ) / 2 ^ 200 = 1 / 2 ^ 200 + 3 / 2 ^ 200 + 1 / 2 ^ 200 := by ring
  rw [e8, e9]
  linarith

/-- The numerator of the sample variance: `n` the count, `B` and `T` the exact sums of the squares and of the numbers, `A` the sum of the
magnitudes; the other letters are what is computed for `B`, `T`, `n * B`, `T²` and their difference. -/
theorem numer_err {n B T A Q S N P D : ℝ} (hn2 : 2 ≤ n) (hn : n ≤ 2 ^ 26) (hA : 0 ≤ A) (hT : |T| ≤ A) (hA2 : A ^ 2 ≤ n * B)
    (hAb : A ≤ 2 ^ 46) (hQ : |Q - B| ≤ (2 * n + 2) / 2 ^ 53 * B + 1 / 2 ^ 170)
    (hS : |S - T| ≤ 2 * n / 2 ^ 53 * A + 1 / 2 ^ 170) (hN : |N - n * Q| ≤ |n * Q| / 2 ^ 53 + 1 / 2 ^ 200)
    (hP : |P - S * S| ≤ |S * S| / 2 ^ 53 + 1 / 2 ^ 200) (hD : |D - (N - P)| ≤ |N - P| / 2 ^ 53 + 1 / 2 ^ 200) :
    |D - (n * B - T ^ 2)| ≤ 7 * (n * (n * (1 / 2 ^ 53) * B)) + 8 * (n * (1 / 2 ^ 53) * B) + 1 / 2 ^ 118 := by
  have n0 : 0 < n := by linarith
  have hB : 0 ≤ B := by
    by_contra h
    have : n * B < 0 := mul_neg_of_pos_of_neg n0 (not_le.1 h)
    nlinarith [sq_nonneg A]
  -- the small quantities
  obtain ⟨u, hu⟩ : ∃ u : ℝ, u = 1 / 2 ^ 53 := ⟨_, rfl⟩
  have u0 : 0 < u := by rw [hu]; positivity
  have nu : n * u ≤ 1 / 2 ^ 27 := by
    rw [hu]
    calc _ ≤ (2 : ℝ) ^ 26 * (1 / 2 ^ 53) := mul_le_mul_of_nonneg_right hn (by positivity)
      _ = 1 / 2 ^ 27 := by norm_num
  have u1 : u ≤ 1 / 2 ^ 28 := by nlinarith
  rw [← hu]
  have divu : ∀ z : ℝ, z / 2 ^ 53 = z * u := fun z => by rw [hu]; ring
  simp only [divu] at hQ hS hN hP hD
  have nB : 0 ≤ n * B := by positivity
  have nuB : 0 ≤ n * u * B := by positivity
  have uB : u * B ≤ B := by nlinarith
  have nnuB : 0 ≤ n * (n * u * B) := by positivity
  -- n times the sum of the squares
  have hnQ : |n * Q - n * B| ≤ 2 * (n * (n * u * B)) + 2 * (n * u * B) + 1 / 2 ^ 144 := by
    rw [← mul_sub, abs_mul, abs_of_pos n0]
    refine (mul_le_mul_of_nonneg_left hQ n0.le).trans ?_
    have : n * (1 / 2 ^ 170) ≤ 1 / 2 ^ 144 := by
      calc _ ≤ (2 : ℝ) ^ 26 * (1 / 2 ^ 170) := mul_le_mul_of_nonneg_right hn (by positivity)
        _ = 1 / 2 ^ 144 := by norm_num
    linarith
  have small1 : 2 * (n * (n * u * B)) + 2 * (n * u * B) ≤ 1 / 16 * (n * B) := by
    have h1 : n * (n * u * B) = (n * u) * (n * B) := by ring
    have h2 : n * u * B = u * (n * B) := by ring
    rw [h1, h2]
    have := mul_le_mul_of_nonneg_right nu nB
    have := mul_le_mul_of_nonneg_right u1 nB
    norm_num at *
    linarith
  have hNe : |N - n * B| ≤ 2 * (n * (n * u * B)) + 4 * (n * u * B) + 1 / 2 ^ 143 := by
    refine (chain hN hnQ).trans ?_
    have h1 := abs_le_of_near hnQ (le_of_eq (abs_of_nonneg nB))
    have h2 : |n * Q| * u ≤ (2 * (n * B) + 1 / 2 ^ 144) * u := mul_le_mul_of_nonneg_right (by linarith) u0.le
    have h3 : (1 : ℝ) / 2 ^ 144 * u ≤ 1 / 2 ^ 172 := by
      calc _ ≤ (1 : ℝ) / 2 ^ 144 * (1 / 2 ^ 28) := mul_le_mul_of_nonneg_left u1 (by positivity)
        _ = 1 / 2 ^ 172 := by norm_num
    have e : (2 * (n * B) + 1 / 2 ^ 144) * u = 2 * (n * u * B) + 1 / 2 ^ 144 * u := by ring
    have h4 : (1 : ℝ) / 2 ^ 172 + 1 / 2 ^ 200 + 1 / 2 ^ 144 ≤ 1 / 2 ^ 143 := by norm_num
    linarith
  -- the square of the sum
  have hA2u : n * u * A ^ 2 ≤ n * (n * u * B) := by
    have := mul_le_mul_of_nonneg_left hA2 (show 0 ≤ n * u by positivity)
    linarith
  have hST : |S * S - T ^ 2| ≤ 5 * (n * (n * u * B)) + 1 / 2 ^ 121 := by
    have e : S * S - T ^ 2 = (S - T) * (2 * T + (S - T)) := by ring
    rw [e, abs_mul]
    have h1 : |2 * T + (S - T)| ≤ 2 * A + (2 * n * u * A + 1 / 2 ^ 170) := by
      refine (abs_add_le _ _).trans (add_le_add ?_ hS)
      rw [abs_mul]; norm_num; exact hT
    have nuA : 0 ≤ n * u * A := by positivity
    refine (mul_le_mul hS h1 (abs_nonneg _) (by positivity)).trans ?_
    have e2 : (2 * n * u * A + 1 / 2 ^ 170) * (2 * A + (2 * n * u * A + 1 / 2 ^ 170)) =
        4 * (n * u * A ^ 2) + 4 * (n * u) * (n * u * A ^ 2) + 1 / 2 ^ 170 * (2 * A + 4 * (n * u * A) + 1 / 2 ^ 170) := by ring
    have h2 : 4 * (n * u) * (n * u * A ^ 2) ≤ 1 * (n * u * A ^ 2) := by
      refine mul_le_mul_of_nonneg_right ?_ (by positivity)
      norm_num at nu ⊢
      linarith
    have h3 : n * u * A ≤ 1 * A := mul_le_mul_of_nonneg_right (nu.trans (by norm_num)) hA
    have h4 : (1 : ℝ) / 2 ^ 170 * (2 * A + 4 * (n * u * A) + 1 / 2 ^ 170) ≤ 1 / 2 ^ 121 := by
      calc _ ≤ (1 : ℝ) / 2 ^ 170 * (2 ^ 49) := by
            refine mul_le_mul_of_nonneg_left ?_ (by positivity)
            norm_num at hAb h3 ⊢
            linarith
        _ = 1 / 2 ^ 121 := by norm_num
    rw [e2]
    linarith
  have small2 : 5 * (n * (n * u * B)) ≤ 1 / 16 * (n * B) := by
    have h1 : n * (n * u * B) = (n * u) * (n * B) := by ring
    rw [h1]
    have := mul_le_mul_of_nonneg_right nu nB
    norm_num at *
    linarith
  have hT2 : T ^ 2 ≤ n * B := le_trans (by rw [← sq_abs]; exact pow_le_pow_left₀ (abs_nonneg _) hT 2) hA2
  have hPe : |P - T ^ 2| ≤ 5 * (n * (n * u * B)) + 2 * (n * u * B) + 1 / 2 ^ 120 := by
    refine (chain hP hST).trans ?_
    have h1 : |S * S| ≤ n * B + (5 * (n * (n * u * B)) + 1 / 2 ^ 121) :=
      abs_le_of_near hST (by rw [abs_of_nonneg (sq_nonneg T)]; exact hT2)
    have h2 : |S * S| * u ≤ (2 * (n * B) + 1 / 2 ^ 121) * u := mul_le_mul_of_nonneg_right (by linarith) u0.le
    have h3 : (1 : ℝ) / 2 ^ 121 * u ≤ 1 / 2 ^ 149 := by
      calc _ ≤ (1 : ℝ) / 2 ^ 121 * (1 / 2 ^ 28) := mul_le_mul_of_nonneg_left u1 (by positivity)
        _ = 1 / 2 ^ 149 := by norm_num
    have e : (2 * (n * B) + 1 / 2 ^ 121) * u = 2 * (n * u * B) + 1 / 2 ^ 121 * u := by ring
    have h4 : (1 : ℝ) / 2 ^ 149 + 1 / 2 ^ 200 + 1 / 2 ^ 121 ≤ 1 / 2 ^ 120 := by norm_num
    linarith
  -- their difference
  obtain ⟨V, hV⟩ : ∃ V, V = n * B - T ^ 2 := ⟨_, rfl⟩
  have V0 : 0 ≤ V := by rw [hV]; linarith
  have V1 : V ≤ n * B := by rw [hV]; linarith [sq_nonneg T]
  have hNP : |N - P - V| ≤ 7 * (n * (n * u * B)) + 6 * (n * u * B) + 1 / 2 ^ 119 := by
    have e : N - P - V = (N - n * B) - (P - T ^ 2) := by rw [hV]; ring
    rw [e]
    refine (abs_sub _ _).trans ?_
    have h4 : (1 : ℝ) / 2 ^ 143 + 1 / 2 ^ 120 ≤ 1 / 2 ^ 119 := by norm_num
    linarith
  have small3 : 7 * (n * (n * u * B)) + 6 * (n * u * B) ≤ n * B := by
    have h2 : n * u * B = u * (n * B) := by ring
    have := mul_le_mul_of_nonneg_right u1 nB
    norm_num at *
    linarith
  have hDe : |D - V| ≤ 7 * (n * (n * u * B)) + 8 * (n * u * B) + 1 / 2 ^ 118 := by
    refine (chain hD hNP).trans ?_
    have h1 := abs_le_of_near (B := n * B) hNP (by rw [abs_of_nonneg V0]; exact V1)
    have h2 : |N - P| * u ≤ (2 * (n * B) + 1 / 2 ^ 119) * u := mul_le_mul_of_nonneg_right (by linarith) u0.le
    have h3 : (1 : ℝ) / 2 ^ 119 * u ≤ 1 / 2 ^ 147 := by
      calc _ ≤ (1 : ℝ) / 2 ^ 119 * (1 / 2 ^ 28) := mul_le_mul_of_nonneg_left u1 (by positivity)
        _ = 1 / 2 ^ 147 := by norm_num
    have e : (2 * (n * B) + 1 / 2 ^ 119) * u = 2 * (n * u * B) + 1 / 2 ^ 119 * u := by ring
    have h4 : (1 : ℝ) / 2 ^ 147 + 1 / 2 ^ 200 + 1 / 2 ^ 119 ≤ 1 / 2 ^ 118 := by norm_num
    linarith
  rw [hV] at hDe
  exact hDe

/-- The sample variance: the numerator `D` times what is computed for `1 / (n (n - 1))`. -/
theorem variance_err {n B V D d v : ℝ} (hn2 : 2 ≤ n) (hn : n ≤ 2 ^ 26) (hB : 0 ≤ B) (V0 : 0 ≤ V) (V1 : V ≤ n * B)
    (hDe : |D - V| ≤ 7 * (n * (n * (1 / 2 ^ 53) * B)) + 8 * (n * (1 / 2 ^ 53) * B) + 1 / 2 ^ 118)
    (hd : |d - 1 / (n * (n - 1))| ≤ 3 / 2 ^ 53 * (1 / (n * (n - 1)))) (hv : |v - D * d| ≤ |D * d| / 2 ^ 53 + 1 / 2 ^ 200) :
    |v - V / (n * (n - 1))| ≤ (8 * n + 32) / 2 ^ 53 * (B / (n - 1)) + 1 / 2 ^ 100 := by
  have n0 : 0 < n := by linarith
  obtain ⟨u, hu⟩ : ∃ u : ℝ, u = 1 / 2 ^ 53 := ⟨_, rfl⟩
  have u0 : 0 < u := by rw [hu]; positivity
  have nu : n * u ≤ 1 / 2 ^ 27 := by
    rw [hu]
    calc _ ≤ (2 : ℝ) ^ 26 * (1 / 2 ^ 53) := mul_le_mul_of_nonneg_right hn (by positivity)
      _ = 1 / 2 ^ 27 := by norm_num
  have u1 : u ≤ 1 / 2 ^ 28 := by rw [hu]; norm_num
  rw [← hu] at hDe
  have divu : ∀ z : ℝ, z / 2 ^ 53 = z * u := fun z => by rw [hu]; ring
  simp only [divu] at hd hv ⊢
  have nB : 0 ≤ n * B := by positivity
  have nuB : 0 ≤ n * u * B := by positivity
  have nnuB : 0 ≤ n * (n * u * B) := by positivity
  -- the quotient
  obtain ⟨w, hw⟩ : ∃ w, w = 1 / (n * (n - 1)) := ⟨_, rfl⟩
  have n1 : 1 ≤ n - 1 := by linarith
  have nn : 2 ≤ n * (n - 1) := by nlinarith
  have w0 : 0 < w := by rw [hw]; positivity
  have w1 : w ≤ 1 / 2 := by rw [hw]; exact one_div_le_one_div_of_le (by norm_num) nn
  rw [← hw] at hd
  have hd2 : |d| ≤ 2 * w := by
    have := abs_le_of_near hd (le_of_eq (abs_of_pos w0))
    have : 3 * u * w ≤ 1 * w := mul_le_mul_of_nonneg_right (by norm_num at u1 ⊢; linarith) w0.le
    linarith
  have e0 : V / (n * (n - 1)) = V * w := by rw [hw]; ring
  rw [e0]
  have hdd : |d| ≤ w + 3 * u * w := abs_le_of_near hd (le_of_eq (abs_of_pos w0))
  obtain ⟨E, hE⟩ : ∃ E, E = 7 * (n * (n * u * B)) + 8 * (n * u * B) := ⟨_, rfl⟩
  have E0 : 0 ≤ E := by rw [hE]; linarith
  have hEb : E ≤ 2 * (n * B) := by
    rw [hE]
    have h1 : n * (n * u * B) ≤ 1 / 2 ^ 27 * (n * B) := by
      calc n * (n * u * B) = n * u * (n * B) := by ring
        _ ≤ _ := mul_le_mul_of_nonneg_right nu nB
    have h2 : n * u * B ≤ 1 / 2 ^ 28 * (n * B) := by
      calc n * u * B = u * (n * B) := by ring
        _ ≤ _ := mul_le_mul_of_nonneg_right u1 nB
    generalize n * B = z at *
    generalize n * u * B = y at *
    norm_num at h1 h2 ⊢
    linarith
  rw [← hE] at hDe
  have hDd : |D * d - V * w| ≤ E * w + 9 * (n * u * B) * w + 1 / 2 ^ 118 := by
    have e : D * d - V * w = (D - V) * d + V * (d - w) := by ring
    rw [e]
    refine (abs_add_le _ _).trans ?_
    rw [abs_mul, abs_mul, abs_of_nonneg V0]
    have h1 : |D - V| * |d| ≤ (E + 1 / 2 ^ 118) * (w + 3 * u * w) := mul_le_mul hDe hdd (abs_nonneg _) (by positivity)
    have h2 : V * |d - w| ≤ n * B * (3 * u * w) := mul_le_mul V1 hd (abs_nonneg _) nB
    have e1 : (E + 1 / 2 ^ 118) * (w + 3 * u * w) = E * w + E * (3 * u * w) + 1 / 2 ^ 118 * (w * (1 + 3 * u)) := by ring
    have h3 : E * (3 * u * w) ≤ 2 * (n * B) * (3 * u * w) := mul_le_mul_of_nonneg_right hEb (by positivity)
    have h4 : w * (1 + 3 * u) ≤ 1 / 2 * 2 := mul_le_mul w1 (by norm_num at u1 ⊢; linarith) (by positivity) (by norm_num)
    have h5 : (1 : ℝ) / 2 ^ 118 * (w * (1 + 3 * u)) ≤ 1 / 2 ^ 118 * 1 := mul_le_mul_of_nonneg_left (by linarith) (by positivity)
    have e2 : 2 * (n * B) * (3 * u * w) + n * B * (3 * u * w) = 9 * (n * u * B) * w := by ring
    linarith
  have hfin := chain hv hDd
  refine hfin.trans ?_
  have hVw : V * w ≤ n * B * w := mul_le_mul_of_nonneg_right V1 w0.le
  have hDdb : |D * d| ≤ 12 * (n * B) * w + 1 / 2 ^ 118 := by
    have h1 := abs_le_of_near hDd (B := n * B * w) (by rw [abs_of_nonneg (by positivity)]; exact hVw)
    have h2 : E * w ≤ 2 * (n * B) * w := mul_le_mul_of_nonneg_right hEb w0.le
    have h3 : n * u * B * w ≤ n * B * w := by
      refine mul_le_mul_of_nonneg_right ?_ w0.le
      have : n * u * B = u * (n * B) := by ring
      rw [this]
      nlinarith
    linarith
  have h2 : |D * d| * u ≤ (12 * (n * B) * w + 1 / 2 ^ 118) * u := mul_le_mul_of_nonneg_right hDdb u0.le
  have h3 : (1 : ℝ) / 2 ^ 118 * u ≤ 1 / 2 ^ 146 := by
    calc _ ≤ (1 : ℝ) / 2 ^ 118 * (1 / 2 ^ 28) := mul_le_mul_of_nonneg_left u1 (by positivity)
      _ = 1 / 2 ^ 146 := by norm_num
  have e1 : (12 * (n * B) * w + 1 / 2 ^ 118) * u = 12 * (n * u * B * w) + 1 / 2 ^ 118 * u := by ring
  have h4 : (1 : ℝ) / 2 ^ 146 + 1 / 2 ^ 200 + 1 / 2 ^ 118 ≤ 1 / 2 ^ 100 := by norm_num
  have e2 : E * w + 9 * (n * u * B) * w = 7 * n * (n * u * B * w) + 17 * (n * u * B * w) := by rw [hE]; ring
  have e3 : n * u * B * w = u * (B / (n - 1)) := by
    rw [hw]
    have : n - 1 ≠ 0 := by linarith
    field_simp
  rw [e3] at e1 e2
  have e4 : (8 * n + 32) * u * (B / (n - 1)) = 8 * n * (u * (B / (n - 1))) + 32 * (u * (B / (n - 1))) := by ring
  have h5 : 0 ≤ u * (B / (n - 1)) := by
    have : 0 ≤ B / (n - 1) := div_nonneg hB (by linarith)
    positivity
  have h6 : 0 ≤ n * (u * (B / (n - 1))) := by positivity
  rw [e4]
  linarith

/-- `x` is a sequence of moderate numbers. -/
def Moderate (x : ℕ → ℝ) : Prop := ∀ k, |x k| ≤ 2 ^ 20

theorem rsum_bound {x : ℕ → ℝ} {b : ℝ} (hx : ∀ k, |x k| ≤ b) (hb : b ≤ 2 ^ 50) (n : ℕ) (hn : n ≤ 2 ^ 26) :
    |rsum x n| ≤ 2 ^ 80 := by
  have h := rsum_err x n (by omega)
  have hA : ∑ k ∈ range n, |x k| ≤ 2 ^ 26 * 2 ^ 50 := by
    have h1 : ∑ k ∈ range n, |x k| ≤ n * b := by
      have := sum_le_card_nsmul (range n) (fun k => |x k|) b fun k _ => hx k
      simpa using this
    have hnR : (n : ℝ) ≤ 2 ^ 26 := by exact_mod_cast hn
    have b0 : 0 ≤ b := (abs_nonneg _).trans (hx 0)
    exact h1.trans (mul_le_mul hnR hb b0 (by positivity))
  have hA0 := sumAbs_nonneg x n
  have hS : |∑ k ∈ range n, x k| ≤ ∑ k ∈ range n, |x k| := abs_sum_le_sum_abs _ _
  have h2 := abs_le_of_near h hS
  have hnR : (n : ℝ) ≤ 2 ^ 26 := by exact_mod_cast hn
  have h3 : 2 * (n : ℝ) / 2 ^ 53 ≤ 1 := by
    rw [div_le_one (by positivity)]
    calc 2 * (n : ℝ) ≤ 2 * 2 ^ 26 := by linarith
      _ ≤ 2 ^ 53 := by norm_num
  have h4 : 2 * (n : ℝ) / 2 ^ 200 ≤ 1 := by
    rw [div_le_one (by positivity)]
    calc 2 * (n : ℝ) ≤ 2 * 2 ^ 26 := by linarith
      _ ≤ 2 ^ 200 := by norm_num
  have h5 := mul_le_mul_of_nonneg_right h3 hA0
  generalize ∑ k ∈ range n, |x k| = A at *
  calc |rsum x n| ≤ A + (1 * A + 1) := by linarith
    _ ≤ 2 ^ 26 * 2 ^ 50 + (2 ^ 26 * 2 ^ 50 + 1) := by linarith
    _ ≤ 2 ^ 80 := by norm_num

theorem square_bound {x : ℕ → ℝ} (hx : Moderate x) (k : ℕ) : |x k * x k| ≤ 2 ^ 40 := by
  rw [abs_mul]
  calc _ ≤ (2 : ℝ) ^ 20 * 2 ^ 20 := mul_le_mul (hx k) (hx k) (abs_nonneg _) (by positivity)
    _ = 2 ^ 40 := by norm_num

theorem square_round {x : ℕ → ℝ} (hx : Moderate x) (k : ℕ) : |roundBits 53 (x k * x k)| ≤ 2 ^ 41 := by
  have h := roundBits_err 53 (by norm_num) (x k * x k)
  have h1 := square_bound hx k
  refine (abs_le_of_near h h1).trans ?_
  have : |x k * x k| / 2 ^ 53 ≤ 2 ^ 40 / 2 ^ 53 := div_le_div_of_nonneg_right h1 (by positivity)
  calc (2 : ℝ) ^ 40 + (|x k * x k| / 2 ^ 53 + 1 / 2 ^ 200) ≤ 2 ^ 40 + (2 ^ 40 / 2 ^ 53 + 1 / 2 ^ 200) := by linarith
    _ ≤ 2 ^ 41 := by norm_num

theorem self_eq {a : Flo} {x : ℝ} (h : a.Is x) : (a ==. a) = true := by
  rw [CmpModel.eq_iff]
  exact ⟨x, x, h.key, h.key, rfl⟩

theorem push_chan {s a : Flo} {x : ℕ → ℝ} {b : ℝ} {n : ℕ} (hx : ∀ k, |x k| ≤ b) (hb : b ≤ 2 ^ 50) (hn : n ≤ 2 ^ 26) (hs : s.Is (rsum x n))
    (ha : a.Is (x n)) : (s + a).Is (rsum x (n + 1)) := by
  rw [rsum]
  refine Flo.add_is hs ha ?_
  refine (abs_add_le _ _).trans ?_
  calc |rsum x n| + |x n| ≤ 2 ^ 80 + 2 ^ 50 := add_le_add (rsum_bound hx hb n hn) ((hx n).trans hb)
    _ ≤ 2 ^ 200 := by norm_num

/-- What the accumulators hold, in double precision. -/
theorem accumulate_flo (g : ℕ → Color Flo) (x y z : ℕ → ℝ) (hg : ∀ k, (g k).R.Is (x k) ∧ (g k).G.Is (y k) ∧ (g k).B.Is (z k))
    (hx : Moderate x) (hy : Moderate y) (hz : Moderate z) (n : ℕ) (hn : n ≤ 2 ^ 26) :
    let s := accumulate g Cell.zero n
    (s.sum.R.Is (rsum x n) ∧ s.sum.G.Is (rsum y n) ∧ s.sum.B.Is (rsum z n)) ∧
    s.sumSq.R.Is (rsum (fun k => roundBits 53 (x k * x k)) n) ∧ s.sumSq.G.Is (rsum (fun k => roundBits 53 (y k * y k)) n) ∧
    s.sumSq.B.Is (rsum (fun k => roundBits 53 (z k * z k)) n) := by
  induction n with
  | zero => exact ⟨⟨Ball.flo_zero, Ball.flo_zero, Ball.flo_zero⟩, Ball.flo_zero, Ball.flo_zero, Ball.flo_zero⟩
  | succ n ih =>
    obtain ⟨⟨s1, s2, s3⟩, q1, q2, q3⟩ := ih (by omega)
    have hk : (accumulate g Cell.zero n).n = n := by rw [accumulate_n]; simp [Cell.zero]
    dsimp only
    rw [accumulate, hk]
    generalize accumulate g Cell.zero n = A at *
    obtain ⟨g1, g2, g3⟩ := hg n
    have hnan : (g n).isNaN = false := by
      simp [Color.isNaN, self_eq g1, self_eq g2, self_eq g3]
    have sq : ∀ {a : Flo} {v : ℕ → ℝ}, Moderate v → a.Is (v n) → (a * a).Is (roundBits 53 (v n * v n)) := fun hv ha =>
      Flo.mul_is ha ha ((square_bound hv n).trans (by norm_num))
    rw [Cell.push, hnan]
    simp only [Bool.false_eq_true, if_false]
    have b20 : (2 : ℝ) ^ 20 ≤ 2 ^ 50 := by norm_num
    have b41 : (2 : ℝ) ^ 41 ≤ 2 ^ 50 := by norm_num
    exact ⟨⟨push_chan hx b20 (by omega) s1 g1, push_chan hy b20 (by omega) s2 g2, push_chan hz b20 (by omega) s3 g3⟩,
      push_chan (fun k => square_round hx k) b41 (by omega) q1 (sq hx g1), push_chan (fun k => square_round hy k) b41 (by omega) q2 (sq hy g2),
      push_chan (fun k => square_round hz k) b41 (by omega) q3 (sq hz g3)⟩

/-- One channel of the mean. -/
theorem mean_chan {s : Flo} {x : ℕ → ℝ} (hx : Moderate x) {n : ℕ} (h1 : 1 ≤ n) (hn : n ≤ 2 ^ 26) (hs : s.Is (rsum x n)) :
    ∃ X, (lit 1 / ofInt (n : Int) * s).Is X ∧
      |X - (∑ k ∈ range n, x k) / n| ≤ (2 * n + 4) / 2 ^ 53 * ((∑ k ∈ range n, |x k|) / n) + 5 / 2 ^ 200 := by
  have n1 : (1 : ℝ) ≤ n := by exact_mod_cast h1
  have hnR : (n : ℝ) ≤ 2 ^ 26 := by exact_mod_cast hn
  have inn := Flo.ofInt_is n (by rw [abs_of_nonneg (by positivity)]; exact_mod_cast lt_of_le_of_lt hn (by norm_num))
  rw [Int.cast_natCast] at inn
  have q1 : (1 : ℝ) / n ≤ 1 := by rw [div_le_one (by linarith)]; exact n1
  have q0 : (0 : ℝ) < 1 / n := by positivity
  have qlow : (1 : ℝ) / 2 ^ 26 ≤ 1 / n := one_div_le_one_div_of_le (by linarith) hnR
  have hd := Flo.div_is flo_lit_one inn (by linarith) (by rw [abs_of_pos q0]; exact q1.trans (by norm_num))
  have hr := roundBits_rel 53 (by norm_num) (by norm_num) (x := 1 / (n : ℝ)) (by rw [abs_of_pos q0]; exact le_trans (by norm_num) qlow)
  rw [abs_of_pos q0] at hr
  have hrb : |roundBits 53 (1 / (n : ℝ))| ≤ 2 := by
    have := abs_le_of_near (B := 1) hr (by rw [abs_of_pos q0]; exact q1)
    have h3 : 1 / (n : ℝ) / 2 ^ 53 ≤ 1 / 2 ^ 53 := div_le_div_of_nonneg_right q1 (by positivity)
    norm_num at h3 this ⊢
    linarith
  have hb := rsum_bound hx (by norm_num) n hn
  have hm := Flo.mul_is hd hs (by
    rw [mul_comm, abs_mul]
    calc _ ≤ (2 : ℝ) ^ 80 * 2 := mul_le_mul hb hrb (abs_nonneg _) (by positivity)
      _ ≤ 2 ^ 200 := by norm_num)
  rw [mul_comm] at hm
  exact ⟨_, hm, mean_err x n h1 (by omega) hr (roundBits_err 53 (by norm_num) _)⟩

/-- One channel of the variance. -/
theorem variance_chan {s q : Flo} {x : ℕ → ℝ} (hx : Moderate x) {n : ℕ} (h2 : 2 ≤ n) (hn : n ≤ 2 ^ 26) (hs : s.Is (rsum x n))
    (hq : q.Is (rsum (fun k => roundBits 53 (x k * x k)) n)) :
    ∃ v, (((ofInt (n : Int) : Flo) * q - sqr s) * (lit 1 / ((ofInt (n : Int) : Flo) * ((ofInt (n : Int) : Flo) - lit 1)))).Is v ∧
      |v - (n * (∑ k ∈ range n, x k ^ 2) - (∑ k ∈ range n, x k) ^ 2) / (n * (n - 1))| ≤
        (8 * n + 32) / 2 ^ 53 * ((∑ k ∈ range n, x k ^ 2) / (n - 1)) + 1 / 2 ^ 100 := by
  have n2 : (2 : ℝ) ≤ n := by exact_mod_cast h2
  have hnR : (n : ℝ) ≤ 2 ^ 26 := by exact_mod_cast hn
  have n0 : (0 : ℝ) < n := by linarith
  have inn := Flo.ofInt_is n (by rw [abs_of_nonneg (by positivity)]; exact_mod_cast lt_of_le_of_lt hn (by norm_num))
  rw [Int.cast_natCast] at inn
  -- the sums
  set B := ∑ k ∈ range n, x k ^ 2 with hBdef
  set A := ∑ k ∈ range n, |x k| with hAdef
  set T := ∑ k ∈ range n, x k with hTdef
  have hB0 : 0 ≤ B := sum_nonneg fun _ _ => sq_nonneg _
  have hA0 : 0 ≤ A := sumAbs_nonneg x n
  have hT : |T| ≤ A := abs_sum_le_sum_abs _ _
  have hA2 : A ^ 2 ≤ n * B := by
    have := sq_sum_le_card_mul_sum_sq (s := range n) (f := fun k => |x k|)
    simpa [sq_abs] using this
  have hAb : A ≤ 2 ^ 46 := by
    have h1 : A ≤ n * 2 ^ 20 := by
      have := sum_le_card_nsmul (range n) (fun k => |x k|) (2 ^ 20) fun k _ => hx k
      simpa using this
    refine h1.trans ?_
    calc _ ≤ (2 : ℝ) ^ 26 * 2 ^ 20 := mul_le_mul_of_nonneg_right hnR (by positivity)
      _ = 2 ^ 46 := by norm_num
  have hS := rsum_err x n (by omega)
  have tiny2 : 2 * (n : ℝ) / 2 ^ 200 ≤ 1 / 2 ^ 173 := by
    calc 2 * (n : ℝ) / 2 ^ 200 ≤ 2 * 2 ^ 26 / 2 ^ 200 := by gcongr
      _ = 1 / 2 ^ 173 := by norm_num
  -- the sum of the squares
  have hyy : ∀ k, |roundBits 53 (x k * x k) - x k ^ 2| ≤ x k ^ 2 / 2 ^ 53 + 1 / 2 ^ 200 := by
    intro k
    have := roundBits_err 53 (by norm_num) (x k * x k)
    rw [abs_of_nonneg (mul_self_nonneg (x k))] at this
    rwa [sq]
  have hy0 : ∀ k, 0 ≤ roundBits 53 (x k * x k) := fun k => roundBits_nonneg 53 (by norm_num) (mul_self_nonneg _)
  have hYB : |∑ k ∈ range n, roundBits 53 (x k * x k) - B| ≤ B / 2 ^ 53 + n / 2 ^ 200 := by
    rw [hBdef, ← sum_sub_distrib]
    refine (abs_sum_le_sum_abs _ _).trans ((sum_le_sum fun k _ => hyy k).trans (le_of_eq ?_))
    rw [sum_add_distrib, sum_const, card_range, nsmul_eq_mul]
    simp only [div_eq_mul_inv, one_mul, sum_mul]
  have hQ0 := rsum_err (fun k => roundBits 53 (x k * x k)) n (by omega)
  have eY : ∑ k ∈ range n, |roundBits 53 (x k * x k)| = ∑ k ∈ range n, roundBits 53 (x k * x k) :=
    sum_congr rfl fun k _ => abs_of_nonneg (hy0 k)
  rw [eY] at hQ0
  have hQ : |rsum (fun k => roundBits 53 (x k * x k)) n - B| ≤ (2 * n + 2) / 2 ^ 53 * B + 1 / 2 ^ 170 := by
    refine (chain hQ0 hYB).trans ?_
    have hY := (abs_le.1 hYB).2
    generalize ∑ k ∈ range n, roundBits 53 (x k * x k) = Y at *
    have hnu : 2 * (n : ℝ) / 2 ^ 53 ≤ 1 / 2 ^ 26 := by
      calc 2 * (n : ℝ) / 2 ^ 53 ≤ 2 * 2 ^ 26 / 2 ^ 53 := by gcongr
        _ = 1 / 2 ^ 26 := by norm_num
    have hnη : (n : ℝ) / 2 ^ 200 ≤ 1 / 2 ^ 174 := by
      calc (n : ℝ) / 2 ^ 200 ≤ 2 ^ 26 / 2 ^ 200 := by gcongr
        _ = 1 / 2 ^ 174 := by norm_num
    have h3 : 2 * (n : ℝ) / 2 ^ 53 * Y ≤ 2 * n / 2 ^ 53 * B + 1 / 2 ^ 26 * (B / 2 ^ 53 + 1 / 2 ^ 174) := by
      have e : 2 * (n : ℝ) / 2 ^ 53 * Y = 2 * n / 2 ^ 53 * B + 2 * n / 2 ^ 53 * (Y - B) := by ring
      rw [e]
      have : 2 * (n : ℝ) / 2 ^ 53 * (Y - B) ≤ 2 * n / 2 ^ 53 * (B / 2 ^ 53 + 1 / 2 ^ 174) :=
        mul_le_mul_of_nonneg_left (by linarith) (by positivity)
      have h4 : 2 * (n : ℝ) / 2 ^ 53 * (B / 2 ^ 53 + 1 / 2 ^ 174) ≤ 1 / 2 ^ 26 * (B / 2 ^ 53 + 1 / 2 ^ 174) :=
        mul_le_mul_of_nonneg_right hnu (by positivity)
      linarith
    have e : (2 * (n : ℝ) + 2) / 2 ^ 53 * B = 2 * n / 2 ^ 53 * B + 2 * (B / 2 ^ 53) := by ring
    have hBu : 0 ≤ B / 2 ^ 53 := by positivity
    have h5 : (1 : ℝ) / 2 ^ 26 * (B / 2 ^ 53 + 1 / 2 ^ 174) ≤ 1 * (B / 2 ^ 53 + 1 / 2 ^ 174) :=
      mul_le_mul_of_nonneg_right (by norm_num) (by positivity)
    have h6 : (1 : ℝ) / 2 ^ 174 + 1 / 2 ^ 173 + 1 / 2 ^ 174 ≤ 1 / 2 ^ 170 := by norm_num
    rw [e]
    linarith
  -- the operations
  have bS := rsum_bound hx (by norm_num) n hn
  have bQ := rsum_bound (fun k => square_round hx k) (by norm_num) n hn
  generalize rsum (fun k => roundBits 53 (x k * x k)) n = Q at *
  generalize rsum x n = S at *
  have bnQ : |(n : ℝ) * Q| ≤ 2 ^ 106 := by
    rw [abs_mul, abs_of_pos n0]
    calc _ ≤ (2 : ℝ) ^ 26 * 2 ^ 80 := mul_le_mul hnR bQ (abs_nonneg _) (by positivity)
      _ = 2 ^ 106 := by norm_num
  have bSS : |S * S| ≤ 2 ^ 160 := by
    rw [abs_mul]
    calc _ ≤ (2 : ℝ) ^ 80 * 2 ^ 80 := mul_le_mul bS bS (abs_nonneg _) (by positivity)
      _ = 2 ^ 160 := by norm_num
  have iN := Flo.mul_is inn hq (bnQ.trans (by norm_num))
  have iP := Flo.mul_is hs hs (bSS.trans (by norm_num))
  have eN := roundBits_err 53 (by norm_num) ((n : ℝ) * Q)
  have eP := roundBits_err 53 (by norm_num) (S * S)
  have rb : ∀ {z b : ℝ}, |z| ≤ b → |roundBits 53 z| ≤ 2 * b + 1 := by
    intro z b hz
    have h := roundBits_err 53 (by norm_num) z
    have h3 : |z| / 2 ^ 53 ≤ |z| := div_le_self (abs_nonneg _) (by norm_num)
    have h4 : (1 : ℝ) / 2 ^ 200 ≤ 1 := by norm_num
    have := abs_le_of_near h hz
    linarith
  have bN := rb bnQ
  have bP := rb bSS
  generalize roundBits 53 ((n : ℝ) * Q) = N at *
  generalize roundBits 53 (S * S) = P at *
  have bNP : |N - P| ≤ 2 ^ 162 := by
    refine (abs_sub _ _).trans ((add_le_add bN bP).trans ?_)
    norm_num
  have iD := Flo.sub_is iN iP (bNP.trans (by norm_num))
  have eD := roundBits_err 53 (by norm_num) (N - P)
  have bD := rb bNP
  generalize roundBits 53 (N - P) = D at *
  -- the divisor
  have iOne : ((ofInt (n : Int) : Flo) - lit 1).Is (n - 1) := by
    have h := Flo.sub_is inn flo_lit_one (show |(n : ℝ) - 1| ≤ 2 ^ 200 by
      rw [abs_of_nonneg (by linarith)]
      calc (n : ℝ) - 1 ≤ 2 ^ 26 := by linarith
        _ ≤ 2 ^ 200 := by norm_num)
    have e := roundBits_exact 53 ((n : ℤ) - 1) 0 (by rw [abs_of_nonneg (by omega)]; omega) (by norm_num)
    rw [zpow_zero, mul_one] at e
    push_cast at e
    rwa [e] at h
  have nn : 2 ≤ (n : ℝ) * (n - 1) := by nlinarith
  have nnb : (n : ℝ) * (n - 1) ≤ 2 ^ 52 := by
    calc _ ≤ (2 : ℝ) ^ 26 * 2 ^ 26 := mul_le_mul hnR (by linarith) (by linarith) (by positivity)
      _ = 2 ^ 52 := by norm_num
  have iNN : ((ofInt (n : Int) : Flo) * ((ofInt (n : Int) : Flo) - lit 1)).Is ((n : ℝ) * (n - 1)) := by
    have h := Flo.mul_is inn iOne (by rw [abs_of_nonneg (by linarith)]; exact nnb.trans (by norm_num))
    have e := roundBits_exact 53 ((n : ℤ) * ((n : ℤ) - 1)) 0 (by
      rw [abs_of_nonneg (mul_nonneg (by omega) (by omega))]
      have : ((n : ℤ) * ((n : ℤ) - 1) : ℤ) ≤ 2 ^ 52 := by
        have h3 : (((n : ℤ) * ((n : ℤ) - 1) : ℤ) : ℝ) ≤ ((2 ^ 52 : ℤ) : ℝ) := by push_cast; exact nnb.trans (by norm_num)
        exact_mod_cast h3
      exact lt_of_le_of_lt this (by norm_num)) (by norm_num)
    rw [zpow_zero, mul_one] at e
    push_cast at e
    rwa [e] at h
  have w0 : 0 < 1 / ((n : ℝ) * (n - 1)) := by positivity
  have w1 : 1 / ((n : ℝ) * (n - 1)) ≤ 1 := by rw [div_le_one (by linarith)]; linarith
  have wlow : 1 / 2 ^ 52 ≤ 1 / ((n : ℝ) * (n - 1)) := one_div_le_one_div_of_le (by linarith) nnb
  have id := Flo.div_is flo_lit_one iNN (by linarith) (by rw [abs_of_pos w0]; exact w1.trans (by norm_num))
  have ed := roundBits_rel 53 (by norm_num) (by norm_num) (x := 1 / ((n : ℝ) * (n - 1))) (by
    rw [abs_of_pos w0]; exact le_trans (by norm_num) wlow)
  rw [abs_of_pos w0] at ed
  have bd : |roundBits 53 (1 / ((n : ℝ) * (n - 1)))| ≤ 2 * 1 + 1 := rb (by rw [abs_of_pos w0]; exact w1)
  generalize roundBits 53 (1 / ((n : ℝ) * (n - 1))) = d at *
  have ed' : |d - 1 / ((n : ℝ) * (n - 1))| ≤ 3 / 2 ^ 53 * (1 / (n * (n - 1))) := by
    refine ed.trans ?_
    have : 0 ≤ 1 / ((n : ℝ) * (n - 1)) / 2 ^ 53 := by positivity
    have e : 3 / 2 ^ 53 * (1 / ((n : ℝ) * (n - 1))) = 3 * (1 / ((n : ℝ) * (n - 1)) / 2 ^ 53) := by ring
    linarith
  have iv := Flo.mul_is iD id (by
    rw [abs_mul]
    calc _ ≤ (2 * 2 ^ 162 + 1 : ℝ) * (2 * 1 + 1) := mul_le_mul bD bd (abs_nonneg _) (by positivity)
      _ ≤ 2 ^ 200 := by norm_num)
  refine ⟨_, iv, ?_⟩
  have hT2 : T ^ 2 ≤ n * B := le_trans (by rw [← sq_abs]; exact pow_le_pow_left₀ (abs_nonneg _) hT 2) hA2
  exact variance_err n2 hnR hB0 (by linarith) (by linarith [sq_nonneg T])
    (numer_err n2 hnR hA0 hT hA2 hAb hQ (hS.trans (by linarith [show (1 : ℝ) / 2 ^ 173 ≤ 1 / 2 ^ 170 by norm_num])) eN eP eD)
    ed' (roundBits_err 53 (by norm_num) _)

end Dbl

end BR
