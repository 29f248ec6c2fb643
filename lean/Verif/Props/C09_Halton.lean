import Verif.Lemmas.Halton

/-!
# C09 Halton numbers

Exact arithmetic. `halton b i` is the code, `radInv` the specification.
-/

namespace BR

/-- The `i`-th Halton number is the radical inverse of `i + 1`; the loop ends. -/
theorem C09_value {b : Nat} (hb : 2 ≤ b) (i : Nat) : halton b i = .ok (radInv b (i + 1)) := by
  rw [halton, haltonLoop_real hb _ _ _ _ (le_refl _)]
  simp

/-- The number of rounds does not matter once it is large enough: the fuel is not observable. -/
theorem C09_terminates {b : Nat} (hb : 2 ≤ b) (i fuel : Nat) (hf : i + 1 ≤ fuel) :
    haltonLoop b fuel (lit 1 : ℝ) (lit 0) (i + 1) = halton b i := by
  rw [C09_value hb, haltonLoop_real hb _ _ _ _ hf]
  simp

/-- Strictly between 0 and 1. -/
theorem C09_range {b : Nat} (hb : 2 ≤ b) (i : Nat) :
    ∃ x : ℝ, halton b i = .ok x ∧ 0 < x ∧ x < 1 :=
  ⟨_, C09_value hb i, radInv_pos hb _ (by omega), (radInv_bounds hb _).2⟩

/-- Equidistribution: for all `j`, `k`, among the `b^k` indices with `j·b^k ≤ i + 1 < (j+1)·b^k`
exactly one Halton number is in each interval `[c/b^k, (c+1)/b^k)`. -/
theorem C09_equidistributed {b : Nat} (hb : 2 ≤ b) (k j c : Nat) (hc : c < b ^ k) :
    ∃! n, (j * b ^ k ≤ n ∧ n < (j + 1) * b ^ k) ∧
      ((c : ℝ) / b ^ k ≤ radInv b n ∧ radInv b n < (c + 1) / b ^ k) := by
  have hp : (0 : ℝ) < (b : ℝ) ^ k := by positivity
  have key : ∀ n, ((c : ℝ) / b ^ k ≤ radInv b n ∧ radInv b n < (c + 1) / b ^ k)
      ↔ revDigits b k n = c := by
    intro n
    obtain ⟨h1, h2⟩ := revDigits_spec hb k n
    rw [div_le_iff₀ hp, lt_div_iff₀ hp, mul_comm (radInv b n)]
    constructor
    · rintro ⟨h3, h4⟩
      have h5 : (c : ℝ) < revDigits b k n + 1 := by linarith
      have h6 : (revDigits b k n : ℝ) < c + 1 := by linarith
      have h5' : c < revDigits b k n + 1 := by exact_mod_cast h5
      have h6' : revDigits b k n < c + 1 := by exact_mod_cast h6
      omega
    · rintro rfl
      exact ⟨h1, h2⟩
  simp only [key]
  exact revDigits_unique hb k j c hc

/-- Different indices give different numbers. -/
theorem C09_injective {b : Nat} (hb : 2 ≤ b) (i j : Nat) (h : halton (F := ℝ) b i = halton b j) :
    i = j := by
  rw [C09_value hb, C09_value hb, Except.ok.injEq] at h
  have hk : ∀ n, n < b ^ n := fun n => Nat.lt_pow_self (by omega)
  let k := i + j + 1
  have hi : i + 1 < b ^ k := lt_of_lt_of_le (hk (i + 1)) (Nat.pow_le_pow_right (by omega) (by omega))
  have hj : j + 1 < b ^ k := lt_of_lt_of_le (hk (j + 1)) (Nat.pow_le_pow_right (by omega) (by omega))
  have hp : (0 : ℝ) < (b : ℝ) ^ k := by positivity
  obtain ⟨h1, h2⟩ := revDigits_spec hb k (i + 1)
  obtain ⟨h3, h4⟩ := revDigits_spec hb k (j + 1)
  rw [h] at h1 h2
  have e : revDigits b k (i + 1) = revDigits b k (j + 1) := by
    have h5 : (revDigits b k (i + 1) : ℝ) < revDigits b k (j + 1) + 1 := by linarith
    have h6 : (revDigits b k (j + 1) : ℝ) < revDigits b k (i + 1) + 1 := by linarith
    have h5' : revDigits b k (i + 1) < revDigits b k (j + 1) + 1 := by exact_mod_cast h5
    have h6' : revDigits b k (j + 1) < revDigits b k (i + 1) + 1 := by exact_mod_cast h6
    omega
  have hc : revDigits b k (j + 1) < b ^ k := by
    have := (radInv_bounds hb (j + 1)).2
    have h5 : (revDigits b k (j + 1) : ℝ) < (b : ℝ) ^ k := by nlinarith
    exact_mod_cast h5
  obtain ⟨n, _, hu⟩ := revDigits_unique hb k 0 _ hc
  have := hu (i + 1) ⟨by omega, e⟩
  have := hu (j + 1) ⟨by omega, rfl⟩
  omega

/-- Base 1 is outside the documented domain: the loop never ends. -/
theorem C09_base_one (i fuel : Nat) : haltonLoop 1 fuel (lit 1 : ℝ) (lit 0) (i + 1) = .error .diverge := by
  have key : ∀ fuel (f r : ℝ), haltonLoop 1 fuel f r (i + 1) = .error .diverge := by
    intro fuel
    induction fuel with
    | zero => intro f r; simp [haltonLoop]
    | succ fuel ih =>
      intro f r
      rw [haltonLoop, if_pos (by omega), if_neg (by omega)]
      simp only []
      rw [trunc_floor_div, Nat.div_one]
      exact ih _ _
  exact key fuel _ _

/-- Non-vacuity: the start of the base-2 sequence: 1/2, 1/4, 3/4. -/
example : halton 2 0 = .ok (1/2 : ℝ) ∧ halton 2 1 = .ok (1/4 : ℝ) ∧ halton 2 2 = .ok (3/4 : ℝ) := by
  refine ⟨?_, ?_, ?_⟩ <;> rw [C09_value (by norm_num)] <;>
    simp [radInv, Nat.ofDigits] <;> norm_num

end BR
