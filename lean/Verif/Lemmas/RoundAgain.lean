import Verif.Lemmas.FloErr

/-! Rounding a second time changes nothing. -/

namespace BR

private theorem exact_of (p : ℕ) (m e : ℤ) (hm : |m| < 2 ^ p) (he : lowest p ≤ e) :
    roundBits p ((m : ℝ) * 2 ^ e) = (m : ℝ) * 2 ^ e := by
  rcases eq_or_ne m 0 with rfl | hm0
  · refine roundBits_of_int p _ 0 (by simp)
  have h2 : (0 : ℝ) < 2 ^ e := by positivity
  set x : ℝ := (m : ℝ) * 2 ^ e with hx
  have habs : |x| = (|m| : ℝ) * 2 ^ e := by rw [hx, abs_mul, abs_of_pos h2]
  have hxpos : 0 < |x| := by
    rw [habs]
    have : (0 : ℝ) < |(m : ℝ)| := abs_pos.2 (by exact_mod_cast hm0)
    positivity
  have hlog : Int.log 2 |x| < e + p := by
    rw [← Int.lt_zpow_iff_log_lt (by norm_num) hxpos, habs]
    have : (|m| : ℝ) < 2 ^ p := by exact_mod_cast hm
    push_cast
    rw [zpow_add₀ (by norm_num), zpow_natCast, mul_comm]
    exact mul_lt_mul_of_pos_left this h2
  have hle : lastPlace p x ≤ e := by
    unfold lastPlace
    exact max_le (by omega) he
  obtain ⟨k, hk⟩ : ∃ k : ℕ, e = lastPlace p x + k := ⟨(e - lastPlace p x).toNat, by omega⟩
  refine roundBits_of_int p x (m * 2 ^ k) ?_
  generalize lastPlace p x = q at *
  rw [hx, hk, zpow_add₀ (by norm_num), zpow_natCast]
  push_cast
  ring

/-- A rounded number is not changed by rounding. -/
theorem roundBits_again (p : ℕ) (hp : 1 ≤ p) (x : ℝ) : roundBits p (roundBits p x) = roundBits p x := by
  obtain ⟨n, hn⟩ : ∃ n, n = roundEven (x / 2 ^ lastPlace p x) := ⟨_, rfl⟩
  have e : roundBits p x = (n : ℝ) * 2 ^ lastPlace p x := by rw [hn]; rfl
  have hq : lowest p ≤ lastPlace p x := le_max_right _ _
  have hu : (0 : ℝ) < 2 ^ lastPlace p x := by positivity
  have hx : |x| ≤ (2 : ℝ) ^ p * 2 ^ lastPlace p x := by
    rcases eq_or_ne x 0 with rfl | hx
    · rw [abs_zero]; positivity
    have h : |x| ≤ (2 : ℝ) ^ (Int.log 2 |x| + 1) := by
      exact_mod_cast (Int.lt_zpow_succ_log_self (b := 2) (by norm_num) |x|).le
    rw [← zpow_natCast, ← zpow_add₀ (by norm_num)]
    refine h.trans (zpow_le_zpow_right₀ (by norm_num) ?_)
    have : Int.log 2 |x| - ((p : ℤ) - 1) ≤ lastPlace p x := le_max_left _ _
    omega
  have hb : |n| ≤ 2 ^ p := by
    rw [abs_le] at hx ⊢
    have h1 : x / 2 ^ lastPlace p x ≤ ((2 ^ p : ℤ) : ℝ) := by
      rw [div_le_iff₀ hu]; push_cast; exact hx.2
    have h2 : ((-2 ^ p : ℤ) : ℝ) ≤ x / 2 ^ lastPlace p x := by
      rw [le_div_iff₀ hu]; push_cast; linarith [hx.1]
    have g1 := roundEven_mono h1
    have g2 := roundEven_mono h2
    rw [roundEven_int, ← hn] at g1 g2
    exact ⟨g2, g1⟩
  rw [e]
  generalize lastPlace p x = q at *
  rcases hb.lt_or_eq with h | h
  · exact exact_of p n q h hq
  · obtain ⟨j, rfl⟩ : ∃ j, p = j + 1 := ⟨p - 1, by omega⟩
    have half : ∃ m : ℤ, |m| < 2 ^ (j + 1) ∧ n = m * 2 := by
      rcases abs_choice n with h' | h'
      · refine ⟨2 ^ j, ?_, ?_⟩
        · rw [abs_of_nonneg (by positivity)]; exact pow_lt_pow_right₀ (by norm_num) (by omega)
        · rw [← h', h, pow_succ]
      · refine ⟨-2 ^ j, ?_, ?_⟩
        · rw [abs_neg, abs_of_nonneg (by positivity)]; exact pow_lt_pow_right₀ (by norm_num) (by omega)
        · rw [pow_succ] at h; omega
    obtain ⟨m, hm, rfl⟩ := half
    have := exact_of (j + 1) m (q + 1) hm (by omega)
    rw [show ((m * 2 : ℤ) : ℝ) * 2 ^ q = (m : ℝ) * 2 ^ (q + 1) by
      rw [zpow_add₀ (by norm_num)]; push_cast; ring]
    exact this

end BR
