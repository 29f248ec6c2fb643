import Verif.Spec.Halton
import Verif.Model.Sequence
import Verif.Num.Real
import Mathlib.Data.Nat.Digits.Lemmas
import Mathlib.Algebra.Order.Floor.Ring
import Mathlib.Algebra.Order.Floor.Semifield
import Mathlib.Tactic.Linarith
import Mathlib.Tactic.FieldSimp

namespace BR

theorem radInv_zero (b : Nat) : radInv b 0 = 0 := by simp [radInv, Nat.ofDigits]

theorem radInv_rec {b : Nat} (hb : 2 ≤ b) (n : Nat) :
    radInv b n = (((n % b : Nat) : ℝ) + radInv b (n / b)) / b := by
  rcases Nat.eq_zero_or_pos n with rfl | hn
  · simp [radInv, Nat.ofDigits]
  · have e : Nat.ofDigits ((b : ℝ)⁻¹) (n % b :: Nat.digits b (n / b))
        = ((n % b : Nat) : ℝ) + (b : ℝ)⁻¹ * Nat.ofDigits ((b : ℝ)⁻¹) (Nat.digits b (n / b)) := rfl
    conv_lhs => rw [radInv, Nat.digits_def' (by omega) hn, e]
    rw [radInv]
    congr 2
    field_simp

theorem radInv_bounds {b : Nat} (hb : 2 ≤ b) (n : Nat) : 0 ≤ radInv b n ∧ radInv b n < 1 := by
  induction n using Nat.strong_induction_on with
  | _ n ih =>
    rcases Nat.eq_zero_or_pos n with rfl | hn
    · rw [radInv_zero]; norm_num
    · have h1 := ih (n / b) (Nat.div_lt_self hn (by omega))
      have h2 : ((n % b : Nat) : ℝ) + 1 ≤ b := by exact_mod_cast Nat.mod_lt n (by omega)
      have hb' : (0 : ℝ) < b := by positivity
      rw [radInv_rec hb]
      constructor
      · have := h1.1; positivity
      · rw [div_lt_one hb']; linarith

theorem radInv_pos {b : Nat} (hb : 2 ≤ b) (n : Nat) (hn : 0 < n) : 0 < radInv b n := by
  induction n using Nat.strong_induction_on with
  | _ n ih =>
    have hb' : (0 : ℝ) < b := by positivity
    rw [radInv_rec hb]
    refine div_pos ?_ hb'
    rcases Nat.eq_zero_or_pos (n / b) with h0 | h0
    · have : n % b = n := by
        rw [Nat.mod_eq_of_lt]; exact (Nat.div_eq_zero_iff_lt (by omega)).1 h0
      rw [h0, radInv_zero, this]
      have : (0 : ℝ) < n := by exact_mod_cast hn
      linarith
    · have := ih (n / b) (Nat.div_lt_self hn (by omega)) h0
      have h2 : (0 : ℝ) ≤ ((n % b : Nat) : ℝ) := Nat.cast_nonneg _
      linarith

/-- The number with the `k` low digits of `n` in reverse order. -/
def revDigits (b : Nat) : Nat → Nat → Nat
  | 0, _ => 0
  | k + 1, n => (n % b) * b ^ k + revDigits b k (n / b)

theorem revDigits_spec {b : Nat} (hb : 2 ≤ b) (k n : Nat) :
    (revDigits b k n : ℝ) ≤ b ^ k * radInv b n ∧ b ^ k * radInv b n < revDigits b k n + 1 := by
  induction k generalizing n with
  | zero => have := radInv_bounds hb n; simp [revDigits, this]
  | succ k ih =>
    have hb' : (b : ℝ) ≠ 0 := by positivity
    obtain ⟨h1, h2⟩ := ih (n / b)
    have e : (b : ℝ) ^ (k + 1) * radInv b n
        = ((n % b : Nat) : ℝ) * b ^ k + b ^ k * radInv b (n / b) := by
      rw [radInv_rec hb n, pow_succ]; field_simp
    rw [e, revDigits]
    push_cast at *
    constructor <;> linarith

theorem revDigits_unique {b : Nat} (hb : 2 ≤ b) (k j c : Nat) (hc : c < b ^ k) :
    ∃! n, (j * b ^ k ≤ n ∧ n < (j + 1) * b ^ k) ∧ revDigits b k n = c := by
  induction k generalizing c with
  | zero =>
    refine ⟨j, ⟨by simp, ?_⟩, ?_⟩
    · simp at hc; simp [revDigits, hc]
    · rintro n ⟨hn, _⟩; simp at hn; omega
  | succ k ih =>
    have hpk : 0 < b ^ k := by positivity
    have hd : c / b ^ k < b := by
      rw [Nat.div_lt_iff_lt_mul hpk]; rw [pow_succ] at hc; linarith [Nat.mul_comm b (b ^ k)]
    have hlt : ∀ k n, revDigits b k n < b ^ k := by
      intro k
      induction k with
      | zero => simp [revDigits]
      | succ k ih =>
        intro n
        have h1 : n % b + 1 ≤ b := Nat.mod_lt n (by omega)
        have h2 := ih (n / b)
        rw [revDigits, pow_succ]
        nlinarith [Nat.mul_le_mul_right (b ^ k) h1]
    obtain ⟨m, ⟨hm, hmr⟩, hu⟩ := ih (c % b ^ k) (Nat.mod_lt c hpk)
    have hdm : (b * m + c / b ^ k) / b = m := by
      rw [Nat.mul_add_div (by omega), Nat.div_eq_of_lt hd, Nat.add_zero]
    have hmm : (b * m + c / b ^ k) % b = c / b ^ k := by
      rw [Nat.mul_add_mod, Nat.mod_eq_of_lt hd]
    refine ⟨b * m + c / b ^ k, ⟨?_, ?_⟩, ?_⟩
    · constructor
      · calc j * b ^ (k + 1) = b * (j * b ^ k) := by ring
          _ ≤ b * m := Nat.mul_le_mul_left b hm.1
          _ ≤ _ := Nat.le_add_right _ _
      · have : m + 1 ≤ (j + 1) * b ^ k := hm.2
        have h3 := Nat.mul_le_mul_left b this
        rw [pow_succ]; nlinarith
    · rw [revDigits, hdm, hmm, hmr, Nat.mul_comm]
      exact Nat.div_add_mod c (b ^ k)
    · rintro n ⟨⟨hn1, hn2⟩, hr⟩
      rw [revDigits] at hr
      have hq := hlt k (n / b)
      have e1 : n % b = c / b ^ k := by
        rw [← hr, Nat.add_div_of_dvd_right (Dvd.intro_left _ rfl), Nat.mul_div_cancel _ hpk,
          Nat.div_eq_of_lt hq, Nat.add_zero]
      have e2 : revDigits b k (n / b) = c % b ^ k := by
        rw [← hr, Nat.add_mod, Nat.mul_mod_left, Nat.zero_add, Nat.mod_mod, Nat.mod_eq_of_lt hq]
      have := hu (n / b) ⟨⟨?_, ?_⟩, e2⟩
      · rw [← this, ← e1]; exact (Nat.div_add_mod n b).symm
      · rw [Nat.le_div_iff_mul_le (by omega)]; rw [pow_succ] at hn1; linarith [Nat.mul_assoc j (b ^ k) b]
      · rw [Nat.div_lt_iff_lt_mul (by omega)]; rw [pow_succ] at hn2
        linarith [Nat.mul_assoc (j+1) (b ^ k) b]

theorem trunc_floor_div (i b : Nat) :
    (GoFloat.trunc (GoFloat.floor ((ofInt (i : Int) : ℝ) / ofInt (b : Int)))).toNat = i / b := by
  simp only [ofInt_real, floor_real, trunc_real, Int.cast_natCast]
  have h1 : (0 : ℝ) ≤ (⌊(i : ℝ) / b⌋ : ℝ) := by
    have : (0 : ℝ) ≤ (i : ℝ) / b := by positivity
    exact_mod_cast Int.floor_nonneg.2 this
  unfold realTrunc
  rw [if_pos h1, Int.floor_intCast, Int.floor_toNat, Nat.floor_div_eq_div]

theorem haltonLoop_real {b : Nat} (hb : 2 ≤ b) (fuel : Nat) (f r : ℝ) (i : Nat) (hi : i ≤ fuel) :
    haltonLoop b fuel f r i = .ok (r + f * radInv b i) := by
  induction fuel generalizing f r i with
  | zero =>
    have : i = 0 := by omega
    subst this
    simp [haltonLoop, radInv_zero]
  | succ fuel ih =>
    rw [haltonLoop]
    rcases Nat.eq_zero_or_pos i with rfl | hi0
    · simp [radInv_zero]
    · have hdiv : i / b < i := Nat.div_lt_self hi0 (by omega)
      rw [if_pos hi0, if_neg (by omega)]
      simp only []
      rw [trunc_floor_div, ih _ _ _ (by omega)]
      congr 1
      have hb' : (b : ℝ) ≠ 0 := by positivity
      rw [radInv_rec hb i]
      simp only [ofInt_real, Int.cast_natCast]
      field_simp; ring

end BR
