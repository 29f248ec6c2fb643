import Verif.Lemmas.ScreenErr
import Verif.Lemmas.Halton
import Mathlib.Algebra.Order.BigOperators.Group.Finset

/-! Rounding errors of the Halton numbers in double precision. -/

namespace BR
set_option linter.unusedSectionVars false

namespace Dbl

/-- `y` is the non-negative number `x` after at most `k` roundings. -/
def Rounded (k : ℕ) (x y : ℝ) : Prop := x * (1 - 1 / 2 ^ 53) ^ k ≤ y ∧ y ≤ x * (1 + 1 / 2 ^ 53) ^ k

theorem lo_pos : (0 : ℝ) < 1 - 1 / 2 ^ 53 := by norm_num
theorem lo_le : (1 : ℝ) - 1 / 2 ^ 53 ≤ 1 := by norm_num
theorem hi_ge : (1 : ℝ) ≤ 1 + 1 / 2 ^ 53 := by norm_num

theorem Rounded.refl (x : ℝ) : Rounded 0 x x := by constructor <;> simp

theorem Rounded.weaken {k l : ℕ} {x y : ℝ} (h : Rounded k x y) (hx : 0 ≤ x) (hkl : k ≤ l) : Rounded l x y :=
  ⟨(mul_le_mul_of_nonneg_left (pow_le_pow_of_le_one lo_pos.le lo_le hkl) hx).trans h.1,
   h.2.trans (mul_le_mul_of_nonneg_left (pow_le_pow_right₀ hi_ge hkl) hx)⟩

theorem Rounded.nonneg {k : ℕ} {x y : ℝ} (h : Rounded k x y) (hx : 0 ≤ x) : 0 ≤ y :=
  (mul_nonneg hx (pow_nonneg lo_pos.le _)).trans h.1

theorem Rounded.scale {k : ℕ} {x y c : ℝ} (h : Rounded k x y) (hc : 0 ≤ c) : Rounded k (x * c) (y * c) := by
  constructor
  · have := mul_le_mul_of_nonneg_right h.1 hc
    linarith [this, mul_right_comm x ((1 - 1 / 2 ^ 53 : ℝ) ^ k) c]
  · have := mul_le_mul_of_nonneg_right h.2 hc
    linarith [this, mul_right_comm x ((1 + 1 / 2 ^ 53 : ℝ) ^ k) c]

theorem Rounded.add {k : ℕ} {x y x' y' : ℝ} (h : Rounded k x y) (h' : Rounded k x' y') : Rounded k (x + x') (y + y') :=
  ⟨by rw [add_mul]; exact add_le_add h.1 h'.1, by rw [add_mul]; exact add_le_add h.2 h'.2⟩

theorem Rounded.mul {k l : ℕ} {x y x' y' : ℝ} (h : Rounded k x y) (h' : Rounded l x' y') (hx : 0 ≤ x) (hx' : 0 ≤ x') :
    Rounded (k + l) (x * x') (y * y') := by
  constructor
  · rw [pow_add, mul_mul_mul_comm]
    exact mul_le_mul h.1 h'.1 (mul_nonneg hx' (pow_nonneg lo_pos.le _)) (h.nonneg hx)
  · rw [pow_add, mul_mul_mul_comm]
    exact mul_le_mul h.2 h'.2 (h'.nonneg hx') (mul_nonneg hx (pow_nonneg (by positivity) _))

/-- One more rounding. -/
theorem Rounded.round {k : ℕ} {x y : ℝ} (h : Rounded k x y) (hx : 0 ≤ x) (hy : y = 0 ∨ 1 / 2 ^ 200 ≤ y) :
    Rounded (k + 1) x (roundBits 53 y) := by
  have hy0 := h.nonneg hx
  have e : |roundBits 53 y - y| ≤ y / 2 ^ 53 := by
    rcases hy with rfl | hy
    · rw [roundBits_zero]; simp
    · have := roundBits_rel 53 (by norm_num) (by norm_num) (x := y) (by rwa [abs_of_nonneg hy0])
      rwa [abs_of_nonneg hy0] at this
  rw [abs_le] at e
  constructor
  · rw [pow_succ, ← mul_assoc]
    have := mul_le_mul_of_nonneg_right h.1 lo_pos.le
    refine this.trans ?_
    have : y * (1 - 1 / 2 ^ 53) = y - y / 2 ^ 53 := by ring
    linarith
  · rw [pow_succ, ← mul_assoc]
    have := mul_le_mul_of_nonneg_right h.2 (show (0 : ℝ) ≤ 1 + 1 / 2 ^ 53 by positivity)
    refine le_trans ?_ this
    have : y * (1 + 1 / 2 ^ 53) = y + y / 2 ^ 53 := by ring
    linarith

theorem hi_pow (k : ℕ) (hk : k ≤ 2 ^ 50) : (1 + 1 / 2 ^ 53 : ℝ) ^ k ≤ 1 + 2 * k / 2 ^ 53 := by
  induction k with
  | zero => simp
  | succ k ih =>
    have := ih (by omega)
    rw [pow_succ]
    refine (mul_le_mul_of_nonneg_right this (by positivity)).trans ?_
    have hk' : (k : ℝ) ≤ 2 ^ 50 := by exact_mod_cast (by omega : k ≤ 2 ^ 50)
    push_cast
    nlinarith

theorem lo_pow (k : ℕ) : 1 - k / 2 ^ 53 ≤ (1 - 1 / 2 ^ 53 : ℝ) ^ k := by
  have := one_add_mul_le_pow (a := (-(1 / 2 ^ 53) : ℝ)) (by norm_num) k
  calc (1 - k / 2 ^ 53 : ℝ) = 1 + k * (-(1 / 2 ^ 53)) := by ring
    _ ≤ _ := this
    _ = _ := by ring

/-- What `k` roundings amount to. -/
theorem Rounded.err {k : ℕ} {x y : ℝ} (h : Rounded k x y) (hx : 0 ≤ x) (hk : k ≤ 2 ^ 50) : |y - x| ≤ x * (2 * k / 2 ^ 53) := by
  have h1 := mul_le_mul_of_nonneg_left (hi_pow k hk) hx
  have h2 := mul_le_mul_of_nonneg_left (lo_pow k) hx
  have h3 : 0 ≤ x * (k / 2 ^ 53) := by positivity
  rw [abs_le]
  constructor
  · have := h.1
    have e : x * (1 - k / 2 ^ 53) = x - x * (k / 2 ^ 53) := by ring
    have e2 : x * (2 * k / 2 ^ 53) = 2 * (x * (k / 2 ^ 53)) := by ring
    linarith
  · have := h.2
    have e : x * (1 + 2 * k / 2 ^ 53) = x + x * (2 * k / 2 ^ 53) := by ring
    linarith

/-- For indices below 2^53 the quotient computed in floating point is the integer quotient. -/
theorem haltonStep_eq (b i : Nat) (hb : 2 ≤ b) (hb' : b < 2 ^ 53) (hi : i < 2 ^ 53) :
    (GoFloat.trunc (GoFloat.floor ((ofInt (i : Int) : Flo) / (ofInt (b : Int) : Flo)))).toNat = i / b := by
  have hbR : (2 : ℝ) ≤ b := by exact_mod_cast hb
  have hiR : (i : ℝ) < 2 ^ 53 := by exact_mod_cast hi
  have i0 : (0 : ℝ) ≤ i := by positivity
  have hq0 : (0 : ℝ) ≤ (i : ℝ) / b := by positivity
  have hqi : (i : ℝ) / b ≤ i := div_le_self i0 (by linarith)
  have ib := Flo.ofInt_is b (by rw [abs_of_nonneg (by positivity)]; exact_mod_cast hb')
  have ii := Flo.ofInt_is i (by rw [abs_of_nonneg (by positivity)]; exact_mod_cast hi)
  rw [Int.cast_natCast] at ib ii
  have hd := Flo.div_is ii ib (by linarith) (by rw [abs_of_nonneg hq0]; exact (hqi.trans hiR.le).trans (by norm_num))
  obtain ⟨s, hs⟩ := hd
  change (GoFloat.trunc (GoFloat.floor ((ofInt (i : Int) : Flo) / (ofInt (b : Int) : Flo)).e)).toNat = i / b
  rw [hs]
  have hz0 := roundBits_nonneg 53 (by norm_num) hq0
  have hfl : ⌊roundBits 53 ((i : ℝ) / b)⌋ = ((i / b : Nat) : ℤ) := by
    rw [Int.floor_eq_iff]
    have hdm := Nat.div_add_mod i b
    have hlt := Nat.mod_lt i (show 0 < b by omega)
    generalize i / b = q at *
    generalize i % b = r at *
    have hdmR : (b : ℝ) * q + r = i := by exact_mod_cast hdm
    have hrR : (r : ℝ) + 1 ≤ b := by exact_mod_cast hlt
    have r0 : (0 : ℝ) ≤ r := by positivity
    have hbq : (b : ℝ) ≠ 0 := by linarith
    have eq1 : (i : ℝ) / b = q + r / b := by rw [← hdmR]; field_simp
    constructor
    · have hmono := roundBits_mono 53 (by norm_num) (x := (q : ℝ)) (y := (i : ℝ) / b) (by
        rw [eq1]; have : (0 : ℝ) ≤ r / b := by positivity
        linarith)
      have hq : roundBits 53 (q : ℝ) = q := by
        have := roundBits_exact 53 (q : ℤ) 0 (by
          rw [abs_of_nonneg (by positivity)]
          have : q ≤ i := by nlinarith
          exact_mod_cast lt_of_le_of_lt this hi) (by norm_num)
        simpa using this
      rw [hq] at hmono
      push_cast
      exact hmono
    · rcases Nat.eq_zero_or_pos i with hi0 | hi0
      · subst hi0
        have : q = 0 := by
          rcases Nat.eq_zero_or_pos q with h | h
          · exact h
          · exfalso; nlinarith
        rw [Nat.cast_zero, zero_div, roundBits_zero, this]; norm_num
      · have hi1 : (1 : ℝ) ≤ i := by exact_mod_cast hi0
        have hbb : (b : ℝ) < 2 ^ 53 := by exact_mod_cast hb'
        have hq1 : 1 / 2 ^ 53 ≤ (i : ℝ) / b := by
          rw [div_le_div_iff₀ (by norm_num) (by linarith)]
          nlinarith
        have he := roundBits_rel 53 (by norm_num) (by norm_num) (x := (i : ℝ) / b) (by
          rw [abs_of_nonneg hq0]
          exact le_trans (by norm_num) hq1)
        rw [abs_of_nonneg hq0, abs_le] at he
        have h1 : (i : ℝ) / b / 2 ^ 53 < 1 / b := by
          rw [div_div, div_lt_div_iff₀ (by positivity) (by linarith)]
          nlinarith
        have h2 : (r : ℝ) / b + 1 / b ≤ 1 := by
          rw [← add_div, div_le_one (by linarith)]; exact hrR
        push_cast
        linarith
  change (realTrunc (⌊roundBits 53 ((i : ℝ) / b)⌋ : ℝ)).toNat = i / b
  rw [hfl, realTrunc, if_pos (by positivity), Int.floor_intCast]
  rfl

/-- The loop that computes a Halton number, in double precision. -/
theorem haltonLoop_rounded (b : Nat) (hb : 2 ≤ b) (hb' : b < 2 ^ 53) (fuel n k i : Nat) (f r : Flo) (x y φ ρ : ℝ)
    (hf : i ≤ fuel) (hn : i < 2 ^ n) (hkn : k + n ≤ 53) (hx : f.Is x) (hxφ : Rounded k φ x) (hy : r.Is y)
    (hyρ : Rounded (2 * k + 1) ρ y) (hφ : 1 / 2 ^ 106 * (b * i) ≤ φ) (hφ0 : 0 ≤ φ) (hρ : ρ = 0 ∨ 1 / 2 ^ 106 ≤ ρ) (h1 : ρ + φ ≤ 1) :
    ∃ (a : Flo) (X : ℝ), haltonLoop b fuel f r i = .ok a ∧ a.Is X ∧ Rounded 107 (ρ + φ * radInv b i) X := by
  have hbR : (2 : ℝ) ≤ b := by exact_mod_cast hb
  have hρ0 : 0 ≤ ρ := by rcases hρ with h | h; exacts [h.ge, le_trans (by positivity) h]
  induction fuel generalizing n k i f r x y φ ρ with
  | zero =>
    have : i = 0 := by omega
    subst this
    refine ⟨r, y, by simp [haltonLoop], hy, ?_⟩
    rw [radInv_zero, mul_zero, add_zero]
    exact hyρ.weaken hρ0 (by omega)
  | succ fuel ih =>
    rw [haltonLoop]
    rcases Nat.eq_zero_or_pos i with rfl | hi0
    · refine ⟨r, y, by simp, hy, ?_⟩
      rw [radInv_zero, mul_zero, add_zero]
      exact hyρ.weaken hρ0 (by omega)
    · rw [if_pos hi0, if_neg (by omega)]
      dsimp only
      have hi53 : i < 2 ^ 53 := lt_of_lt_of_le hn (Nat.pow_le_pow_right (by norm_num) (by omega))
      rw [haltonStep_eq b i hb hb' hi53]
      have hn0 : n ≠ 0 := by rintro rfl; simp at hn; omega
      obtain ⟨n, rfl⟩ : ∃ m, n = m + 1 := ⟨n - 1, by omega⟩
      have hi1 : (1 : ℝ) ≤ i := by exact_mod_cast hi0
      have b0 : (0 : ℝ) < b := by linarith
      -- the weight of the digit
      have hφ' : 1 / 2 ^ 106 * (i : ℝ) ≤ φ / b := by
        rw [le_div_iff₀ b0]
        calc _ = 1 / 2 ^ 106 * ((b : ℝ) * i) := by ring
          _ ≤ φ := hφ
      have hφ1 : 1 / 2 ^ 106 ≤ φ / b := le_trans (by
        have : (0 : ℝ) < 1 / 2 ^ 106 := by positivity
        nlinarith) hφ'
      have hφ1' : φ / b ≤ 1 := by rw [div_le_one b0]; linarith
      have small : ∀ {k : ℕ}, k ≤ 200 → ((1 - 1 / 2 ^ 53 : ℝ)) ^ k ≥ 1 / 2 ∧ ((1 + 1 / 2 ^ 53 : ℝ)) ^ k ≤ 2 := by
        intro k hk
        have hkR : (k : ℝ) ≤ 200 := by exact_mod_cast hk
        constructor
        · refine le_trans ?_ (lo_pow k)
          have : (k : ℝ) / 2 ^ 53 ≤ 200 / 2 ^ 53 := by gcongr
          norm_num at this ⊢
          linarith
        · refine (hi_pow k (by omega)).trans ?_
          have : 2 * (k : ℝ) / 2 ^ 53 ≤ 2 * 200 / 2 ^ 53 := by gcongr
          norm_num at this ⊢
          linarith
      have ib := Flo.ofInt_is b (by rw [abs_of_nonneg (by positivity)]; exact_mod_cast hb')
      rw [Int.cast_natCast] at ib
      have hxb : Rounded k (φ / b) (x / b) := by
        have := hxφ.scale (c := (b : ℝ)⁻¹) (by positivity)
        simpa only [div_eq_mul_inv] using this
      have xb0 := hxb.nonneg (by positivity)
      have xlow : 1 / 2 ^ 107 ≤ x / b := by
        refine le_trans ?_ hxb.1
        have := (small (k := k) (by omega)).1
        calc (1 : ℝ) / 2 ^ 107 = 1 / 2 ^ 106 * (1 / 2) := by norm_num
          _ ≤ _ := mul_le_mul hφ1 this (by norm_num) (by positivity)
      have xhigh : x / b ≤ 2 := by
        refine hxb.2.trans ?_
        have := (small (k := k) (by omega)).2
        calc _ ≤ (1 : ℝ) * 2 := mul_le_mul hφ1' this (by positivity) (by norm_num)
          _ = 2 := by norm_num
      have hf' := Flo.div_is hx ib (by linarith) (by rw [abs_of_nonneg xb0]; exact xhigh.trans (by norm_num))
      have hfr := hxb.round (by positivity) (.inr (le_trans (by norm_num) xlow))
      -- the digit
      have hdlt := Nat.mod_lt i (show 0 < b by omega)
      have idg := Flo.ofInt_is ((i % b : Nat) : ℤ) (by rw [abs_of_nonneg (by positivity)]; exact_mod_cast hdlt.trans hb')
      rw [Int.cast_natCast] at idg
      have hrec := radInv_rec hb i
      have hdm : (i : ℝ) = b * (i / b : Nat) + (i % b : Nat) := by exact_mod_cast (Nat.div_add_mod i b).symm
      have hdR : ((i % b : Nat) : ℝ) + 1 ≤ b := by exact_mod_cast hdlt
      have hdcase : ((i % b : Nat) : ℝ) = 0 ∨ (1 : ℝ) ≤ (i % b : Nat) := by
        rcases Nat.eq_zero_or_pos (i % b) with h | h
        · left; rw [h]; norm_num
        · right; exact_mod_cast h
      have hq53 : i / b < 2 ^ n := by
        have : i / b ≤ i / 2 := Nat.div_le_div_left hb (by norm_num)
        have : i / 2 < 2 ^ n := by rw [Nat.div_lt_iff_lt_mul (by norm_num)]; rw [pow_succ] at hn; exact hn
        omega
      have hqlt : i / b < i := Nat.div_lt_self hi0 (by omega)
      generalize hD : ((i % b : Nat) : ℝ) = d at *
      generalize roundBits 53 (x / b) = f' at *
      have d0 : 0 ≤ d := by rcases hdcase with h | h <;> linarith
      have ht := hfr.scale (c := d) d0
      have tcase : f' * d = 0 ∨ 1 / 2 ^ 108 ≤ f' * d := by
        rcases hdcase with h | h
        · left; rw [h, mul_zero]
        · right
          have : 1 / 2 ^ 108 ≤ f' := by
            refine le_trans ?_ hfr.1
            have := (small (k := k + 1) (by omega)).1
            calc (1 : ℝ) / 2 ^ 108 ≤ 1 / 2 ^ 106 * (1 / 2) := by norm_num
              _ ≤ _ := mul_le_mul hφ1 this (by norm_num) (by positivity)
          calc (1 : ℝ) / 2 ^ 108 = 1 / 2 ^ 108 * 1 := by ring
            _ ≤ f' * d := mul_le_mul this h (by norm_num) (le_trans (by positivity) this)
      have hwd : φ / b * d ≤ 1 := by
        have : φ / b * d ≤ φ / b * b := mul_le_mul_of_nonneg_left (by linarith) (by positivity)
        rw [div_mul_cancel₀ _ (by linarith)] at this
        linarith
      have hwd0 : 0 ≤ φ / b * d := by positivity
      have tb : f' * d ≤ 2 := by
        refine ht.2.trans ?_
        calc _ ≤ (1 : ℝ) * 2 := mul_le_mul hwd (small (by omega)).2 (by positivity) (by norm_num)
          _ = 2 := by norm_num
      have t0 := ht.nonneg hwd0
      have hmul := Flo.mul_is hf' idg (by rw [abs_of_nonneg t0]; exact tb.trans (by norm_num))
      have htr := ht.round hwd0 (tcase.imp_right (le_trans (by norm_num)))
      generalize roundBits 53 (f' * d) = t' at *
      have hsum : Rounded (2 * k + 2) (ρ + φ / b * d) (y + t') :=
        (hyρ.weaken hρ0 (by omega)).add (htr.weaken hwd0 (by omega))
      have hρ' : ρ + φ / b * d = 0 ∨ 1 / 2 ^ 106 ≤ ρ + φ / b * d := by
        rcases hρ with h | h
        · rcases hdcase with h' | h'
          · left; rw [h, h', mul_zero, add_zero]
          · right
            have : φ / b * 1 ≤ φ / b * d := mul_le_mul_of_nonneg_left h' (by positivity)
            rw [h]; linarith
        · right; linarith
      have hsb : ρ + φ / b * d ≤ 1 := by
        have : φ / b * d ≤ φ := by
          have : φ / b * d ≤ φ / b * b := mul_le_mul_of_nonneg_left (by linarith) (by positivity)
          rwa [div_mul_cancel₀ _ (by linarith)] at this
        linarith
      have hs0 : 0 ≤ ρ + φ / b * d := by linarith
      have sb : y + t' ≤ 2 := by
        refine hsum.2.trans ?_
        calc _ ≤ (1 : ℝ) * 2 := mul_le_mul hsb (small (by omega)).2 (by positivity) (by norm_num)
          _ = 2 := by norm_num
      have s0 := hsum.nonneg hs0
      have scase : y + t' = 0 ∨ 1 / 2 ^ 200 ≤ y + t' := by
        rcases hρ' with h | h
        · left
          have h1 := hsum.2
          rw [h, zero_mul] at h1
          linarith
        · right
          refine le_trans ?_ hsum.1
          have := (small (k := 2 * k + 2) (by omega)).1
          calc (1 : ℝ) / 2 ^ 200 ≤ 1 / 2 ^ 106 * (1 / 2) := by norm_num
            _ ≤ _ := mul_le_mul h this (by norm_num) hs0
      have hadd := Flo.add_is hy hmul (by rw [abs_of_nonneg s0]; exact sb.trans (by norm_num))
      have hsr := hsum.round hs0 scase
      obtain ⟨a, X, e, ha, hX⟩ := ih n (k + 1) (i / b) _ _ _ _ (φ / b) (ρ + φ / b * d) (by omega) hq53 (by omega)
        hf' hfr hadd (by rw [show 2 * (k + 1) + 1 = 2 * k + 2 + 1 by ring]; exact hsr)
        (by
          refine le_trans ?_ hφ'
          have : (b : ℝ) * (i / b : Nat) ≤ i := by rw [hdm]; linarith
          exact mul_le_mul_of_nonneg_left this (by positivity))
        (by positivity) hρ' (by
          have : φ / b * d + φ / b ≤ φ / b * b := by
            rw [← mul_add_one]; exact mul_le_mul_of_nonneg_left hdR (by positivity)
          rw [div_mul_cancel₀ _ (by linarith)] at this
          linarith) hs0
      refine ⟨a, X, e, ha, ?_⟩
      have : ρ + φ * radInv b i = ρ + φ / b * d + φ / b * radInv b (i / b) := by
        rw [hrec]; field_simp; ring
      rw [this]
      exact hX

/-- The Halton numbers in double precision. -/
theorem halton_rounded (b i : Nat) (hb : 2 ≤ b) (hb' : b < 2 ^ 53) (hi : i + 1 < 2 ^ 53) :
    ∃ (a : Flo) (X : ℝ), halton b i = .ok a ∧ a.Is X ∧ Rounded 107 (radInv b (i + 1)) X := by
  obtain ⟨a, X, e, ha, hX⟩ := haltonLoop_rounded b hb hb' (i + 1) 53 0 (i + 1) (lit 1) (lit 0) 1 0 1 0 le_rfl hi (by norm_num)
    flo_lit_one (.refl 1) Ball.flo_zero ((Rounded.refl 0).weaken le_rfl (by norm_num))
    (by
      have h1 : (b : ℝ) ≤ 2 ^ 53 := by exact_mod_cast hb'.le
      have h2 : ((i + 1 : Nat) : ℝ) ≤ 2 ^ 53 := by exact_mod_cast hi.le
      have : (b : ℝ) * ((i + 1 : Nat) : ℝ) ≤ 2 ^ 53 * 2 ^ 53 := mul_le_mul h1 h2 (by positivity) (by positivity)
      calc _ ≤ (1 : ℝ) / 2 ^ 106 * (2 ^ 53 * 2 ^ 53) := mul_le_mul_of_nonneg_left this (by positivity)
        _ = 1 := by norm_num) (by norm_num) (.inl rfl) (by norm_num)
  refine ⟨a, X, e, ha, ?_⟩
  rw [zero_add, one_mul] at hX
  exact hX

theorem roundBits_mult {p : ℕ} {z : ℝ} {m g : ℤ} (h : z = m * 2 ^ g) (hg : lastPlace p z ≤ g) : roundBits p z = z := by
  obtain ⟨k, hk⟩ : ∃ k : ℕ, g = lastPlace p z + k := ⟨(g - lastPlace p z).toNat, by omega⟩
  refine roundBits_of_int p z (m * 2 ^ k) ?_
  conv_lhs => rw [h, hk, zpow_add₀ (by norm_num), zpow_natCast]
  push_cast
  ring

/-- The fraction of a double is computed without error. -/
theorem frac_exact {a : Flo} {x y : ℝ} (ha : a.Is x) (hxy : x = roundBits 53 y) (h0 : 0 ≤ x) :
    (frac a).Is (Int.fract x) := by
  have hf1 := Int.fract_lt_one x
  have hf0 := Int.fract_nonneg x
  have key : roundBits 53 (Int.fract x) = Int.fract x := by
    set g := lastPlace 53 y with hg
    have hgl : lowest 53 ≤ g := le_max_right _ _
    have hx : x = roundEven (y / 2 ^ g) * 2 ^ g := by rw [hxy]; rfl
    have hgp : (0 : ℝ) < 2 ^ g := by positivity
    have hk0 : 0 ≤ roundEven (y / 2 ^ g) := by
      by_contra hneg
      have : (roundEven (y / 2 ^ g) : ℝ) < 0 := by exact_mod_cast not_le.1 hneg
      nlinarith
    have hkb : roundEven (y / 2 ^ g) ≤ 2 ^ 53 := by
      have hy : y < 2 ^ 53 * 2 ^ g := by
        rcases le_or_gt y 0 with h | h
        · exact lt_of_le_of_lt h (by positivity)
        · have h1 := Int.lt_zpow_succ_log_self (b := 2) (by norm_num) y
          have h2 : Int.log 2 |y| - 52 ≤ g := le_trans (by norm_num) (le_max_left (Int.log 2 |y| - ((53 : ℕ) - 1 : ℤ)) _)
          rw [abs_of_pos h] at h2
          calc y < 2 ^ (Int.log 2 y + 1) := by exact_mod_cast h1
            _ ≤ 2 ^ (53 + g) := zpow_le_zpow_right₀ (by norm_num) (by omega)
            _ = 2 ^ 53 * 2 ^ g := by rw [zpow_add₀ (by norm_num)]; norm_num
      have h1 : y / 2 ^ g ≤ ((2 ^ 53 : ℤ) : ℝ) := by
        rw [div_le_iff₀ hgp, show ((2 ^ 53 : ℤ) : ℝ) = 2 ^ 53 by norm_num]; exact hy.le
      have := roundEven_mono h1
      rwa [roundEven_int] at this
    generalize roundEven (y / 2 ^ g) = k at *
    rcases lt_or_ge g 0 with hneg | hpos
    · -- the last place is a fraction of one
      obtain ⟨n, hn⟩ : ∃ n : ℕ, g = -(n : ℤ) := ⟨g.natAbs, by omega⟩
      have hfr : Int.fract x = (k % 2 ^ n : ℤ) * 2 ^ g := by
        have e : x = (k / 2 ^ n : ℤ) + (k % 2 ^ n : ℤ) * 2 ^ g := by
          have hdm : (k : ℝ) = 2 ^ n * (k / 2 ^ n : ℤ) + (k % 2 ^ n : ℤ) := by exact_mod_cast (Int.mul_ediv_add_emod k (2 ^ n)).symm
          rw [hx, hn, zpow_neg, zpow_natCast]
          generalize (k / 2 ^ n : ℤ) = q at *
          generalize (k % 2 ^ n : ℤ) = r at *
          rw [hdm]
          field_simp
        have m0 : 0 ≤ k % 2 ^ n := Int.emod_nonneg _ (by positivity)
        have m1 : k % 2 ^ n < 2 ^ n := Int.emod_lt_of_pos _ (by positivity)
        rw [e, Int.fract_intCast_add, Int.fract_eq_self]
        constructor
        · have : (0 : ℝ) ≤ (k % 2 ^ n : ℤ) := by exact_mod_cast m0
          positivity
        · have : ((k % 2 ^ n : ℤ) : ℝ) < 2 ^ n := by exact_mod_cast m1
          rw [hn, zpow_neg, zpow_natCast, ← div_eq_mul_inv, div_lt_one (by positivity)]
          exact this
      have hle : Int.fract x ≤ x := by
        have := Int.floor_nonneg.2 h0
        have : (0 : ℝ) ≤ ⌊x⌋ := by exact_mod_cast this
        have := Int.fract_add_floor x
        linarith
      rcases eq_or_lt_of_le hf0 with h00 | hfpos
      · rw [← h00, roundBits_zero]
      have hxle : x ≤ 2 ^ 53 * 2 ^ g := by
        rw [hx]
        have : (k : ℝ) ≤ 2 ^ 53 := by exact_mod_cast hkb
        exact mul_le_mul_of_nonneg_right this hgp.le
      rcases lt_or_ge (Int.fract x) (2 ^ 53 * 2 ^ g) with hlt | hge
      · refine roundBits_mult hfr ?_
        unfold lastPlace
        refine max_le ?_ hgl
        have : Int.log 2 |Int.fract x| < 53 + g := by
          rw [← Int.lt_zpow_iff_log_lt (by norm_num) (abs_pos.2 hfpos.ne'), abs_of_pos hfpos]
          push_cast
          rw [zpow_add₀ (by norm_num)]
          exact_mod_cast hlt
        push_cast
        omega
      · have e : Int.fract x = ((1 : ℤ) : ℝ) * 2 ^ (53 + g) := by
          rw [zpow_add₀ (by norm_num), Int.cast_one, one_mul]
          have : (2 : ℝ) ^ (53 : ℤ) = 2 ^ 53 := by norm_num
          rw [this]; linarith
        refine roundBits_mult e ?_
        unfold lastPlace
        refine max_le ?_ (by omega)
        have : Int.log 2 |Int.fract x| = 53 + g := by
          rw [abs_of_pos hfpos, e, Int.cast_one, one_mul]
          exact_mod_cast Int.log_zpow (R := ℝ) (b := 2) (by norm_num) (53 + g)
        push_cast
        omega
    · -- the number is an integer
      have : Int.fract x = 0 := by
        obtain ⟨n, hn⟩ : ∃ n : ℕ, g = n := ⟨g.toNat, by omega⟩
        have e : x = ((k * 2 ^ n : ℤ) : ℝ) := by rw [hx, hn, zpow_natCast]; push_cast; ring
        rw [e, Int.fract_intCast]
      rw [this, roundBits_zero]
  have := Flo.sub_is ha (Turn.floor_is ha) (show |x - (⌊x⌋ : ℤ)| ≤ 2 ^ 200 by
    rw [Int.self_sub_floor, abs_of_nonneg hf0]
    exact hf1.le.trans (by norm_num))
  rw [Int.self_sub_floor, key] at this
  exact this

end Dbl

end BR
