import Verif.Lemmas.Cmp
import Verif.Lemmas.GoM
import Verif.Model.Sampler
import Verif.Spec.Box
import Verif.Spec.Sturdy
import Verif.Num.Flo
import Mathlib.Algebra.Order.Floor.Ring

/-! Rounding errors of double precision arithmetic, and what they mean for the checks in the code. -/

namespace BR
set_option linter.unusedSectionVars false

theorem roundEven_err (y : ℝ) : |(roundEven y : ℝ) - y| ≤ 1 / 2 := by
  have h1 := Int.floor_le y
  have h2 := Int.lt_floor_add_one y
  unfold roundEven
  rw [abs_le]
  split_ifs <;> push_cast <;> constructor <;> linarith

theorem roundBits_half (p : ℕ) (x : ℝ) : |roundBits p x - x| ≤ 1 / 2 * 2 ^ lastPlace p x := by
  unfold roundBits
  dsimp only
  generalize lastPlace p x = g
  have hu : (0 : ℝ) < 2 ^ g := by positivity
  have he := roundEven_err (x / 2 ^ g)
  have e : (roundEven (x / 2 ^ g) : ℝ) * 2 ^ g - x = ((roundEven (x / 2 ^ g) : ℝ) - x / 2 ^ g) * 2 ^ g := by
    field_simp
  rw [e, abs_mul, abs_of_pos hu]
  exact mul_le_mul_of_nonneg_right he hu.le

theorem half_place (p : ℕ) {x : ℝ} (hx : x ≠ 0) : 1 / 2 * (2 : ℝ) ^ (Int.log 2 |x| - ((p : ℤ) - 1)) ≤ |x| / 2 ^ p := by
  have hpos : 0 < |x| := abs_pos.2 hx
  have hlog : (2 : ℝ) ^ (Int.log 2 |x|) ≤ |x| := by exact_mod_cast Int.zpow_log_le_self (b := 2) (by norm_num) hpos
  generalize Int.log 2 |x| = g at *
  have e2 : (1 / 2 : ℝ) * 2 ^ (g - ((p : ℤ) - 1)) = 2 ^ g / 2 ^ p := by
    rw [show g - ((p : ℤ) - 1) = g - p + 1 by ring, zpow_add₀ (by norm_num), zpow_sub₀ (by norm_num), zpow_natCast]
    field_simp
  rw [e2]
  exact div_le_div_of_nonneg_right hlog (by positivity)

/-- The relative error of rounding to `p` bits is at most `2^-p`, for numbers that are not tiny. -/
theorem roundBits_rel (p : ℕ) (hp : 24 < p) (hp' : p ≤ 100) {x : ℝ} (h : 1 / 2 ^ 200 ≤ |x|) :
    |roundBits p x - x| ≤ |x| / 2 ^ p := by
  have hpos : 0 < |x| := lt_of_lt_of_le (by positivity) h
  refine (roundBits_half p x).trans ?_
  have hlog : (-200 : ℤ) ≤ Int.log 2 |x| := by
    rw [← Int.zpow_le_iff_le_log (by norm_num) hpos]
    refine le_trans (le_of_eq ?_) h
    rw [zpow_neg, one_div]
    norm_cast
  have : lastPlace p x = Int.log 2 |x| - ((p : ℤ) - 1) := by
    unfold lastPlace lowest
    rw [if_neg (by omega)]
    exact max_eq_left (by omega)
  rw [this]
  exact half_place p (abs_pos.1 hpos)

/-- The error of rounding to `p` bits is at most `2^-p` of the number, and a tiny amount. -/
theorem roundBits_err (p : ℕ) (hp : 24 < p) (x : ℝ) : |roundBits p x - x| ≤ |x| / 2 ^ p + 1 / 2 ^ 200 := by
  rcases eq_or_ne x 0 with rfl | hx
  · rw [roundBits_zero]; simp
  refine (roundBits_half p x).trans ?_
  have h1 := half_place p hx
  have h0 : 0 ≤ |x| / 2 ^ p := by positivity
  have h2 : (1 / 2 : ℝ) * 2 ^ lowest p ≤ 1 / 2 ^ 200 := by
    unfold lowest
    rw [if_neg (by omega)]
    have h : (2 : ℝ) ^ (-1074 : ℤ) ≤ 2 ^ (-200 : ℤ) := zpow_le_zpow_right₀ (by norm_num) (by norm_num)
    have e : (2 : ℝ) ^ (-200 : ℤ) = 1 / 2 ^ 200 := by rw [zpow_neg, one_div]; norm_cast
    have h' : (0 : ℝ) ≤ 2 ^ (-1074 : ℤ) := by positivity
    rw [e] at h
    linarith
  have h3 : (0 : ℝ) ≤ 1 / 2 ^ 200 := by positivity
  unfold lastPlace
  rcases max_cases (Int.log 2 |x| - ((p : ℤ) - 1)) (lowest p) with ⟨h, -⟩ | ⟨h, -⟩ <;> rw [h] <;> linarith

theorem roundEven_near {y : ℝ} {m : ℤ} (h : |y - m| < 1 / 2) : roundEven y = m := by
  rw [abs_lt] at h
  have h1 := Int.floor_le y
  have h2 := Int.lt_floor_add_one y
  have lo : m - 1 ≤ ⌊y⌋ := by
    have : ((m - 1 - 1 : ℤ) : ℝ) < (⌊y⌋ : ℝ) := by push_cast; linarith
    have := Int.cast_lt.1 this
    omega
  have hi : ⌊y⌋ ≤ m := by
    have : (⌊y⌋ : ℝ) < ((m + 1 : ℤ) : ℝ) := by push_cast; linarith
    have := Int.cast_lt.1 this
    omega
  have hc : ⌊y⌋ = m - 1 ∨ ⌊y⌋ = m := by omega
  unfold roundEven
  rcases hc with hc | hc
  · rw [hc]
    push_cast
    rw [if_neg (by linarith), if_pos (by linarith)]
    omega
  · rw [hc, if_pos (by linarith)]

/-- The rounded number, from the integer nearest to it in units of its last place. -/
theorem roundBits_near (p : ℕ) (hp : 1 ≤ p) (x : ℝ) (m e : ℤ) (he : -149 ≤ e) (h1 : (2 : ℝ) ^ (p - 1) * 2 ^ e ≤ |x|)
    (h2 : |x| < 2 ^ p * 2 ^ e) (h : |x / 2 ^ e - m| < 1 / 2) : roundBits p x = m * 2 ^ e := by
  have hpos : 0 < |x| := lt_of_lt_of_le (by positivity) h1
  have hlog : Int.log 2 |x| = e + p - 1 := by
    apply le_antisymm
    · have : Int.log 2 |x| < e + p := by
        rw [← Int.lt_zpow_iff_log_lt (by norm_num) hpos]
        push_cast
        rw [zpow_add₀ (by norm_num), zpow_natCast, mul_comm]
        exact h2
      omega
    · rw [← Int.zpow_le_iff_le_log (by norm_num) hpos]
      push_cast
      have : (e + p - 1 : ℤ) = ((p - 1 : ℕ) : ℤ) + e := by omega
      rw [this, zpow_add₀ (by norm_num), zpow_natCast]
      exact h1
  have hp : lastPlace p x = e := by
    unfold lastPlace lowest
    rw [hlog, show e + (p : ℤ) - 1 - ((p : ℤ) - 1) = e by ring]
    refine max_eq_left ?_
    split <;> omega
  unfold roundBits
  dsimp only
  rw [hp, roundEven_near h]

theorem roundBits_nonneg (p : ℕ) (hp : 1 ≤ p) {x : ℝ} (h : 0 ≤ x) : 0 ≤ roundBits p x := by
  have := roundBits_mono p hp h
  rwa [roundBits_zero] at this

namespace Flo

/-- The rounded number is the finite number `x`. -/
def Is (a : Flo) (x : ℝ) : Prop := a.e.Is x

theorem rnd_is {x : ℝ} (s : Bool) (h : |x| ≤ 2 ^ 200) : (rnd (.num x s)).Is (roundBits 53 x) := by
  have hb : |roundBits 53 x| < 2 ^ 1024 := by
    have := roundBits_err 53 (by norm_num) x
    have h1 : |roundBits 53 x| ≤ |x| + (|x| / 2 ^ 53 + 1 / 2 ^ 200) := by
      have := abs_sub_abs_le_abs_sub (roundBits 53 x) x
      linarith
    have h2 : |x| / 2 ^ 53 ≤ |x| := div_le_self (abs_nonneg x) (by norm_num)
    have h3 : (2 : ℝ) ^ 200 + 2 ^ 200 + 1 / 2 ^ 200 < 2 ^ 1024 := by
      have : (2 : ℝ) ^ 202 < 2 ^ 1024 := pow_lt_pow_right₀ (by norm_num) (by norm_num)
      refine lt_trans ?_ this
      norm_num
    refine lt_of_le_of_lt ?_ h3
    linarith
  refine ⟨if roundBits 53 x = 0 then (Ext.num x s).sgn else s, ?_⟩
  unfold rnd roundTo
  dsimp only
  rw [if_neg (not_le.2 hb)]

theorem sub_is {a b : Flo} {x y : ℝ} (ha : a.Is x) (hb : b.Is y) (h : |x - y| ≤ 2 ^ 200) :
    (a - b).Is (roundBits 53 (x - y)) := by
  obtain ⟨s, hs⟩ := ha
  obtain ⟨t, ht⟩ := hb
  change (rnd (a.e - b.e)).Is _
  rw [hs, ht, Ext.num_sub_num]
  exact rnd_is _ h

theorem add_is {a b : Flo} {x y : ℝ} (ha : a.Is x) (hb : b.Is y) (h : |x + y| ≤ 2 ^ 200) :
    (a + b).Is (roundBits 53 (x + y)) := by
  obtain ⟨s, hs⟩ := ha
  obtain ⟨t, ht⟩ := hb
  change (rnd (a.e + b.e)).Is _
  rw [hs, ht, Ext.num_add_num]
  exact rnd_is _ h

theorem mul_is {a b : Flo} {x y : ℝ} (ha : a.Is x) (hb : b.Is y) (h : |x * y| ≤ 2 ^ 200) :
    (a * b).Is (roundBits 53 (x * y)) := by
  obtain ⟨s, hs⟩ := ha
  obtain ⟨t, ht⟩ := hb
  change (rnd (a.e * b.e)).Is _
  rw [hs, ht, Ext.num_mul_num]
  exact rnd_is _ h

theorem div_is {a b : Flo} {x y : ℝ} (ha : a.Is x) (hb : b.Is y) (hy : y ≠ 0) (h : |x / y| ≤ 2 ^ 200) :
    (a / b).Is (roundBits 53 (x / y)) := by
  obtain ⟨s, hs⟩ := ha
  obtain ⟨t, ht⟩ := hb
  change (rnd (a.e / b.e)).Is _
  rw [hs, ht, Ext.num_div_num _ _ _ _ hy]
  exact rnd_is _ h

theorem lt_is {a b : Flo} {x y : ℝ} (ha : a.Is x) (hb : b.Is y) : (a <. b) = decide (x < y) := by
  obtain ⟨s, hs⟩ := ha
  obtain ⟨t, ht⟩ := hb
  change (a.e <. b.e) = _
  rw [hs, ht, Ext.lt_num]

/-- Numbers with at most 53 bits are exact. -/
theorem rnd_exact_is (x : ℝ) (s : Bool) (m e : ℤ) (hx : x = m * 2 ^ e) (hm : |m| < 2 ^ 53)
    (he : -149 ≤ e) (hb : |x| ≤ 2 ^ 200) :
    (rnd (.num x s)).Is x := by
  have := rnd_is s hb
  rwa [show roundBits 53 x = x by rw [hx]; exact roundBits_exact 53 m e hm he] at this

theorem ofInt_is (n : ℤ) (h : |n| < 2 ^ 53) : (ofInt n : Flo).Is n := by
  refine rnd_exact_is (n : ℝ) false n 0 (by simp) h (by norm_num) ?_
  have h1 : ((|n| : ℤ) : ℝ) < ((2 ^ 53 : ℤ) : ℝ) := by exact_mod_cast h
  push_cast at h1
  exact h1.le.trans (by norm_num)

/-- Rounding keeps a sign. -/
theorem key_rnd_nonneg {a : Ext} {x : EReal} (h : Ext.key a = some x) (hx : 0 ≤ x) :
    ∃ y, Ext.key (rnd a).e = some y ∧ 0 ≤ y := by
  cases a with
  | nan => simp [Ext.key] at h
  | inf s => exact ⟨x, h, hx⟩
  | num z s =>
    simp only [Ext.key, Option.some.injEq] at h
    subst h
    have hz : 0 ≤ z := by exact_mod_cast hx
    unfold rnd roundTo
    dsimp only
    split
    · rw [decide_eq_false (not_lt.2 hz)]
      exact ⟨⊤, rfl, le_top⟩
    · exact ⟨_, rfl, by exact_mod_cast roundBits_nonneg 53 (by norm_num) hz⟩

end Flo

/-- Exact numbers obey the law. -/
theorem subLaw_ext : SubLaw Ext := by
  refine ⟨by rw [Ext.lit_ext, Ext.num_sub_num]; simp, fun a b h => ?_⟩
  cases a with
  | nan => simp at h
  | inf s =>
    cases b with
    | nan => simp at h
    | inf t =>
      simp only [Ext.inf_lt_inf, Bool.and_eq_true, Bool.not_eq_true'] at h
      rw [h.1, h.2]
      rw [Ext.sub_def]
      simp
    | num y t =>
      simp only [Ext.num_lt_inf, Bool.not_eq_true'] at h
      rw [h]; simp
  | num x s =>
    cases b with
    | nan => simp at h
    | inf t =>
      simp only [Ext.inf_lt_num] at h
      rw [h]; simp
    | num y t =>
      simp only [Ext.lt_num, decide_eq_true_eq] at h
      rw [Ext.num_sub_num, Ext.lit_ext, Ext.le_num]
      simpa using h.le

/-- Rounded numbers obey the law. -/
theorem subLaw_flo : SubLaw Flo := by
  have zero : (lit 0 : Flo) = ⟨.num 0 false⟩ := by
    change Flo.rnd (lit 0) = _
    rw [Ext.lit_ext]; simpa using Flo.rnd_zero false
  have up : ∀ a : Ext, ((lit 0 : Ext) <=. a) = true → ((lit 0 : Flo) <=. Flo.rnd a) = true := by
    intro a h
    obtain ⟨x, y, hx, hy, hxy⟩ := (CmpModel.le_iff _ _).1 h
    have h0 : CmpModel.key (lit 0 : Ext) = some 0 := CmpModel.key_zero
    rw [h0, Option.some.injEq] at hx
    subst hx
    obtain ⟨z, hz, hz0⟩ := Flo.key_rnd_nonneg hy hxy
    refine (CmpModel.le_iff _ _).2 ⟨0, z, CmpModel.key_zero, hz, hz0⟩
  refine ⟨?_, fun a b h => ?_⟩
  · change ((lit 0 : Flo) <=. Flo.rnd ((lit 0 : Flo).e - (lit 0 : Flo).e)) = true
    apply up
    rw [zero]
    have := subLaw_ext.1
    simpa [Ext.lit_ext] using this
  · exact up _ (subLaw_ext.2 a.e b.e h)

/-! ## Sample sequences -/

/-- A finite number is rounded to a finite number or, if it is too large, to infinity. -/
theorem Flo.rnd_cases (x : ℝ) (s : Bool) :
    (∃ t, (Flo.rnd (.num x s)).e = .inf t) ∨ ∃ t, (Flo.rnd (.num x s)).e = .num (roundBits 53 x) t := by
  unfold Flo.rnd Flo.roundTo
  dsimp only
  split
  · exact .inl ⟨_, rfl⟩
  · exact .inr ⟨_, rfl⟩

theorem haltonStep_lt (b i : Nat) (hb : 2 ≤ b) (hb' : b < 2 ^ 53) (hi : 0 < i) :
    (GoFloat.trunc (GoFloat.floor ((ofInt (i : Int) : Flo) / (ofInt (b : Int) : Flo)))).toNat < i := by
  obtain ⟨sb, eb⟩ := Flo.ofInt_is b (by rw [abs_of_nonneg (by positivity)]; exact_mod_cast hb')
  have hbR : (2 : ℝ) ≤ b := by exact_mod_cast hb
  have hb0 : ((b : ℤ) : ℝ) ≠ 0 := by push_cast; linarith
  have hi0 : (0 : ℝ) < i := by exact_mod_cast hi
  change (GoFloat.trunc (GoFloat.floor (Flo.rnd ((ofInt (i : Int) : Flo).e / (ofInt (b : Int) : Flo).e)).e)).toNat < i
  rw [eb]
  rcases Flo.rnd_cases ((i : ℤ) : ℝ) false with ⟨t, h⟩ | ⟨t, h⟩
  · have : (ofInt (i : Int) : Flo).e = .inf t := h
    rw [this]
    exact hi
  · have : (ofInt (i : Int) : Flo).e = .num (roundBits 53 ((i : ℤ) : ℝ)) t := h
    rw [this, Ext.num_div_num _ _ _ _ hb0]
    have h1 := roundBits_rel 53 (by norm_num) (by norm_num) (x := ((i : ℤ) : ℝ)) (by
      rw [Int.cast_natCast, abs_of_pos hi0]
      have : (1 : ℝ) ≤ i := by exact_mod_cast hi
      refine le_trans ?_ this
      norm_num)
    have h2 := roundBits_nonneg 53 (by norm_num) (x := ((i : ℤ) : ℝ)) (by positivity)
    push_cast at h1 h2 hb0 ⊢
    generalize roundBits 53 (i : ℝ) = y at *
    rw [abs_of_pos hi0, abs_le] at h1
    have hyb : 0 ≤ y / b := by positivity
    generalize ((Ext.num y t).sgn ^^ (Ext.num (b : ℝ) sb).sgn) = sg
    rcases Flo.rnd_cases (y / b) sg with ⟨t, h⟩ | ⟨t, h⟩
    · rw [h]; exact hi
    · rw [h]
      have h3 := roundBits_err 53 (by norm_num) (y / b)
      have h4 := roundBits_nonneg 53 (by norm_num) hyb
      generalize roundBits 53 (y / b) = z at *
      rw [abs_of_nonneg hyb, abs_le] at h3
      have h5 : y / b ≤ y / 2 := by gcongr
      have h6 : z < i := by
        have : (1 : ℝ) ≤ i := by exact_mod_cast hi
        have : (1 : ℝ) / 2 ^ 200 ≤ 1 / 100 := by norm_num
        linarith
      have h7 : (⌊z⌋ : ℤ) < i := by
        have := Int.floor_le z
        exact_mod_cast this.trans_lt h6
      have h8 : 0 ≤ ⌊z⌋ := Int.floor_nonneg.2 h4
      change (realTrunc (⌊z⌋ : ℝ)).toNat < i
      rw [realTrunc, if_pos (by exact_mod_cast h8), Int.floor_intCast]
      omega

theorem haltonLoop_flo (b : Nat) (hb : 2 ≤ b) (hb' : b < 2 ^ 53) (n : Nat) (f r : Flo) (i : Nat) (hi : i ≤ n) :
    ∃ x, haltonLoop b n f r i = .ok x := by
  induction n generalizing f r i with
  | zero => exact ⟨r, by simp [haltonLoop, Nat.le_zero.1 hi]⟩
  | succ n ih =>
    rw [haltonLoop]
    split
    next h =>
      rw [if_neg (by omega)]
      exact ih _ _ _ (by have := haltonStep_lt b i hb hb' h; omega)
    next => exact ⟨_, rfl⟩

/-- In double precision the sample sequences have a member for every index. -/
theorem halton_flo (b : Nat) (hb : 2 ≤ b) (hb' : b < 2 ^ 53) (i : Nat) : ∃ x : Flo, halton b i = .ok x :=
  haltonLoop_flo b hb hb' _ _ _ _ le_rfl

/-- In double precision every pixel of a moderately large image has camera coordinates. -/
theorem indexToCam_flo {w h : Nat} (hw : w ≤ 2 ^ 50) (hh : h ≤ 2 ^ 50) (p : Nat × Nat) (hx : p.1 < w) (hy : p.2 < h) :
    ∃ uv : Flo × Flo, indexToCam (w : Int) (h : Int) (ofInt p.1 : Flo) (ofInt p.2) = .ok uv := by
  have int : ∀ n : Nat, n ≤ 2 ^ 50 → (ofInt (n : Int) : Flo).Is n := fun n hn => by
    simpa using Flo.ofInt_is n (by rw [abs_of_nonneg (by positivity)]; exact_mod_cast hn.trans_lt (by norm_num))
  have half : (lit (1 / 2) : Flo).Is (1 / 2) := by
    have := Flo.rnd_exact_is (1 / 2) false 1 (-1) (by norm_num) (by norm_num) (by norm_num) (by rw [abs_of_pos] <;> norm_num)
    change (Flo.rnd (lit (1 / 2))).Is _
    rw [Ext.lit_ext]
    push_cast
    exact this
  have mhalf : (lit (-1 / 2) : Flo).Is (-1 / 2) := by
    have := Flo.rnd_exact_is (-1 / 2) false (-1) (-1) (by norm_num) (by norm_num) (by norm_num) (by rw [abs_of_neg] <;> norm_num)
    change (Flo.rnd (lit (-1 / 2))).Is _
    rw [Ext.lit_ext]
    push_cast
    exact this
  have edge : ∀ n : Nat, n ≤ 2 ^ 50 → ((ofInt (n : Int) : Flo) - lit (1 / 2)).Is (n - 1 / 2) := fun n hn => by
    have hnR : (n : ℝ) ≤ 2 ^ 50 := by exact_mod_cast hn
    have h0 : (0 : ℝ) ≤ n := Nat.cast_nonneg n
    have := Flo.sub_is (int n hn) half (by rw [abs_le]; constructor <;> linarith [show (2 : ℝ) ^ 50 ≤ 2 ^ 200 from pow_le_pow_right₀ (by norm_num) (by norm_num), show (1 : ℝ) ≤ 2 ^ 200 from one_le_pow₀ (by norm_num)])
    rwa [show roundBits 53 ((n : ℝ) - 1 / 2) = n - 1 / 2 by
      have := roundBits_exact 53 (2 * n - 1) (-1) (by rw [abs_lt]; constructor <;> omega) (by norm_num)
      push_cast at this
      rw [show ((2 : ℝ) * n - 1) * 2 ^ (-1 : ℤ) = n - 1 / 2 by norm_num; ring] at this
      exact this] at this
  unfold indexToCam
  have h1 : (p.1 : ℝ) + 1 ≤ w := by exact_mod_cast hx
  have h2 : (p.2 : ℝ) + 1 ≤ h := by exact_mod_cast hy
  have h3 : (0 : ℝ) ≤ p.1 := Nat.cast_nonneg _
  have h4 : (0 : ℝ) ≤ p.2 := Nat.cast_nonneg _
  rw [if_neg]
  · exact ⟨_, rfl⟩
  · rw [Flo.lt_is (int p.1 (by omega)) mhalf, Flo.lt_is (int p.2 (by omega)) mhalf,
      Flo.lt_is (edge w hw) (int p.1 (by omega)), Flo.lt_is (edge h hh) (int p.2 (by omega))]
    simp only [Bool.or_eq_true, decide_eq_true_eq]
    rintro (((h | h) | h) | h) <;> linarith

end BR
