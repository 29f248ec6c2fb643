import Verif.Num.Ext
import Mathlib.Data.Int.Log
import Mathlib.Algebra.Group.Even
import Mathlib.Algebra.Ring.Parity
import Mathlib.Tactic.Linarith
import Mathlib.Tactic.Positivity
import Mathlib.Tactic.FieldSimp
import Mathlib.Tactic.NormNum

/-!
# Rounded numbers

`Flo` is `Ext` with every result of an arithmetic operation rounded as in IEEE 754: to the nearest double precision number,
ties to even, with 53 significant bits or fewer near zero (gradual underflow), and overflow to infinity. The conversion to
`float32` rounds to 24 bits likewise. The library functions (`sin`, `exp`, ...) are taken to be correctly rounded.
-/

namespace BR

/-- The nearest integer, ties to even. -/
noncomputable def roundEven (y : ℝ) : ℤ :=
  if y - ⌊y⌋ < 1 / 2 then ⌊y⌋
  else if 1 / 2 < y - ⌊y⌋ then ⌊y⌋ + 1
  else if Even ⌊y⌋ then ⌊y⌋ else ⌊y⌋ + 1

/-- The exponent of the smallest positive number: `2^-149` for numbers of 24 bits, `2^-1074` for numbers of 53 bits. -/
def lowest (p : ℕ) : ℤ := if p ≤ 24 then -149 else -1074

/-- The exponent of the unit in the last place of the numbers near `x`. -/
noncomputable def lastPlace (p : ℕ) (x : ℝ) : ℤ := max (Int.log 2 |x| - ((p : ℤ) - 1)) (lowest p)

/-- The nearest number with `p` significant bits, ties to even; the last bit is never below the smallest number. -/
noncomputable def roundBits (p : ℕ) (x : ℝ) : ℝ :=
  let u : ℝ := 2 ^ lastPlace p x
  roundEven (x / u) * u

theorem roundEven_int (n : ℤ) : roundEven n = n := by
  simp [roundEven]

theorem roundEven_mono {x y : ℝ} (h : x ≤ y) : roundEven x ≤ roundEven y := by
  have hf : ⌊x⌋ ≤ ⌊y⌋ := Int.floor_mono h
  have up : ∀ z : ℝ, roundEven z ≤ ⌊z⌋ + 1 := by
    intro z; unfold roundEven; split_ifs <;> omega
  have lo : ∀ z : ℝ, ⌊z⌋ ≤ roundEven z := by
    intro z; unfold roundEven; split_ifs <;> omega
  rcases hf.lt_or_eq with hlt | he
  · have := up x; have := lo y; omega
  · unfold roundEven
    rw [he]
    split_ifs <;> first | omega | (exfalso; linarith)

/-- Multiples of the unit in the last place are not changed. -/
theorem roundBits_of_int (p : ℕ) (x : ℝ) (n : ℤ) (h : x = n * 2 ^ lastPlace p x) : roundBits p x = x := by
  unfold roundBits
  dsimp only
  have hu : (2 : ℝ) ^ lastPlace p x ≠ 0 := by positivity
  rw [show x / 2 ^ lastPlace p x = (n : ℝ) by rw [div_eq_iff hu]; exact h, roundEven_int]
  exact h.symm

/-- Numbers with at most `p` bits are not changed, unless they are finer than the smallest number. -/
theorem roundBits_exact (p : ℕ) (m e : ℤ) (hm : |m| < 2 ^ p) (he : -149 ≤ e) :
    roundBits p ((m : ℝ) * 2 ^ e) = (m : ℝ) * 2 ^ e := by
  rcases eq_or_ne m 0 with rfl | hm0
  · refine roundBits_of_int p _ 0 (by simp)
  have h2 : (0 : ℝ) < 2 ^ e := by positivity
  set x : ℝ := (m : ℝ) * 2 ^ e with hx
  have habs : |x| = (|m| : ℝ) * 2 ^ e := by rw [hx, abs_mul, abs_of_pos h2]
  have hxpos : 0 < |x| := by
    rw [habs]
    have : (0 : ℝ) < |(m : ℝ)| := abs_pos.2 (by exact_mod_cast hm0)
    positivity
  have hlog : Int.log 2 |x| < e + p := by
    rw [← Int.lt_zpow_iff_log_lt (by norm_num) hxpos, habs]
    have : (|m| : ℝ) < 2 ^ p := by exact_mod_cast hm
    push_cast
    rw [zpow_add₀ (by norm_num), zpow_natCast, mul_comm]
    exact mul_lt_mul_of_pos_left this h2
  have hle : lastPlace p x ≤ e := by
    unfold lastPlace lowest
    refine max_le (by omega) ?_
    split <;> omega
  obtain ⟨k, hk⟩ : ∃ k : ℕ, e = lastPlace p x + k := ⟨(e - lastPlace p x).toNat, by omega⟩
  refine roundBits_of_int p x (m * 2 ^ k) ?_
  generalize lastPlace p x = q at *
  rw [hx, hk, zpow_add₀ (by norm_num), zpow_natCast]
  push_cast
  ring

theorem roundBits_zero (p : ℕ) : roundBits p 0 = 0 := by
  have := roundBits_exact p 0 0 (by simp) (by norm_num)
  simpa using this

private theorem roundEven_neg (y : ℝ) : roundEven (-y) = -roundEven y := by
  unfold roundEven
  by_cases h0 : y = ⌊y⌋
  · have : ⌊-y⌋ = -⌊y⌋ := by rw [h0, ← Int.cast_neg, Int.floor_intCast, Int.floor_intCast]
    rw [this]
    have e : -y - ((-⌊y⌋ : ℤ) : ℝ) = 0 := by push_cast; linarith
    have e' : y - (⌊y⌋ : ℝ) = 0 := by linarith
    rw [e, e']; simp
  · have hlt : (⌊y⌋ : ℝ) < y := lt_of_le_of_ne (Int.floor_le y) (Ne.symm h0)
    have hlt2 : y < ⌊y⌋ + 1 := Int.lt_floor_add_one y
    have : ⌊-y⌋ = -⌊y⌋ - 1 := by
      rw [Int.floor_eq_iff]; push_cast; constructor <;> linarith
    rw [this]
    have hev : Even (-⌊y⌋ - 1) ↔ ¬ Even ⌊y⌋ := by
      rw [Int.even_sub, even_neg]; simp
    rcases lt_trichotomy (y - (⌊y⌋ : ℝ)) (1 / 2) with h | h | h
    · rw [if_neg (by push_cast; linarith), if_pos (by push_cast; linarith), if_pos h]; ring
    · have e : -y - ((-⌊y⌋ - 1 : ℤ) : ℝ) = 1 / 2 := by push_cast; linarith
      rw [e, h, if_neg (lt_irrefl _), if_neg (lt_irrefl _), if_neg (lt_irrefl _), if_neg (lt_irrefl _)]
      by_cases he : Even ⌊y⌋
      · rw [if_neg (by rw [hev]; exact not_not.2 he), if_pos he]; ring
      · rw [if_pos (hev.2 he), if_neg he]; ring
    · rw [if_pos (by push_cast; linarith), if_neg (by linarith), if_pos h]; ring

theorem roundBits_neg (p : ℕ) (x : ℝ) : roundBits p (-x) = -roundBits p x := by
  unfold roundBits lastPlace
  dsimp only
  rw [abs_neg, neg_div, roundEven_neg]
  push_cast; ring

private theorem roundBits_nn (p : ℕ) {x : ℝ} (hx : 0 ≤ x) : 0 ≤ roundBits p x := by
  unfold roundBits
  dsimp only
  have hu : (0 : ℝ) < 2 ^ lastPlace p x := by positivity
  have := roundEven_mono (x := ((0 : ℤ) : ℝ)) (y := x / 2 ^ lastPlace p x) (by push_cast; positivity)
  rw [roundEven_int] at this
  have h0 : (0 : ℝ) ≤ roundEven (x / 2 ^ lastPlace p x) := by exact_mod_cast this
  positivity

/-- Rounding does not cross powers of two. -/
private theorem roundBits_le_pow (p : ℕ) {x : ℝ} (hx : 0 < x) : roundBits p x ≤ 2 ^ (lastPlace p x + p) := by
  have h2 : x ≤ (2 : ℝ) ^ (lastPlace p x + p) := by
    have h : x ≤ (2 : ℝ) ^ (Int.log 2 x + 1) := by
      exact_mod_cast (Int.lt_zpow_succ_log_self (b := 2) (by norm_num) x).le
    refine h.trans (zpow_le_zpow_right₀ (by norm_num) ?_)
    have : Int.log 2 |x| - ((p : ℤ) - 1) ≤ lastPlace p x := le_max_left _ _
    rw [abs_of_pos hx] at this
    omega
  unfold roundBits
  dsimp only
  generalize lastPlace p x = q at *
  have hu : (0 : ℝ) < 2 ^ q := by positivity
  have e2 : (2 : ℝ) ^ (q + p) = ((2 ^ p : ℤ) : ℝ) * 2 ^ q := by
    push_cast
    rw [zpow_add₀ (by norm_num), zpow_natCast]; ring
  rw [e2] at h2 ⊢
  refine mul_le_mul_of_nonneg_right ?_ hu.le
  have := roundEven_mono (x := x / 2 ^ q) (y := ((2 ^ p : ℤ) : ℝ)) (by rw [div_le_iff₀ hu]; exact h2)
  rw [roundEven_int] at this
  exact_mod_cast this

private theorem roundBits_ge_pow (p : ℕ) (hp : 1 ≤ p) {x : ℝ} (hx : 0 < x) (hq : lowest p < lastPlace p x) :
    (2 : ℝ) ^ (lastPlace p x + p - 1) ≤ roundBits p x := by
  have h1 : (2 : ℝ) ^ (lastPlace p x + p - 1) ≤ x := by
    have h : (2 : ℝ) ^ (Int.log 2 x) ≤ x := by exact_mod_cast Int.zpow_log_le_self (b := 2) (by norm_num) hx
    refine (zpow_le_zpow_right₀ (by norm_num) ?_).trans h
    have : lastPlace p x = Int.log 2 x - ((p : ℤ) - 1) := by
      unfold lastPlace at hq ⊢
      rw [abs_of_pos hx] at *
      rcases max_cases (Int.log 2 x - ((p : ℤ) - 1)) (lowest p) with ⟨h, -⟩ | ⟨h, -⟩ <;> omega
    omega
  unfold roundBits
  dsimp only
  generalize lastPlace p x = q at *
  have hu : (0 : ℝ) < 2 ^ q := by positivity
  obtain ⟨k, rfl⟩ : ∃ k, p = k + 1 := ⟨p - 1, by omega⟩
  have e1 : (2 : ℝ) ^ (q + ((k + 1 : ℕ) : ℤ) - 1) = ((2 ^ k : ℤ) : ℝ) * 2 ^ q := by
    push_cast
    rw [← zpow_natCast, ← zpow_add₀ (by norm_num)]; congr 1; ring
  rw [e1] at h1 ⊢
  refine mul_le_mul_of_nonneg_right ?_ hu.le
  have := roundEven_mono (x := ((2 ^ k : ℤ) : ℝ)) (y := x / 2 ^ q) (by rw [le_div_iff₀ hu]; exact h1)
  rw [roundEven_int] at this
  exact_mod_cast this

private theorem roundBits_mono_pos (p : ℕ) (hp : 1 ≤ p) {x y : ℝ} (hx : 0 < x) (h : x ≤ y) :
    roundBits p x ≤ roundBits p y := by
  have hy := hx.trans_le h
  have hlog : lastPlace p x ≤ lastPlace p y := by
    unfold lastPlace
    rw [abs_of_pos hx, abs_of_pos hy]
    have := Int.log_mono_right (b := 2) hx h
    exact max_le_max (by omega) le_rfl
  rcases hlog.lt_or_eq with hl | he
  · have hlow : lowest p < lastPlace p y := lt_of_le_of_lt (le_max_right _ _) hl
    refine (roundBits_le_pow p hx).trans (le_trans ?_ (roundBits_ge_pow p hp hy hlow))
    exact zpow_le_zpow_right₀ (by norm_num) (by omega)
  · unfold roundBits
    dsimp only
    rw [he]
    have hu : (0 : ℝ) < 2 ^ lastPlace p y := by positivity
    refine mul_le_mul_of_nonneg_right ?_ hu.le
    exact_mod_cast roundEven_mono (div_le_div_of_nonneg_right h hu.le)

/-- Rounding is monotone. -/
theorem roundBits_mono (p : ℕ) (hp : 1 ≤ p) {x y : ℝ} (h : x ≤ y) : roundBits p x ≤ roundBits p y := by
  rcases lt_or_ge 0 x with hx | hx
  · exact roundBits_mono_pos p hp hx h
  rcases lt_or_ge y 0 with hy | hy
  · have := roundBits_mono_pos p hp (x := -y) (y := -x) (by linarith) (by linarith)
    rw [roundBits_neg, roundBits_neg] at this
    linarith
  · have h1 := roundBits_nn p (x := -x) (by linarith)
    rw [roundBits_neg] at h1
    have h2 := roundBits_nn p hy
    linarith

/-- Rounded numbers. -/
structure Flo where
  e : Ext

namespace Flo

/-- Round to `p` bits; magnitudes from `2^emax` become infinite. A number that is rounded to zero keeps its sign. -/
noncomputable def roundTo (p : ℕ) (emax : ℕ) : Ext → Ext
  | .nan => .nan
  | .inf s => .inf s
  | .num x s =>
    if 2 ^ emax ≤ |roundBits p x| then .inf (decide (x < 0))
    else .num (roundBits p x) (if roundBits p x = 0 then (Ext.num x s).sgn else s)

/-- The result of a double precision operation. -/
noncomputable def rnd (a : Ext) : Flo := ⟨roundTo 53 1024 a⟩

noncomputable instance : Neg Flo := ⟨fun a => ⟨-a.e⟩⟩
noncomputable instance : Add Flo := ⟨fun a b => rnd (a.e + b.e)⟩
noncomputable instance : Sub Flo := ⟨fun a b => rnd (a.e - b.e)⟩
noncomputable instance : Mul Flo := ⟨fun a b => rnd (a.e * b.e)⟩
noncomputable instance : Div Flo := ⟨fun a b => rnd (a.e / b.e)⟩

noncomputable instance : GoFloat Flo where
  lt a b := a.e <. b.e
  le a b := a.e <=. b.e
  eq a b := a.e ==. b.e
  lit q := rnd (lit q)
  ofInt i := rnd (ofInt i)
  trunc a := GoFloat.trunc a.e
  isNaN a := GoFloat.isNaN a.e
  inf := ⟨GoFloat.inf⟩
  pi := rnd GoFloat.pi
  floor a := ⟨GoFloat.floor a.e⟩
  abs a := ⟨GoFloat.abs a.e⟩
  sqrt a := rnd (GoFloat.sqrt a.e)
  sin a := rnd (GoFloat.sin a.e)
  cos a := rnd (GoFloat.cos a.e)
  tan a := rnd (GoFloat.tan a.e)
  asin a := rnd (GoFloat.asin a.e)
  atan2 a b := rnd (GoFloat.atan2 a.e b.e)
  exp a := rnd (GoFloat.exp a.e)
  log a := rnd (GoFloat.log a.e)
  pow a b := rnd (GoFloat.pow a.e b.e)
  toF32 a := ⟨roundTo 24 128 a.e⟩

theorem rnd_zero (s : Bool) : rnd (.num 0 s) = ⟨.num 0 s⟩ := by
  simp [rnd, roundTo, roundBits_zero, Ext.sgn]

/-- Values with few bits and moderate magnitude are exact. -/
theorem roundTo_exact (p emax : ℕ) (x : ℝ) (s : Bool) (m e : ℤ) (hx : x = m * 2 ^ e) (hm : |m| < 2 ^ p)
    (he : -149 ≤ e) (hb : |x| < 2 ^ emax) : roundTo p emax (.num x s) = .num x s := by
  have : roundBits p x = x := by rw [hx]; exact roundBits_exact p m e hm he
  rw [roundTo, this, if_neg (not_le.2 hb)]
  split
  next h0 => simp [Ext.sgn, h0]
  next => rfl

noncomputable instance : CmpModel Flo where
  key a := Ext.key a.e
  lt_iff a b := CmpModel.lt_iff a.e b.e
  le_iff a b := CmpModel.le_iff a.e b.e
  eq_iff a b := CmpModel.eq_iff a.e b.e
  nan_iff a := CmpModel.nan_iff a.e
  key_zero := by
    change Ext.key (rnd (lit 0)).e = some 0
    rw [Ext.lit_ext, Rat.cast_zero, rnd_zero]; rfl

instance : InfModel Flo where
  key_inf := rfl
  key_neg_inf := rfl

end Flo

end BR
