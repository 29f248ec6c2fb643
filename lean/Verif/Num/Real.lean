import Verif.Num.GoFloat
import Mathlib.Analysis.SpecialFunctions.Pow.Real
import Mathlib.Analysis.SpecialFunctions.Trigonometric.Inverse
import Mathlib.Analysis.SpecialFunctions.Complex.Arg

/-!
Exact real numbers as an instance of `GoFloat`. No rounding, no NaN, no infinity: `inf` is a dummy
and definitions that use it are never instantiated at `ℝ` in a theorem. Division by zero is `0` in
Lean, so theorems at `ℝ` carry hypotheses that exclude it.
-/

namespace BR

/-- `int(x)` truncates towards zero. -/
noncomputable def realTrunc (x : ℝ) : Int := if 0 ≤ x then ⌊x⌋ else ⌈x⌉

noncomputable instance : GoFloat ℝ where
  lt x y := decide (x < y)
  le x y := decide (x ≤ y)
  eq x y := decide (x = y)
  lit q := (q : ℝ)
  ofInt i := (i : ℝ)
  trunc := realTrunc
  isNaN _ := false
  inf := 0
  pi := Real.pi
  floor x := (⌊x⌋ : ℝ)
  abs x := |x|
  sqrt := Real.sqrt
  sin := Real.sin
  cos := Real.cos
  tan := Real.tan
  asin := Real.arcsin
  atan2 y x := Complex.arg ⟨x, y⟩
  exp := Real.exp
  log := Real.log
  pow x y := x ^ y
  toF32 := id

section
variable (x y : ℝ) (q : ℚ) (i : Int)
@[simp] theorem lt_real : (x <. y) = decide (x < y) := rfl
@[simp] theorem le_real : (x <=. y) = decide (x ≤ y) := rfl
@[simp] theorem eq_real : (x ==. y) = decide (x = y) := rfl
@[simp] theorem lit_real : (lit q : ℝ) = (q : ℝ) := rfl
@[simp] theorem ofInt_real : (ofInt i : ℝ) = (i : ℝ) := rfl
@[simp] theorem trunc_real : GoFloat.trunc x = realTrunc x := rfl
@[simp] theorem isNaN_real : GoFloat.isNaN x = false := rfl
@[simp] theorem pi_real : (GoFloat.pi : ℝ) = Real.pi := rfl
@[simp] theorem floor_real : GoFloat.floor x = (⌊x⌋ : ℝ) := rfl
@[simp] theorem abs_real : GoFloat.abs x = |x| := rfl
@[simp] theorem sqrt_real : GoFloat.sqrt x = Real.sqrt x := rfl
@[simp] theorem sin_real : GoFloat.sin x = Real.sin x := rfl
@[simp] theorem cos_real : GoFloat.cos x = Real.cos x := rfl
@[simp] theorem tan_real : GoFloat.tan x = Real.tan x := rfl
@[simp] theorem asin_real : GoFloat.asin x = Real.arcsin x := rfl
@[simp] theorem exp_real : GoFloat.exp x = Real.exp x := rfl
@[simp] theorem log_real : GoFloat.log x = Real.log x := rfl
@[simp] theorem pow_real : GoFloat.pow x y = x ^ y := rfl
@[simp] theorem toF32_real : GoFloat.toF32 x = x := rfl
end

end BR
