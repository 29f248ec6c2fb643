import Mathlib.Data.Rat.Defs

/-!
# The number interface of the model

The Go code computes with `float64`. Model functions are written once, generic in a type `F`
with the operations Go provides, so that the same definition can be read over
* any `F` without laws (theorems then hold for hardware floats as well),
* the reals (`Verif.Num.Real`, exact arithmetic, no special values),
* extended numbers with NaN, infinities and signed zeros (`Verif.Num.Ext`).

Arithmetic uses the ordinary `Add`, `Sub`, `Mul`, `Div`, `Neg` classes.
-/

namespace BR

/-- Operations of Go's `float64` beyond `+ - * /`. Comparisons are Boolean, as in Go
(`<`, `<=`, `==` are false when an operand is NaN).
`lit` converts an untyped Go constant, `ofInt` is `float64(i)`, `trunc` is `int(x)`
(Go leaves out-of-range conversions implementation-defined; so does each instance),
`toF32` is `float64(float32(x))`. -/
class GoFloat (F : Type) where
  lt : F → F → Bool
  le : F → F → Bool
  eq : F → F → Bool
  lit : ℚ → F
  ofInt : Int → F
  trunc : F → Int
  isNaN : F → Bool
  inf : F
  pi : F
  floor : F → F
  abs : F → F
  sqrt : F → F
  sin : F → F
  cos : F → F
  tan : F → F
  asin : F → F
  atan2 : F → F → F
  exp : F → F
  log : F → F
  pow : F → F → F
  toF32 : F → F

export GoFloat (lit ofInt)

/-- Go `a < b`. -/
infix:50 " <. " => GoFloat.lt
/-- Go `a <= b`. -/
infix:50 " <=. " => GoFloat.le
/-- Go `a == b`. -/
infix:50 " ==. " => GoFloat.eq
/-- Go `a > b`. -/
macro:50 a:term:51 " >. " b:term:51 : term => `(GoFloat.lt $b $a)
/-- Go `a >= b`. -/
macro:50 a:term:51 " >=. " b:term:51 : term => `(GoFloat.le $b $a)

/-- Run-time panics the model can report. -/
inductive Panic
  | msg (s : String)
  | indexOutOfRange
  | nilDeref
  | typeAssertion
  | diverge
  deriving DecidableEq, Repr

/-- A Go computation that may panic. -/
abbrev GoM (α : Type) := Except Panic α

end BR
