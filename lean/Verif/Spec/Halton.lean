import Mathlib.Data.Nat.Digits.Defs
import Mathlib.Data.Real.Basic

/-! Specification of Halton numbers: the radical inverse. -/

namespace BR

/-- The radical inverse of `n` in base `b`: the digits of `n`, mirrored at the radix point:
`n = Σ dₖ bᵏ` is mapped to `Σ dₖ b⁻ᵏ⁻¹`. -/
noncomputable def radInv (b n : Nat) : ℝ := Nat.ofDigits ((b : ℝ)⁻¹) (Nat.digits b n) / b

end BR
