import Verif.Model.Load
import Verif.Spec.Texture
import Mathlib.Analysis.SpecialFunctions.Pow.Real

/-! Specification of loaded pictures. -/

namespace BR

/-- The sRGB standard's decoding of a value in `[0, 1]` to linear light. -/
noncomputable def srgbDecode (s : ℝ) : ℝ := if s ≤ 0.04045 then s / 12.92 else ((s + 0.055) / 1.055) ^ (2.4 : ℝ)

/-- A value of the file, as a fraction of the largest one, in column `x` from the left and row `y` from the *bottom*. -/
noncomputable def Decoded.fromBottom (d : Decoded) (x y : Nat) (ch : Ch) : ℝ :=
  let c := d.rgb x (d.h - 1 - y)
  (match ch with | .r => (c.1 : ℝ) | .g => (c.2.1 : ℝ) | .b => (c.2.2 : ℝ)) / 65535

/-- All values of the file have 16 bits. -/
def Decoded.Valid (d : Decoded) : Prop :=
  ∀ x < d.w, ∀ y < d.h, (d.rgb x y).1 ≤ 65535 ∧ (d.rgb x y).2.1 ≤ 65535 ∧ (d.rgb x y).2.2 ≤ 65535

end BR
