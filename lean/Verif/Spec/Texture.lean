import Verif.Spec.Bloom
import Mathlib.Algebra.Order.Floor.Ring

/-! Interpolation of a picture, in real numbers. -/

namespace BR.Texture

/-- The image (rows of colours) has size `w` by `h` and finite pixels, given by `P`. -/
def Pixels (img : List (List (Color Ext))) (w h : Nat) (P : Nat → Nat → Ch → ℝ) : Prop :=
  img.length = h ∧ ∀ (y : Nat) (r : List (Color Ext)), img[y]? = some r → r.length = w ∧
    ∀ (x : Nat) (c : Color Ext), r[x]? = some c → ∀ ch, (c.at ch).Is (P x y ch)

/-- Linear interpolation between values at whole numbers. -/
noncomputable def lerp (f : Nat → ℝ) (X : ℝ) : ℝ := (1 - Int.fract X) * f ⌊X⌋₊ + Int.fract X * f (⌊X⌋₊ + 1)

/-- Interpolation in both directions of a picture of size `w` by `h`, whose outer pixel centres are at 0 and 1. -/
noncomputable def interp (w h : Nat) (P : Nat → Nat → ℝ) (s t : ℝ) : ℝ :=
  lerp (fun y => lerp (fun x => P x y) (s * ((w : ℝ) - 1))) (t * ((h : ℝ) - 1))

end BR.Texture
