import Verif.Spec.Image
import Verif.Spec.Box
import Mathlib.Algebra.BigOperators.Group.Finset.Basic

/-! What bloom should do, in terms of real-valued pictures. -/

namespace BR

/-- The three colour channels. -/
inductive Ch
  | r | g | b

/-- The value of a channel. -/
def Color.at {F : Type} (c : Color F) : Ch → F
  | .r => c.R
  | .g => c.G
  | .b => c.B

/-- The pixels of `f` are finite numbers, given by `P`. -/
def Finite (w h : Nat) (f : Nat → Nat → Color Ext) (P : Nat → Nat → Ch → ℝ) : Prop :=
  ∀ x y, x < w → y < h → ∀ ch, ((f x y).at ch).Is (P x y ch)

namespace Bloom

open Finset

/-- The part of a value that lies above the threshold. -/
noncomputable def excess (T v : ℝ) : ℝ := max (v - T) 0

/-- The sum over the kernel of the mean of its channels. -/
noncomputable def mass (K : Nat → Nat → Ch → ℝ) (kw kh : Nat) : ℝ :=
  ∑ y ∈ range kh, ∑ x ∈ range kw, (K x y .r + K x y .g + K x y .b) / 3

/-- What a unit of excess light contributes at displacement `(dx, dy)`: the kernel is centred and normalised to
total `A`. -/
noncomputable def spread (K : Nat → Nat → Ch → ℝ) (kw kh : Nat) (A : ℝ) (ch : Ch) (dx dy : Int) : ℝ :=
  if 0 ≤ dx + kw / 2 ∧ dx + kw / 2 < kw ∧ 0 ≤ dy + kh / 2 ∧ dy + kh / 2 < kh then
    A / mass K kw kh * K (dx + kw / 2).toNat (dy + kh / 2).toNat ch
  else 0

/-- The light added at pixel `(x, y)`. -/
noncomputable def glow (w h : Nat) (S : Nat → Nat → Ch → ℝ) (K : Nat → Nat → Ch → ℝ) (kw kh : Nat) (A T : ℝ)
    (x y : Nat) (ch : Ch) : ℝ :=
  ∑ sy ∈ range h, ∑ sx ∈ range w, excess T (S sx sy ch) * spread K kw kh A ch (x - sx) (y - sy)

end Bloom

end BR
