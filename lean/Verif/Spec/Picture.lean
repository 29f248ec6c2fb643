import Verif.Spec.Triangle
import Verif.Spec.Normals
import Verif.Spec.Rotation
import Verif.Model.Color

/-! Specification of what a picture of flat-coloured things shows. -/

namespace BR

/-- The colour of extended numbers is the real colour `C`. -/
def Color.Is (c : Color Ext) (C : Color ℝ) : Prop := c.R.Is C.R ∧ c.G.Is C.G ∧ c.B.Is C.B

/-- A direction in the frame of a pinhole camera with horizontal opening angle `fov`: `x` to the right, `y` up, looking
along `-z`. It goes through the point `(x, y)` of a `w × h` picture, `x` and `y` counted in pixels from the centre of
the pixel at the upper left. The picture of width `w` spans the opening angle and pixels are square. -/
noncomputable def pixelDir (fov : ℝ) (w h : ℕ) (x y : ℝ) : Vec ℝ :=
  ⟨Real.tan (fov / 2) * ((2 * x + 1 - w) / w), Real.tan (fov / 2) * ((h - (2 * y + 1)) / w), -1⟩

/-- Turn by `roll` about the `z` axis, then by `pitch` about the `x` axis, then by `yaw` about the `y` axis. -/
noncomputable def turned (yaw pitch roll : ℝ) (v : Vec ℝ) : Vec ℝ :=
  rodrigues ⟨0, 1, 0⟩ yaw (rodrigues ⟨1, 0, 0⟩ pitch (rodrigues ⟨0, 0, 1⟩ roll v))

/-- Where a camera stands and looks. -/
structure View where
  fov : ℝ
  yaw : ℝ
  pitch : ℝ
  roll : ℝ
  eye : Vec ℝ

/-- The line of sight through the point `(x, y)` of the picture. -/
noncomputable def View.sight (v : View) (w h : ℕ) (x y : ℝ) : Ray ℝ :=
  ⟨v.eye, turned v.yaw v.pitch v.roll (unitVec (pixelDir v.fov w h x y))⟩

/-- A thing in space: its surface and the colour of each point of it. -/
structure Thing where
  on : Vec ℝ → Prop
  col : Vec ℝ → Color ℝ

/-- Along the ray, `C` is the colour of a nearest point of all things; black if the ray meets none. -/
def Sees (things : List Thing) (R : Ray ℝ) (C : Color ℝ) : Prop :=
  (∃ th ∈ things, ∃ T > 0, th.on (R.at T) ∧ C = th.col (R.at T) ∧
    ∀ other ∈ things, ∀ T' > 0, other.on (R.at T') → T ≤ T') ∨
  ((∀ th ∈ things, ∀ T > 0, ¬ th.on (R.at T)) ∧ C = ⟨0, 0, 0⟩)

/-- Where in a pixel of row `y` of a `w × h` picture the line of sight goes through: the centre, or with anti-aliasing a
point below it, the same in all passes. -/
noncomputable def sampleRow (antiAlias : Bool) (w h : ℕ) (y : ℝ) : ℝ := if antiAlias then y + w / (6 * min w h) else y

/-- The mean of the first `n` colours. -/
noncomputable def meanColor (C : ℕ → Color ℝ) (n : ℕ) : Color ℝ :=
  ⟨(∑ i ∈ Finset.range n, (C i).R) / n, (∑ i ∈ Finset.range n, (C i).G) / n, (∑ i ∈ Finset.range n, (C i).B) / n⟩

end BR
