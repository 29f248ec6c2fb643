import Verif.Num.Real
import Verif.Model.Geom
import Mathlib.MeasureTheory.Measure.Lebesgue.Basic
import Mathlib.Analysis.SpecialFunctions.Trigonometric.Basic

/-! Chance: what it means for the samples of the program to be spread fairly. -/

namespace BR

open MeasureTheory Set

/-- The pairs of numbers a random source gives: the unit square. -/
def unitSq : Set (ℝ × ℝ) := Ico 0 1 ×ˢ Ico 0 1

/-- The chance that a pair chosen uniformly from the unit square has the property `E`. -/
noncomputable def chance (E : ℝ × ℝ → Prop) : ENNReal := volume {p | p ∈ unitSq ∧ E p}

/-- The inside of the disk of radius 1 around the origin of the plane. -/
def unitDisk : Set (ℝ × ℝ) := {p | p.1 ^ 2 + p.2 ^ 2 < 1}

/-- Three unit vectors perpendicular to each other. -/
structure IsFrame (a b n : Vec ℝ) : Prop where
  aa : a.dot a = 1
  bb : b.dot b = 1
  nn : n.dot n = 1
  ab : a.dot b = 0
  an : a.dot n = 0
  bn : b.dot n = 0

/-- The unit vector at the angle `θ` from `n`, in the direction `φ` around `n` (counted from `a` towards `b`). -/
noncomputable def direction (a b n : Vec ℝ) (θ φ : ℝ) : Vec ℝ :=
  ((a.mul (Real.sin θ * Real.cos φ)).add (b.mul (Real.sin θ * Real.sin φ))).add (n.mul (Real.cos θ))

/-- The `w` by `h` rectangle around `c`, seen from above: the pairs `(x, z)`. -/
def rectArea (w h : ℝ) (c : Vec ℝ) : Set (ℝ × ℝ) := {q | |q.1 - c.x| < w / 2 ∧ |q.2 - c.z| < h / 2}

/-- The disk of diameter `diam` around `c`, seen from above. -/
def diskArea (diam : ℝ) (c : Vec ℝ) : Set (ℝ × ℝ) := {q | (q.1 - c.x) ^ 2 + (q.2 - c.z) ^ 2 < (diam / 2) ^ 2}

/-- The ray from `p` in the direction `d` (a unit vector) meets the area `A` of the horizontal plane at the height `y`
and is not blocked on the way: `blocked d t` says that something stops the ray within the distance `t`. -/
def SeesArea (blocked : Vec ℝ → ℝ → Prop) (A : Set (ℝ × ℝ)) (y : ℝ) (p d : Vec ℝ) : Prop :=
  ∃ t, 0 < t ∧ p.y + t * d.y = y ∧ (p.x + t * d.x, p.z + t * d.z) ∈ A ∧ ¬ blocked d t

end BR
