import Verif.Spec.LitDouble

/-! Vocabulary for what is seen along a ray in double precision. -/

namespace BR

/-- The ray `r` starts at `v`, no coordinate above 64, and goes in direction `d`; the square of the length of the direction is
between a half and two (it should be one). -/
structure Glance (r : Ray Flo) (v d : Vec ℝ) : Prop where
  start : r.start.FIs v
  dir : r.dir.FIs d
  near : Within 64 v
  long : 1 / 2 ≤ d.x ^ 2 + d.y ^ 2 + d.z ^ 2
  short : d.x ^ 2 + d.y ^ 2 + d.z ^ 2 ≤ 2

/-- The line from `v` in direction `d` clearly meets the thing, first at distance `X` and from outside, where its unit normal on the
viewer's side is `N`.

* A ball has a radius of at least 1/32; the start is clearly outside of it, and some point of the line is clearly inside.
* The side of a box is met at least `2^-18` from its edges, and not at a grazing angle.
* A floor is met at least `2^-12` from its edges, as is all of the line that is within `2^-13` of its height; and `2^-24` off its
  diagonal (as a part of its size), where its two triangles join. -/
def Obstacle.MetAt (v d : Vec ℝ) (X : ℝ) (N : Vec ℝ) : Obstacle → Prop
  | .ball c R => 1 / 32 ≤ R ∧ R ^ 2 + 1 / 2 ^ 8 ≤ apart v c ^ 2 ∧ (∃ T, 0 < T ∧ apart (along v d T) c ^ 2 ≤ R ^ 2 - 1 / 2 ^ 8) ∧ 0 < X ∧
      apart (along v d X) c = R ∧ (∀ T, 0 < T → T < X → apart (along v d T) c ≠ R) ∧ N = outward c (along v d X)
  | .block lo hi => 1 / 1024 ≤ X ∧ ∃ i up, OnSide lo hi i up (along v d X) ∧ N = sideNormal i up ∧
      N.x * d.x + N.y * d.y + N.z * d.z ≤ -(1 / 2 ^ 13)
  | .floor W D C => 1 / 2 ^ 12 ≤ |v.y - C.y| ∧ 0 < X ∧ (along v d X).y = C.y ∧
      (∀ T, |(along v d T).y - C.y| ≤ 1 / 2 ^ 13 → OverFloor W D C (-(1 / 2 ^ 12)) (along v d T)) ∧
      1 / 2 ^ 24 ≤ |((along v d X).x - C.x) / W + ((along v d X).z - C.z) / D| ∧ N = ⟨0, sideOf C.y v.y, 0⟩
  | .sky => False

/-- The line from `v` in direction `d` leads away from the thing (it does so after a mirror): its start is outside, if only just, and
it does not come nearer.

* A ball: the start is outside by `2^-25` in the squares, and the direction does not point to the side of the centre.
* A box: the start is outside of a side by `2^-37`, and the direction does not point to the other side of it.
* A floor: the start is `2^-40` above or below, and the line keeps its height or goes further away. -/
def Obstacle.LeftBy (v d : Vec ℝ) : Obstacle → Prop
  | .ball c R => R ^ 2 + 1 / 2 ^ 25 ≤ apart v c ^ 2 ∧ 0 ≤ (v.x - c.x) * d.x + (v.y - c.y) * d.y + (v.z - c.z) * d.z ∧
      9 / 10 ≤ d.x ^ 2 + d.y ^ 2 + d.z ^ 2
  | .block lo hi => ∃ i up, 1 / 2 ^ 37 ≤ outside lo hi i up v ∧
      0 ≤ (sideNormal i up).x * d.x + (sideNormal i up).y * d.y + (sideNormal i up).z * d.z
  | .floor _ _ C => 1 / 2 ^ 40 ≤ |v.y - C.y| ∧ 0 ≤ (v.y - C.y) * d.y
  | .sky => False

/-- The line from `v` in direction `d` passes the thing, as far as `Y`: it is clear of it, or leads away from it. -/
def Obstacle.Passed (v d : Vec ℝ) (Y : ℝ) (b : Obstacle) : Prop := b.Clears v (along v d Y) ∨ b.LeftBy v d

/-- The lamp at `l` is clear of the surface of the thing (for a floor, of its height). -/
def Obstacle.Spares (l : Vec ℝ) : Obstacle → Prop
  | .ball c R => R + 1 / 1024 ≤ apart l c
  | .block _ _ => True
  | .floor _ _ C => 1 / 1024 ≤ |l.y - C.y|
  | .sky => True

end BR
