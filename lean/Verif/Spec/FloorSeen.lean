import Verif.Spec.BoxSeen

/-! Vocabulary for floors seen in double precision. -/

namespace BR

/-- A level rectangle: `w` wide along the first axis and `dp` deep along the third, around `c`. Its sides are at least 2 long,
it is within 1000 of the origin, and its height is a double (as all numbers in the program are). -/
structure LevelRectangle (w dp : Flo) (c : Vec Flo) (W D : ℝ) (C : Vec ℝ) : Prop where
  width : w.Is W
  depth : dp.Is D
  center : c.FIs C
  w_ge : 2 ≤ W
  d_ge : 2 ≤ D
  x_le : |C.x| + W / 2 ≤ 1000
  y_le : |C.y| ≤ 1000
  z_le : |C.z| + D / 2 ≤ 1000
  exact : roundBits 53 C.y = C.y

/-- The ray `r` starts at `s`, no coordinate above 1024, and goes in direction `d`; the square of the length of the
direction is between a half and two (it should be one). It does not start within `2^-40` of the height `h`. -/
structure LookingFrom (r : Ray Flo) (s d : Vec ℝ) (h : ℝ) : Prop where
  start : r.start.FIs s
  dir : r.dir.FIs d
  near : Within 1024 s
  off : 1 / 2 ^ 40 ≤ |s.y - h|
  long : 1 / 2 ≤ d.x ^ 2 + d.y ^ 2 + d.z ^ 2
  short : d.x ^ 2 + d.y ^ 2 + d.z ^ 2 ≤ 2

/-- The point `p` is above, on or below the rectangle of width `W` and depth `D` around `C` after its sides are moved out by
`e` (or in, if `e` is negative). -/
def OverFloor (W D : ℝ) (C : Vec ℝ) (e : ℝ) (p : Vec ℝ) : Prop := |p.x - C.x| ≤ W / 2 + e ∧ |p.z - C.z| ≤ D / 2 + e

/-- Where `p` is between the sides of the rectangle: how far along its depth and its width, from 0 to 1. -/
noncomputable def floorPlace (W D : ℝ) (C p : Vec ℝ) : ℝ × ℝ := ((p.z - (C.z - D / 2)) / D, (p.x - (C.x - W / 2)) / W)

/-- The lamp at `pos` is within 1024 of the origin and at least `1/1024` above or below the height `h`. -/
def LampOffHeight (h : ℝ) (pos : Vec Flo) : Prop := ∃ L, pos.FIs L ∧ Within 1024 L ∧ 1 / 1024 ≤ |L.y - h|

end BR
