import Verif.Spec.Ball

/-! Vocabulary for boxes seen in double precision. -/

namespace BR

/-- The ray `r` starts at `s` and goes in direction `d`; the box `b` reaches from the corner `lo` to the corner `hi`. No
coordinate is above 1024, and the square of the length of the direction is between a half and two (it should be one). -/
structure LookingAtBox (r : Ray Flo) (b : BBox Flo) (s d lo hi : Vec ℝ) : Prop where
  start : r.start.FIs s
  dir : r.dir.FIs d
  min : b.min.FIs lo
  max : b.max.FIs hi
  start_le : Within 1024 s
  min_le : Within 1024 lo
  max_le : Within 1024 hi
  ordered : lo.x ≤ hi.x ∧ lo.y ≤ hi.y ∧ lo.z ≤ hi.z
  long : 1 / 2 ≤ d.x ^ 2 + d.y ^ 2 + d.z ^ 2
  short : d.x ^ 2 + d.y ^ 2 + d.z ^ 2 ≤ 2

/-- The point `p` is in the box from `lo` to `hi` after its sides are moved out by `e` (or in, if `e` is negative). -/
def InBox (lo hi : Vec ℝ) (e : ℝ) (p : Vec ℝ) : Prop :=
  (lo.x - e ≤ p.x ∧ p.x ≤ hi.x + e) ∧ (lo.y - e ≤ p.y ∧ p.y ≤ hi.y + e) ∧ (lo.z - e ≤ p.z ∧ p.z ≤ hi.z + e)

/-- The point `p` is within `e` of the surface of the box: within `e` of the box and of the plane of one of its faces. -/
def OnBox (lo hi : Vec ℝ) (e : ℝ) (p : Vec ℝ) : Prop :=
  InBox lo hi e p ∧ (|p.x - lo.x| ≤ e ∨ |p.x - hi.x| ≤ e ∨ |p.y - lo.y| ≤ e ∨ |p.y - hi.y| ≤ e ∨
    |p.z - lo.z| ≤ e ∨ |p.z - hi.z| ≤ e)

/-- `n` is the outward unit vector of a face whose plane is within `e` of the point `p`. -/
def FaceNormal (lo hi : Vec ℝ) (e : ℝ) (p n : Vec ℝ) : Prop :=
  (n = ⟨-1, 0, 0⟩ ∧ |p.x - lo.x| ≤ e) ∨ (n = ⟨1, 0, 0⟩ ∧ |p.x - hi.x| ≤ e) ∨
  (n = ⟨0, -1, 0⟩ ∧ |p.y - lo.y| ≤ e) ∨ (n = ⟨0, 1, 0⟩ ∧ |p.y - hi.y| ≤ e) ∨
  (n = ⟨0, 0, -1⟩ ∧ |p.z - lo.z| ≤ e) ∨ (n = ⟨0, 0, 1⟩ ∧ |p.z - hi.z| ≤ e)

end BR
