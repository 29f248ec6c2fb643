import Verif.Lemmas.Near
import Verif.Model.Construct

/-! Vocabulary for balls seen in double precision. `Flo.Is` and `Vec.FIs` say which real numbers doubles stand for. -/

namespace BR

/-- No coordinate exceeds `b`. -/
def Within (b : ℝ) (v : Vec ℝ) : Prop := |v.x| ≤ b ∧ |v.y| ≤ b ∧ |v.z| ≤ b

/-- The distance between two points. -/
noncomputable def apart (p q : Vec ℝ) : ℝ := Real.sqrt ((p.x - q.x) ^ 2 + (p.y - q.y) ^ 2 + (p.z - q.z) ^ 2)

/-- The point of the ray from `s` in direction `d` at parameter `t`, in exact arithmetic. -/
noncomputable def along (s d : Vec ℝ) (t : ℝ) : Vec ℝ := ⟨s.x + t * d.x, s.y + t * d.y, s.z + t * d.z⟩

/-- The ray `r` starts at `s`, goes in direction `d`, and the ball of diameter `diam` around `center` has radius `R` and
centre `c`. No coordinate nor the radius is above 64, and the square of the length of the direction is between a half and
two (it should be one). -/
structure Looking (r : Ray Flo) (diam : Flo) (center : Vec Flo) (s d c : Vec ℝ) (R : ℝ) : Prop where
  start : r.start.FIs s
  dir : r.dir.FIs d
  center : center.FIs c
  diam : diam.Is (2 * R)
  start_le : Within 64 s
  center_le : Within 64 c
  radius_nonneg : 0 ≤ R
  radius_le : R ≤ 64
  long : 1 / 2 ≤ d.x ^ 2 + d.y ^ 2 + d.z ^ 2
  short : d.x ^ 2 + d.y ^ 2 + d.z ^ 2 ≤ 2

/-- The lamp at `pos` is clear of the ball of radius `R` around `c`: at least 1/1024 off its surface, with coordinates at
most 1024. -/
def LampOff (c : Vec ℝ) (R : ℝ) (pos : Vec Flo) : Prop :=
  ∃ L, pos.FIs L ∧ Within 1024 L ∧ R + 1 / 1024 ≤ apart L c

/-- The unit vector from `c` to `p`. -/
noncomputable def outward (c p : Vec ℝ) : Vec ℝ :=
  ⟨(p.x - c.x) / apart p c, (p.y - c.y) / apart p c, (p.z - c.z) / apart p c⟩

end BR
