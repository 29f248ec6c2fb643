import Verif.Num.Real
import Verif.Model.Geom

/-! Specification of reflection and refraction. -/

namespace BR

/-- `w` is the mirror image of `v` in the plane perpendicular to `n`: the component along `n` is
reversed and nothing else changes. -/
def IsMirror (v n w : Vec ℝ) : Prop :=
  w.dot n = -v.dot n ∧ w.sub (n.mul (w.dot n)) = v.sub (n.mul (v.dot n))

/-- The incidence of a ray on an interface: unit direction `i` of the ray, unit normal `n` on the side
the ray comes from, refractive index `m₁` of that side and `m₂` of the other side. -/
structure Incidence where
  i : Vec ℝ
  n : Vec ℝ
  m₁ : ℝ
  m₂ : ℝ

/-- The incidence of a ray with direction `dir` on a surface with the given normal, which points to
the side with index `n1`; the other side has index `n2`. -/
structure IsIncidence (n1 n2 : ℝ) (dir normal : Vec ℝ) (I : Incidence) : Prop where
  i_unit : I.i.dot I.i = 1
  i_dir : ∃ k > 0, I.i = dir.mul k
  n_unit : I.n.dot I.n = 1
  /-- the ray comes from the side of `n` -/
  side : I.i.dot I.n ≤ 0
  /-- from outside: `n` along the normal, indices in order; from inside: opposite, swapped -/
  outside : dir.dot normal ≤ 0 → (∃ k > 0, I.n = normal.mul k) ∧ I.m₁ = n1 ∧ I.m₂ = n2
  inside : 0 < dir.dot normal → (∃ k < 0, I.n = normal.mul k) ∧ I.m₁ = n2 ∧ I.m₂ = n1

/-- The component of `v` in the plane of the interface. -/
def Incidence.tangential (I : Incidence) (v : Vec ℝ) : Vec ℝ := v.sub (I.n.mul (v.dot I.n))

/-- The sine of the angle of incidence. -/
noncomputable def Incidence.sinI (I : Incidence) : ℝ := (I.tangential I.i).len

/-- Fresnel's reflectance: the mean over both polarisations, in terms of the cosines of the angles of
incidence and transmission. -/
noncomputable def fresnelR (m₁ m₂ ci ct : ℝ) : ℝ :=
  (((m₁ * ci - m₂ * ct) / (m₁ * ci + m₂ * ct)) ^ 2 + ((m₁ * ct - m₂ * ci) / (m₁ * ct + m₂ * ci)) ^ 2) / 2

end BR
