import Verif.Model.Geom
import Verif.Num.Real

/-! Specification of rotations. -/

namespace BR

/-- Specification (Rodrigues): rotation by `θ` about the unit vector `u`, counterclockwise in a
right-handed space. -/
noncomputable def rodrigues (u : Vec ℝ) (θ : ℝ) (v : Vec ℝ) : Vec ℝ :=
  ((v.mul (Real.cos θ)).add ((u.cross v).mul (Real.sin θ))).add (u.mul (u.dot v * (1 - Real.cos θ)))

end BR
