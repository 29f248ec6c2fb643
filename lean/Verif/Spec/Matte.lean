import Verif.Model.Scene
import Verif.Num.Real

/-! Specification of diffuse (Lambertian) shading, in exact arithmetic. -/

namespace BR

/-- Length of a vector. -/
noncomputable def vlen (d : Vec ℝ) : ℝ := Real.sqrt (d.x ^ 2 + d.y ^ 2 + d.z ^ 2)

/-- The cosine of the angle between `d` and the unit vector `n`. -/
noncomputable def cosAngle (d n : Vec ℝ) : ℝ := (d.x * n.x + d.y * n.y + d.z * n.z) / vlen d

/-- Sum of colours, channel by channel. -/
def sumColors : List (Color ℝ) → Color ℝ
  | [] => ⟨0, 0, 0⟩
  | c :: cs => ⟨c.R + (sumColors cs).R, c.G + (sumColors cs).G, c.B + (sumColors cs).B⟩

variable {S : Type}

/-- What light `l` contributes at point `p` of a surface with unit normal `n`: the light is sampled; the sample
contributes nothing if it is black or not above the surface; else what passes the objects in between, times
the cosine of the angle of incidence. (A sample at `p` itself has no direction and is left open.) -/
def Contributes (rng : Rng ℝ S) (s : Scene ℝ) (p n : Vec ℝ) (l : Light ℝ) (c : Ctx ℝ S) (lam : Color ℝ)
    (c' : Ctx ℝ S) : Prop :=
  ∃ lpos k, l.sample rng p c = .ok ((lpos, k), c') ∧
    let d : Vec ℝ := ⟨lpos.x - p.x, lpos.y - p.y, lpos.z - p.z⟩
    lpos = p ∨
    ((k = ⟨0, 0, 0⟩ ∨ cosAngle d n ≤ 0) ∧ lam = ⟨0, 0, 0⟩) ∨
    (k ≠ ⟨0, 0, 0⟩ ∧ 0 < cosAngle d n ∧ ∃ passed r',
      s.occlude ⟨p, ⟨d.x / vlen d, d.y / vlen d, d.z / vlen d⟩⟩ (vlen d) k = .ok (passed, r') ∧
      lam = ⟨passed.R * cosAngle d n, passed.G * cosAngle d n, passed.B * cosAngle d n⟩)

/-- The contributions of a list of lights, in order. -/
inductive LitBy (rng : Rng ℝ S) (s : Scene ℝ) (p n : Vec ℝ) :
    List (Light ℝ) → Ctx ℝ S → List (Color ℝ) → Ctx ℝ S → Prop
  | nil (c) : LitBy rng s p n [] c [] c
  | cons {l ls c lam c1 lams c2} : Contributes rng s p n l c lam c1 → LitBy rng s p n ls c1 lams c2 →
      LitBy rng s p n (l :: ls) c (lam :: lams) c2

end BR
