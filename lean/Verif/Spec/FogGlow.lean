import Verif.Model.Scene
import Verif.Num.Real
import Mathlib.MeasureTheory.Integral.Bochner.Set
import Mathlib.MeasureTheory.Measure.Lebesgue.Basic

/-! What a fog that scatters the light of lamps should show. -/

namespace BR

/-- One of the three colour channels. -/
def IsChannel (ch : Color ℝ → ℝ) : Prop := ch = Color.R ∨ ch = Color.G ∨ ch = Color.B

/-- A lamp without size, at `pos`, of the given power. -/
structure PointLamp where
  pos : Vec ℝ
  power : Color ℝ

/-- The light is stopped between the point `p` and the lamp position `q`. `blocked p d len` says that something is in
the way of a ray from `p` in direction `d`, nearer than `len`. -/
def InShade (blocked : Vec ℝ → Vec ℝ → ℝ → Prop) (p q : Vec ℝ) : Prop := blocked p (q.sub p).normalized (q.sub p).len

open Classical in
/-- The light of a lamp that arrives at `p`: its power spread over a sphere, if nothing is in the way. -/
noncomputable def PointLamp.at' (l : PointLamp) (blocked : Vec ℝ → Vec ℝ → ℝ → Prop) (ch : Color ℝ → ℝ) (p : Vec ℝ) : ℝ :=
  if InShade blocked p l.pos then 0 else ch l.power / (4 * Real.pi * (l.pos.sub p).len2)

/-- The lamps that a fog made with `numLight` counts: the first ones. -/
def countedLamps (numLight : Int) (lamps : List PointLamp) : List PointLamp :=
  if numLight < 0 then lamps else lamps.take numLight.toNat

/-- What a fog of density `D` on a length `len` of the line of sight `P` shows of the light `arriving` in it: each piece
of the fog scatters the light that arrives there, dimmed by the fog in front of it. -/
noncomputable def fogGlow (D len : ℝ) (P : ℝ → Vec ℝ) (arriving : Vec ℝ → ℝ) : ℝ :=
  ∫ t in Set.Ico 0 len, D * Real.exp (-D * t) * arriving (P t)

end BR
