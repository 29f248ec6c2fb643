import Verif.Spec.LitAssembly
import Verif.Spec.Passes
import Verif.Model.Sequence
import Mathlib.MeasureTheory.Constructions.BorelSpace.Basic
import Mathlib.MeasureTheory.Constructions.BorelSpace.Order

/-! The light that falls on a surface from all sides. -/

namespace BR

open MeasureTheory Set

/-- Coordinates. -/
def Vec.coords (v : Vec ℝ) : ℝ × ℝ × ℝ := (v.x, v.y, v.z)

/-- Vectors are near each other if their coordinates are. -/
instance : TopologicalSpace (Vec ℝ) := .induced Vec.coords inferInstance

instance : MeasurableSpace (Vec ℝ) := .comap Vec.coords inferInstance

/-- The angles of a hemisphere: `θ` from the axis, `φ` around it. -/
def hemisphere : Set (ℝ × ℝ) := Ioo 0 (Real.pi / 2) ×ˢ Ioo (-Real.pi) Real.pi

/-- The mean of a quantity over all directions on the side of `n`, weighted with the cosine of the angle to `n`: the integral
over the solid angle (`sin θ dθ dφ`) of the quantity times `cos θ / π`. -/
noncomputable def cosineMean (a b n : Vec ℝ) (f : Vec ℝ → ℝ) : ℝ :=
  ∫ t in hemisphere, Real.cos t.1 / Real.pi * Real.sin t.1 * f (direction a b n t.1 t.2)

/-- The light that falls on a surface with the normal `n` when `light ω` comes from the direction `ω`. -/
noncomputable def gathered (a b n : Vec ℝ) (light : Vec ℝ → Color ℝ) : Color ℝ :=
  ⟨cosineMean a b n fun ω => (light ω).R, cosineMean a b n fun ω => (light ω).G, cosineMean a b n fun ω => (light ω).B⟩

/-- The directions make up no solid angle. -/
def NoArea (Z : Set (Vec ℝ)) : Prop :=
  ∀ a b n, IsFrame a b n → volume {t ∈ hemisphere | direction a b n t.1 t.2 ∈ Z} = 0

/-- What comes from the direction `ω` is bounded and, but for directions that make up no solid angle, depends continuously
on the direction. -/
structure MildLight (f : Vec ℝ → ℝ) : Prop where
  measurable : Measurable f
  bounded : ∃ K, ∀ ω : Vec ℝ, ω.dot ω = 1 → |f ω| ≤ K
  edges : ∃ Z, MeasurableSet Z ∧ NoArea Z ∧ ∀ ω ∉ Z, ContinuousAt f ω

/-- The directions in which one sees the body from `p`. -/
def Body.from (b : Body) (p : Vec ℝ) : Set (Vec ℝ) := {ω | ∃ T > 0, b.on ((⟨p, ω⟩ : Ray ℝ).at T)}

/-- The outline of the body, seen from `p`, makes up no solid angle. -/
def Body.Outlined (b : Body) (p : Vec ℝ) : Prop := MeasurableSet (b.from p) ∧ NoArea (frontier (b.from p))

open Classical in
/-- The light that comes to `p` from the sky. -/
noncomputable def fromSky (sky : Vec ℝ → Color ℝ) (bodies : List Body) (p ω : Vec ℝ) : Color ℝ :=
  if ∃ b ∈ bodies, ω ∈ b.from p then ⟨0, 0, 0⟩ else sky ω

open Classical in
/-- The share of an even sky that is not blocked, seen from `p` on a surface with the normal `n`: each direction counts with
the cosine of its angle to `n`. -/
noncomputable def skyShare (a b n : Vec ℝ) (bodies : List Body) (p : Vec ℝ) : ℝ :=
  cosineMean a b n fun ω => if ∃ b ∈ bodies, ω ∈ b.from p then 0 else 1

/-- Light is scattered from the direction chosen by the pair `a` at the first surface met, by `b` at the second, and from any
directions further on. -/
def ByPairs (a b : ℝ × ℝ) : ℕ → Vec ℝ → Vec ℝ → Prop
  | 0, n, ω => ω = cosineSphere a.1 a.2 n
  | 1, n, ω => ω = cosineSphere b.1 b.2 n
  | _, n, ω => AnyAbove n ω

/-- The colours, one for each number of passes, tend to `C`. -/
def ColorsTend (I : ℕ → Color ℝ) (C : Color ℝ) : Prop :=
  Filter.Tendsto (fun N => (I N).R) .atTop (nhds C.R) ∧ Filter.Tendsto (fun N => (I N).G) .atTop (nhds C.G) ∧
    Filter.Tendsto (fun N => (I N).B) .atTop (nhds C.B)

end BR
