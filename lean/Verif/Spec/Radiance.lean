import Verif.Spec.Box
import Verif.Spec.Materials

/-! Specification vocabulary for colours and materials that do not create light. -/

namespace BR

/-- A finite number from 0 to `L`. -/
def Ext.In (L : ℝ) (x : Ext) : Prop := ∃ v, x.Is v ∧ 0 ≤ v ∧ v ≤ L

/-- NaN, or a finite number from 0 to `L`. -/
def Ext.InOrNaN (L : ℝ) (x : Ext) : Prop := x = .nan ∨ x.In L

/-- NaN, or not negative (possibly infinite). -/
def Ext.NonnegOrNaN (x : Ext) : Prop := x = .nan ∨ x = .inf false ∨ ∃ v, x.Is v ∧ 0 ≤ v

/-- A finite positive number. -/
def Ext.Positive (x : Ext) : Prop := ∃ v, x.Is v ∧ 0 < v

/-- A finite number that is not negative. -/
def Ext.Nonneg (x : Ext) : Prop := ∃ v, x.Is v ∧ 0 ≤ v

/-- Every channel of the colour satisfies `P`. -/
def Color.All (P : Ext → Prop) (c : Color Ext) : Prop := P c.R ∧ P c.G ∧ P c.B

/-- Every colour of the texture has all channels satisfying `P`. -/
def Tex.All (P : Ext → Prop) (tex : Tex Ext) : Prop := ∀ p c, tex p = .ok c → c.All P

/-- A material that emits at most `L` and does not amplify light: emitted colours from 0 to `L`,
reflection and transmission factors from 0 to 1, positive refractive indices, weights of blends not negative
and of sum at most 1. -/
def Mat.Passive (L : ℝ) : Mat Ext → Prop
  | .black => True
  | .flat tex => tex.All (Ext.In L)
  | .matte tex => tex.All (Ext.In 1)
  | .reflective c => c.All (Ext.In 1)
  | .reflectFresnel n under => n.Positive ∧ under.Passive L
  | .refractive n1 n2 => n1.Positive ∧ n2.Positive
  | .transparent tex _ => tex.All (Ext.In 1)
  | .twoSided front back => front.Passive L ∧ back.Passive L
  | .blend a matA b matB =>
      (∃ x y, a.Is x ∧ b.Is y ∧ 0 ≤ x ∧ 0 ≤ y ∧ x + y ≤ 1) ∧ matA.Passive L ∧ matB.Passive L
  | .blendMap tex matA matB => tex.All (Ext.In 1) ∧ matA.Passive L ∧ matB.Passive L
  | .func f => ∀ r h c, f r h = .ok c → c.All (Ext.InOrNaN L)

/-- A medium that emits at most `L`. -/
def Medium.Passive (L : ℝ) : Medium Ext → Prop
  | .expFog density ambient _ => density.Nonneg ∧ ambient.All (Ext.In L)
  | .fog density _ _ => density.Nonneg

/-- A material all of whose colours, factors and weights are not negative. Colours may be NaN or
infinite. -/
def Mat.Nonneg : Mat Ext → Prop
  | .black => True
  | .flat tex => tex.All Ext.NonnegOrNaN
  | .matte tex => tex.All Ext.NonnegOrNaN
  | .reflective c => c.All Ext.NonnegOrNaN
  | .reflectFresnel n under => n.Positive ∧ under.Nonneg
  | .refractive n1 n2 => n1.Positive ∧ n2.Positive
  | .transparent tex _ => tex.All Ext.NonnegOrNaN
  | .twoSided front back => front.Nonneg ∧ back.Nonneg
  | .blend a matA b matB => a.NonnegOrNaN ∧ b.NonnegOrNaN ∧ matA.Nonneg ∧ matB.Nonneg
  | .blendMap tex matA matB => tex.All (Ext.In 1) ∧ matA.Nonneg ∧ matB.Nonneg
  | .func f => ∀ r h c, f r h = .ok c → c.All Ext.NonnegOrNaN

/-- As `Mat.Nonneg`, for media. -/
def Medium.Nonneg : Medium Ext → Prop
  | .expFog density ambient _ => density.Nonneg ∧ ambient.All Ext.NonnegOrNaN
  | .fog density _ _ => density.Nonneg

/-- The power of the light is not negative in any channel. -/
def Light.NonnegPower : Light Ext → Prop
  | .point _ power => power.All Ext.NonnegOrNaN
  | .planar _ _ _ totalPower _ _ => totalPower.All Ext.NonnegOrNaN
  | .transformed _ _ orig _ => orig.NonnegPower

end BR
