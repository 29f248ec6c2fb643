import Verif.Spec.MapMat

/-! The same scene with all light multiplied by a factor. -/

namespace BR

variable {F S : Type} [Add F] [Sub F] [Mul F] [Div F] [Neg F] [GoFloat F]

/-- The same texture with every colour multiplied by `k`. -/
def Tex.brighter (k : F) (tex : Tex F) : Tex F := fun p => (tex p).map fun c => c.mul k

/-- The material that shines `k` times as bright by itself: only flat colours and user functions emit light; how
much is reflected or transmitted does not change. -/
def Mat.brighter (k : F) : Mat F → Mat F
  | .black => .black
  | .flat tex => .flat (Tex.brighter k tex)
  | .matte tex => .matte tex
  | .reflective c => .reflective c
  | .reflectFresnel n under => .reflectFresnel n (under.brighter k)
  | .refractive n1 n2 => .refractive n1 n2
  | .transparent tex b => .transparent tex b
  | .twoSided front back => .twoSided (front.brighter k) (back.brighter k)
  | .blend a matA b matB => .blend a (matA.brighter k) b (matB.brighter k)
  | .blendMap tex matA matB => .blendMap tex (matA.brighter k) (matB.brighter k)
  | .func f => .func fun r h => (f r h).map fun c => c.mul k

/-- The medium with `k` times the ambient light. -/
def Medium.brighter (k : F) : Medium F → Medium F
  | .expFog density ambient height => .expFog density (ambient.mul k) height
  | .fog density height numLight => .fog density height numLight

/-- The light with `k` times the power, and its visible surface `k` times as bright. -/
def Light.brighter (k : F) : Light F → Light F
  | .point pos power => .point pos (power.mul k)
  | .planar w h center totalPower object transf =>
    .planar w h center (totalPower.mul k) (object.mapMat (Mat.brighter k)) transf
  | .transformed forward inverse orig object =>
    .transformed forward inverse (orig.brighter k) (object.mapMat (Mat.brighter k))

/-- The scene with `k` times the light everywhere. -/
def Scene.brighter (k : F) (s : Scene F) : Scene F where
  lights := s.lights.map (Light.brighter k)
  objects := s.objects.map (Obj.mapMat (Mat.brighter k))
  media := s.media.map (Medium.brighter k)
  recursionDepth := s.recursionDepth

/-- What is needed of the arithmetic: the factor `k` can be moved past products and sums, keeps zero, and does not
turn other numbers into zero or NaN. -/
structure Factor (k : F) : Prop where
  mul_left : ∀ a b : F, a * (k * b) = k * (a * b)
  mul_right : ∀ a b : F, k * a * b = k * (a * b)
  add : ∀ a b : F, k * a + k * b = k * (a + b)
  zero : k * lit 0 = (lit 0 : F)
  isZero : ∀ a : F, (k * a ==. lit 0) = (a ==. lit 0)
  isNaN : ∀ a : F, (k * a ==. k * a) = (a ==. a)

end BR
