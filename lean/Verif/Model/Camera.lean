import Verif.Model.Ctx

/-! Model of `/repo/tracer/cameras`. A camera returns a ray taken from the pool of the context and overwritten with
`Ray{}` (see `RayHeap` and C11); here the ray is returned by value. -/

namespace BR

set_option linter.unusedSectionVars false

variable {F : Type} [Add F] [Sub F] [Mul F] [Div F] [Neg F] [GoFloat F]

/-- Cameras without a transformation. -/
inductive BaseCam (F : Type)
  /-- tracer/cameras/projective.go:44-49; `diaphragm` is always `UniformDisk`. -/
  | projective (focalLen focusDist aperture : F)
  /-- isometric.go:9-11 -/
  | isometric (size : F)
  /-- environmentmap.go:23 -/
  | envMap

/-- tracer/cameras/withtransform.go:11-15 `WithTransform`. -/
structure Cam (F : Type) where
  orig : BaseCam F
  pos : Vec F
  matrix : Matrix F

namespace BaseCam

variable {S : Type}

/-- projective.go:63-85 after the position `start` on the lens has been chosen. -/
def projectiveRay (focalLen focusDist : F) (start : Vec F) (u v : F) : Ray F :=
  let stop : Vec F := ⟨-(u - lit (1 / 2)), v - lit (1 / 2), focalLen⟩
  let stop := if focusDist ==. lit 0 then stop else stop.mul focusDist
  ⟨start, (stop.sub start).normalized⟩

/-- The position on the lens for a lens sample, projective.go:69-72. -/
def lensPoint (aperture : F) (s : F × F) : Vec F :=
  let d := uniformDisk s.1 s.2
  ⟨lit 0 + d.1 * aperture, lit 0 + d.2 * aperture, lit 0⟩

/-- `RayFrom` of the three cameras: projective.go:63-85, isometric.go:35-42, environmentmap.go:26-38. -/
def rayFrom (rng : Rng F S) : BaseCam F → Ctx F S → F → F → Ray F × Ctx F S
  | .projective focalLen focusDist aperture, ctx, u, v =>
    if aperture >. lit 0 then
      let (s, ctx) := ctx.generateLens rng
      (projectiveRay focalLen focusDist (lensPoint aperture s) u v, ctx)
    else (projectiveRay focalLen focusDist ⟨lit 0, lit 0, lit 0⟩ u v, ctx)
  | .isometric s, ctx, u, v =>
    (⟨⟨(u - lit (1 / 2)) * s, (v - lit (1 / 2)) * s, lit 4096⟩, ⟨lit 0, lit 0, lit (-1)⟩⟩, ctx)
  | .envMap, ctx, u, v =>
    let phi := -u * lit 2 * GoFloat.pi
    let theta := (v - lit (1 / 2)) * GoFloat.pi
    (⟨⟨lit 0, lit 0, lit 0⟩,
      ⟨GoFloat.sin phi * GoFloat.cos theta, GoFloat.sin theta, GoFloat.cos phi * GoFloat.cos theta⟩⟩, ctx)

/-- withtransform.go:26-39 `Transform` of a camera that is not a `WithTransform`. -/
def transform (c : BaseCam F) (rotate : Matrix F) (translate : Vec F) : Cam F := ⟨c, translate, rotate⟩

end BaseCam

namespace Cam

variable {S : Type}

/-- withtransform.go:26-39 `Transform` of a camera that is a `WithTransform`. -/
def transform (c : Cam F) (rotate : Matrix F) (translate : Vec F) : Cam F :=
  ⟨c.orig, translate.add c.pos, rotate.mul c.matrix⟩

/-- withtransform.go:42-47 `RayFrom`. -/
def rayFrom (rng : Rng F S) (c : Cam F) (ctx : Ctx F S) (u v : F) : Ray F × Ctx F S :=
  let (r, ctx) := c.orig.rayFrom rng ctx u v
  (⟨(c.matrix.mulVec r.start).add c.pos, c.matrix.mulVec r.dir⟩, ctx)

/-- withtransform.go:52-54 and 75-77 `Translate`. -/
def translate (c : Cam F) (delta : Vec F) : Cam F := c.transform .unit delta

/-- withtransform.go:59-61 and 81-83 `YawPitchRoll`. -/
def yawPitchRoll (c : Cam F) (yaw pitch roll : F) : Cam F :=
  c.transform (Affine.yawPitchRoll yaw pitch roll).A ⟨lit 0, lit 0, lit 0⟩

/-- projective.go:55-60 `fovToFocalLen`. -/
def fovToFocalLen (fov : F) : GoM F :=
  if fov <=. lit 0 || fov >=. GoFloat.pi then .error (.msg "camera: invalid field-of-view")
  else .ok (lit (1 / 2) / GoFloat.tan (fov / lit 2))

/-- geom/util.go:9-10 `Deg`, π/180. Go computes constant expressions such as `180*Deg` exactly; here they are computed
in `F`, which is the same in exact arithmetic. -/
def deg : F := GoFloat.pi / lit 180

/-- projective.go:27-42 `ProjectiveAperture`. -/
def projectiveAperture (fov aperture focusDist : F) : GoM (Cam F) := do
  let focusDist := if aperture ==. lit 0 && focusDist ==. lit 0 then lit 1 else focusDist
  let focalLen ← fovToFocalLen fov
  return (BaseCam.projective focalLen focusDist aperture).transform
    (Affine.yawPitchRoll (lit 180 * deg) (lit 0) (lit 0)).A ⟨lit 0, lit 0, lit 0⟩

/-- projective.go:14-16 `Projective`. -/
def projective (fov : F) : GoM (Cam F) := projectiveAperture fov (lit 0) (lit 1)

/-- isometric.go:20-32 `Isometric`. -/
def isometric (dir : Int) (size : F) : GoM (Cam F) :=
  let c := BaseCam.isometric size
  if dir = 0 then .ok (c.transform (Affine.yawPitchRoll (lit 90 * deg) (lit 0) (lit 0)).A ⟨lit 0, lit 0, lit 0⟩)
  else if dir = 1 then .ok (c.transform (Affine.yawPitchRoll (lit 0) (lit (-90) * deg) (lit 0)).A ⟨lit 0, lit 0, lit 0⟩)
  else if dir = 2 then .ok (c.transform (Affine.yawPitchRoll (lit 0) (lit 0) (lit 0)).A ⟨lit 0, lit 0, lit 0⟩)
  else .error (.msg "NewIsoMetric: dir must be 0,1, or 2")

/-- environmentmap.go:19-21 `EnvironmentMap`. -/
def environmentMap : Cam F := BaseCam.envMap.transform .unit ⟨lit 0, lit 0, lit 0⟩

end Cam

end BR
