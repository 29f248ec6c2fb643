import Verif.Model.Camera
import Verif.Model.Scene

/-! Model of `/repo/api/spec.go`, `/repo/api/render.go` and `/repo/api/view.go`: the user's scene
specification, its defaults, the local render loop and the output file names. -/

namespace BR

set_option linter.unusedSectionVars false

variable {F S : Type} [Add F] [Sub F] [Mul F] [Div F] [Neg F] [GoFloat F]

/-- tracer/scene.go:63-70 `ImageFunc`: evaluate the light field for the camera's ray. The camera takes its ray from
the pool; it is put back afterwards. The fuel suffices for non-negative limits (`C12_stops`). -/
def Scene.imageFunc (rng : Rng F S) (s : Scene F) (cam : Cam F) (ctx : Ctx F S) (u v : F) :
    GoM (Color F × Ctx F S) := do
  let (a, ctx) := ctx.takeRay
  let (r, ctx) := cam.rayFrom rng ctx u v
  let (c, ctx) ← s.lightField rng s.recursionDepth.toNat .direct r ctx
  return (c, ctx.putRay a)

/-! ## Specifications -/

/-- api/spec.go:15-32 `Spec`. A nil camera is `none`. `PostProcess` is left out: `InitDefaults` does not touch it. -/
structure Spec (F : Type) where
  lights : List (Light F)
  objects : List (Obj F (Mat F))
  media : List (Medium F)
  camera : Option (Cam F)
  recursion : Int
  numPass : Int
  width : Int
  height : Int
  debugNormals : Int
  debugIsometricFOV : F
  debugIsometricDir : Int

/-- api/spec.go:41-47 `Scene`. -/
def Spec.scene (s : Spec F) : Scene F := ⟨s.lights, s.objects, s.media, s.recursion⟩

/-- api/spec.go:92: the type assertion `o.Interface.(interface{ IsBackdrop() })`. Only `backdrop`
(tracer/objects/backdrop.go:37) has that method. -/
def Obj.isBackdrop {M : Type} : Obj F M → Bool
  | .backdrop _ => true
  | _ => false

/-- tracer/test/test.go:245-250 `checkRay`. -/
def checkRay (r : Ray F) : GoM Unit :=
  if GoFloat.abs (lit 1 - r.dir.len) >. lit (1 / 1024) then .error (.msg "BUG: unnormalized ray dir") else .ok ()

/-- tracer/test/materials.go:39-51 `Normal`. -/
def debugNormal : Mat F := .func fun r h => do
  checkRay r
  let v := h.normal.dot r.dir
  return if v <. lit 0 then (Color.white : Color F).mul (-v) else (⟨lit 1, lit 0, lit 0⟩ : Color F).mul v

/-- tracer/test/materials.go:53-65 `Normal2`. -/
def debugNormal2 : Mat F := .func fun r h => do
  checkRay r
  let v := h.normal.dot r.dir
  let v := if v <. lit 0 then v * lit (-1) else v
  return ((Color.gray (lit (1 / 2))).mul v).add (Color.gray (lit (1 / 2)))

/-- api/spec.go:76-79: the see-through material of `DebugNormals = 2`. -/
def debugBlend : Mat F :=
  .blend (lit (3 / 10)) debugNormal2 (lit (7 / 10)) (.transparent (Color.white : Color F).tex true)

/-- api/spec.go:88-99 `applyMaterial`, one object (`Object.WithMaterial` is api/object.go:146-148). -/
def applyMaterialTo (m : Mat F) (o : Obj F (Mat F)) : Obj F (Mat F) :=
  if o.isBackdrop then .withMaterial (some (.flat (Color.black : Color F).tex)) o else .withMaterial (some m) o

/-- api/spec.go:88-99 `applyMaterial`. -/
def Spec.applyMaterial (m : Mat F) (s : Spec F) : Spec F :=
  { s with objects := s.objects.map (applyMaterialTo m), media := [] }

/-- api/spec.go:57-67 for the image size: `(Width, Height)` to `(Width, Height)`. Go's integer division truncates;
overflow of the products is not modelled. -/
def defaultSize (w h : Int) : Int × Int :=
  let (w, h) := if w = 0 ∧ h = 0 then (960, 540) else (w, h)
  let w := if w = 0 then Int.tdiv (h * 960) 540 else w
  let h := if h = 0 then Int.tdiv (w * 540) 960 else h
  (w, h)

/-- api/spec.go:68-79 (`DebugNormals`). -/
def Spec.applyDebugNormals (s : Spec F) : Spec F :=
  if s.debugNormals = 1 then s.applyMaterial debugNormal
  else if s.debugNormals = 2 then { s.applyMaterial debugBlend with recursion := 20 }
  else s

/-- api/spec.go:54-56, and 80-82 if `DebugIsometricFOV` is set. Creating the default camera never fails with the
field of view 90° of line 55. -/
def Spec.defaultCamera (s : Spec F) : GoM (Spec F) := do
  match s.camera with
  | some _ => return s
  | none => do
    let c ← Cam.projective (lit 90 * Cam.deg)
    return { s with camera := some (c.translate ⟨lit 0, lit 1, lit 0⟩) }

/-- api/spec.go:80-82. -/
def Spec.applyIsometric (s : Spec F) : GoM (Spec F) :=
  if s.debugIsometricFOV ==. lit 0 then .ok s
  else do
    let c ← Cam.isometric s.debugIsometricDir s.debugIsometricFOV
    return { s with camera := some c }

/-- api/spec.go:50-86 `InitDefaults`. -/
def Spec.initDefaults (s : Spec F) : GoM (Spec F) := do
  let s := { s with recursion := if s.recursion = 0 then 1 else s.recursion,
                    numPass := if s.numPass = 0 then 1 else s.numPass }
  let s ← s.defaultCamera
  let s := { s with width := (defaultSize s.width s.height).1, height := (defaultSize s.width s.height).2 }
  let s := s.applyDebugNormals
  let s ← s.applyIsometric
  return { s with recursion := if s.recursion = 0 then 3 else s.recursion }

/-- api/view.go:11-22 `View` (`AntiAlias` is left out: `ApplyTo` does not read it). -/
structure ApiView (F : Type) where
  width : Int
  height : Int
  camPos : Vec F
  camYaw : F
  camPitch : F
  debugNormals : Int
  debugIsometric : Bool
  debugIsometricFOV : F
  debugIsometricDir : Int

/-- api/view.go:23-41 `ApplyTo`. `Transform` of a nil camera gives a camera that panics when it is used; here the
panic is immediate. -/
def ApiView.applyTo (v : ApiView F) (s : Spec F) : GoM (Spec F) := do
  match s.camera with
  | none => .error .nilDeref
  | some c =>
    let s : Spec F := { s with
      width := v.width
      height := v.height
      camera := some (c.transform (Affine.yawPitchRoll v.camYaw v.camPitch (lit 0)).A v.camPos)
      debugNormals := v.debugNormals
      debugIsometricFOV := if v.debugIsometric then v.debugIsometricFOV else lit 0
      debugIsometricDir := if v.debugIsometric then v.debugIsometricDir else 0 }
    s.initDefaults

/-! ## File names -/

/-- Go's `path.Ext` (path/path.go): scan backwards to the last slash or dot. The first argument is the unread part
of the name, reversed, the second the part already scanned. -/
def extLoop : List Char → List Char → List Char
  | [], _ => []
  | c :: rest, suf => if c = '/' then [] else if c = '.' then '.' :: suf else extLoop rest (c :: suf)

/-- Go's `path.Ext`. -/
def pathExt (f : List Char) : List Char := extLoop f.reverse []

/-- api/render.go:122-125 `noExt`. -/
def noExt (f : List Char) : List Char := f.take (f.length - (pathExt f).length)

/-- The image formats of api/render.go:93-100. -/
inductive ImageFormat | png | jpeg
  deriving DecidableEq

/-- api/render.go:88-113 `savef` up to the file system: the format and the name of the file created, or an error. -/
def saveTarget (f suffix : List Char) : Except String (ImageFormat × List Char) :=
  let ext := pathExt f
  let name := noExt f ++ suffix ++ ext
  if ext = ".png".toList then .ok (.png, name)
  else if ext = ".jpg".toList ∨ ext = ".jpeg".toList then .ok (.jpeg, name)
  else .error "unknown image format extension"

/-- api/render.go:76, 85: the name of the PPM file. -/
def ppmName (f : List Char) : List Char := noExt f ++ ".ppm".toList

/-! ## The local render loop -/

/-- What `renderLocal` does to the outside world: sample passes, write the image, write the PPM file. -/
inductive RenderEvent
  | sample (passes : Nat)
  | image
  | ppm
  deriving DecidableEq, Repr

/-- api/render.go:57-81, the loop. `batch + 1` is `passBeforeSave`. `ok log` tells whether the next write succeeds
after `log`; if not, `check` ends the program. The result is what happened and whether the loop ended normally. -/
def renderLoop (ok : List RenderEvent → Bool) (numPass total : Int) (batch : Nat) (log : List RenderEvent) :
    List RenderEvent × Bool :=
  if total < numPass then
    let log := log ++ [.sample (batch + 1)]
    if ok log then
      let log := log ++ [.image]
      if ok log then renderLoop ok numPass (total + (batch + 1)) (batch + 1) (log ++ [.ppm])
      else (log, false)
    else (log, false)
  else (log, true)
termination_by (numPass - total).toNat
decreasing_by omega

/-- api/render.go:50-86 `renderLocal`. -/
def renderLocal (ok : List RenderEvent → Bool) (numPass : Int) : List RenderEvent × Bool :=
  let (log, fine) := renderLoop ok numPass 0 0 []
  if fine then if ok log then (log ++ [.ppm], true) else (log, false)
  else (log, false)

end BR
