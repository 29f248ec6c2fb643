import Verif.Model.Construct
import Verif.Model.Color
import Verif.Model.Ctx

/-! Model of `/repo/tracer/scene.go`, `/repo/tracer/materials`, `/repo/tracer/lights` and
`/repo/tracer/media`.

`Shade`, `Filter` and `LightField` call each other through interfaces. Here materials and media
are abstract syntax, `Mat.shade` and `Medium.filter` receive the light field as a parameter, and
`Scene.lightField` ties the knot. Go's recursion is unbounded; `fuel` bounds the nesting depth
in the model, and running out of it is reported as `diverge`.

The random numbers come from `Rng` and the sequences in `Ctx`, both threaded explicitly. -/

namespace BR

variable {F S : Type} [Add F] [Sub F] [Mul F] [Div F] [Neg F] [GoFloat F]

/-- texture/texture.go `Texture`: a colour for each local position. -/
abbrev Tex (F : Type) := Vec F → GoM (Color F)

/-- texture/texture.go: a `Color` used as a texture. -/
def Color.tex (c : Color F) : Tex F := fun _ => .ok c

/-- tracer/interfaces.go:75-79 `HitCoords`. -/
structure HitCoords (F : Type) where
  t : F
  normal : Vec F
  loc : Vec F

/-- tracer/interfaces.go:64-72 `Material`: the implementations in package materials, and the
`black` of scene.go:156-168. `func` stands for a user's `materials.Func` that evaluates no
further rays (for example test.Normal, used by DebugNormals). -/
inductive Mat (F : Type)
  | black
  | flat (tex : Tex F)
  | matte (tex : Tex F)
  | reflective (c : Color F)
  | reflectFresnel (n : F) (under : Mat F)
  | refractive (n1 n2 : F)
  | transparent (tex : Tex F) (useRec : Bool)
  | twoSided (front back : Mat F)
  | blend (a : F) (matA : Mat F) (b : F) (matB : Mat F)
  | blendMap (tex : Tex F) (matA matB : Mat F)
  | func (f : Ray F → HitCoords F → GoM (Color F))

/-- A computation using the context. -/
abbrev CtxM (F S α : Type) := Ctx F S → GoM (α × Ctx F S)

/-- tracer/interfaces.go:44-61 `Light`: package lights. -/
inductive Light (F : Type)
  /-- pointlight.go:11-14 -/
  | point (pos : Vec F) (power : Color F)
  /-- planar.go:56-63; `restrict` is not used after construction -/
  | planar (w h : F) (center : Vec F) (totalPower : Color F) (object : Obj F (Mat F))
      (transfSample : F → F → F × F)
  /-- transformed.go:33-38 -/
  | transformed (forward inverse : Affine F) (orig : Light F) (object : Obj F (Mat F))

namespace Light

/-- pointlight.go:20-26, planar.go:120-122, transformed.go:40-42 `Object`. -/
def object : Light F → Obj F (Mat F)
  | .point _ _ => .prim (fun _ => .ok HitRecord.miss) (fun _ => .ok false) ⟨Vec.zero, Vec.zero⟩
  | .planar _ _ _ _ object _ => object
  | .transformed _ _ _ object => object

/-- planar.go:97-99 `samplePos`. -/
def samplePos (w h : F) (center : Vec F) (transfSample : F → F → F × F) (uv : F × F) : Vec F :=
  let xy := transfSample uv.1 uv.2
  (⟨(lit (1 / 2) * xy.1) * w, tiny, (lit (1 / 2) * xy.2) * h⟩ : Vec F).add center

/-- planar.go:86-94: intensity factor at `target` from the sample position `p`. -/
def planarIntensity (target p : Vec F) : F :=
  let n : Vec F := ⟨lit 0, lit (-1), lit 0⟩
  let delta := target.sub p
  let cosTheta := n.dot delta.normalized
  let i := (lit 1 / GoFloat.pi) / delta.len2 * cosTheta
  if i <. lit 0 then lit 0 else i

/-- pointlight.go:17. -/
def pointIntensity (target pos : Vec F) : F := (lit 1 / (lit 4 * GoFloat.pi)) / (target.sub pos).len2

/-- pointlight.go:16-18, planar.go:84-95, transformed.go:44-49 `Sample`. -/
def sample (rng : Rng F S) : Light F → Vec F → CtxM F S (Vec F × Color F)
  | .point pos power, target, ctx => .ok ((pos, power.mul (pointIntensity target pos)), ctx)
  | .planar w h center totalPower _ transfSample, target, ctx => do
    let (uv, ctx) ← ctx.generate2 rng
    let p := samplePos w h center transfSample uv
    return ((p, totalPower.mul (planarIntensity target p)), ctx)
  | .transformed forward inverse orig _, target, ctx => do
    let ((tpos, bright), ctx) ← orig.sample rng (inverse.point target) ctx
    return ((forward.point tpos, bright), ctx)

/-- planar.go:136-138 `transfRect`. -/
def transfRect (u v : F) : F × F := (lit 2 * u - lit 1, lit 2 * v - lit 1)

/-- planar.go:65-82 `planarLight` (`restrict` nil is replaced by `allSpace`). -/
def mkPlanar (Srt : Sorter (Obj F (Mat F))) (brightness : Color F) (w h : F) (center : Vec F)
    (relSurf : F) (restrict : Option (Obj F (Mat F))) (transfSample : F → F → F × F) :
    GoM (Light F) := do
  let mat : Mat F := .twoSided (.flat brightness.tex) (.flat (⟨lit 0, lit 0, lit 0⟩ : Color F).tex)
  let rect ← rectangle Srt (some mat) w h center
  return .planar w h center (brightness.mul (w * h * relSurf)) (.restrict rect (restrict.getD .allSpace))
    transfSample

/-- planar.go:11-13 `RectangleLight`. -/
def rectangleLight (Srt : Sorter (Obj F (Mat F))) (brightness : Color F) (w h : F) (center : Vec F) :
    GoM (Light F) := mkPlanar Srt brightness w h center (lit 1) none transfRect

/-- planar.go:15-18 `DiskLight`. -/
def diskLight (Srt : Sorter (Obj F (Mat F))) (brightness : Color F) (diam : F) (center : Vec F) :
    GoM (Light F) :=
  mkPlanar Srt brightness diam diam center (GoFloat.pi / lit 4)
    (some (Obj.cylinder none diam GoFloat.inf center)) uniformDisk

/-- transformed.go:23-31 `Transformed`: panics unless the light's object is an
`objects.Interface`, which that of a point light is not. -/
def mkTransformed (l : Light F) (t : Affine F) : GoM (Light F) :=
  match l with
  | .point _ _ => .error .typeAssertion
  | l => do
    let object ← l.object.mkTransformed t
    return .transformed t t.inverse l object

/-- planar.go:36-53 `SunLight`. -/
def sunLight (Srt : Sorter (Obj F (Mat F))) (brightnessAtEarth : Color F) (angularDiam yaw pitch : F) :
    GoM (Light F) := do
  let r : F := lit (10 ^ 6)
  let bright2 := brightnessAtEarth.mul (lit 4 / (angularDiam * angularDiam))
  let disk ← diskLight Srt bright2 (angularDiam * r) Vec.zero
  let transf := Affine.composeLR
    [Affine.rotate Vec.zero Vec.ex (lit (-90) * (GoFloat.pi / lit 180)),
     Affine.translate ⟨lit 0, lit 0, -r⟩,
     Affine.rotate Vec.zero Vec.ex pitch,
     Affine.rotate Vec.zero Vec.ey yaw]
  disk.mkTransformed transf

end Light

/-- tracer/interfaces.go `Medium`: package media. -/
inductive Medium (F : Type)
  /-- expfog.go:18-22 -/
  | expFog (density : F) (ambient : Color F) (height : F)
  /-- fog.go:17-21 -/
  | fog (density height : F) (numLight : Int)

/-- scene.go:13-20 `Scene`. `objectsAndLights` and `objectsMinusLights` are computed from the
other fields, as `NewScene` does (lines 24-41). -/
structure Scene (F : Type) where
  lights : List (Light F)
  objects : List (Obj F (Mat F))
  media : List (Medium F)
  recursionDepth : Int

namespace Scene

/-- scene.go:29-33 `objAndLights`. -/
def objectsAndLights (s : Scene F) : List (Obj F (Mat F)) := s.objects ++ s.lights.map Light.object

/-- scene.go:29-33 `objMinusLights`: lights are wrapped in `black` (156-164), which replaces the
material of every record. -/
def objectsMinusLights (s : Scene F) : List (Obj F (Mat F)) :=
  s.objects ++ s.lights.map fun l => .withMaterial (some .black) l.object

end Scene

/-- scene.go:138: the record used when nothing is hit. -/
def frontDefault (r : Ray F) : HitRecord F (Mat F) := ⟨GoFloat.inf, r.dir, Vec.zero, some .black⟩

/-- scene.go:142-150, the loop over objects. -/
def intersectLoop : List (Obj F (Mat F)) → HitRecord F (Mat F) → Ray F →
    GoM (HitRecord F (Mat F) × Ray F)
  | [], front, r => .ok (front, r)
  | o :: os, front, r => do
    let (hit, r) ← o.intersect r
    intersectLoop os (if hit.t >. lit 0 && hit.t <=. front.t then hit else front) r

/-- scene.go:137-152 `intersectFrontmost`. -/
def intersectFrontmost (objs : List (Obj F (Mat F))) (r : Ray F) : GoM (HitRecord F (Mat F) × Ray F) :=
  intersectLoop objs (frontDefault r) r

/-- The type assertion and call of scene.go:124-125: the filtered colour if the material is a
`TransparentMaterial` (transparent.go:32-34), nil and all other materials are not. -/
def Mat.filter? : Option (Mat F) → Option (Vec F → Color F → GoM (Color F))
  | some (.transparent tex _) => some fun loc background => do return background.mul3 (← tex loc)
  | _ => none

/-- scene.go:120-132 `Occlude`, the loop. -/
def occludeLoop : List (Obj F (Mat F)) → F → Color F → Ray F → GoM (Color F × Ray F)
  | [], _, orig, r => .ok (orig, r)
  | o :: os, len, orig, r => do
    let (f, r) ← o.intersect r
    if f.t >. lit 0 && f.t <. len then
      match Mat.filter? f.mat with
      | some flt => do
        let c ← flt f.loc orig
        occludeLoop os len c r
      | none => return (Color.black, r)
    else occludeLoop os len orig r

/-- scene.go:120-132 `Occlude`. -/
def Scene.occlude (s : Scene F) (r : Ray F) (len : F) (orig : Color F) : GoM (Color F × Ray F) :=
  occludeLoop s.objects len orig r

/-- Which scene objects a light field sees: `LightField` or `LightFieldIndirect`. -/
inductive Field | direct | indirect
  deriving DecidableEq

/-- scene.go:74-83: the objects seen. -/
def Scene.seen (s : Scene F) : Field → List (Obj F (Mat F))
  | .direct => s.objectsAndLights
  | .indirect => s.objectsMinusLights

/-- The light field as seen by materials and media. -/
abbrev LF (F S : Type) := Field → Ray F → CtxM F S (Color F)

/-- ctx.go:103-115 with the pool of ray addresses: take a ray. -/
def Ctx.takeRay (c : Ctx F S) : Nat × Ctx F S :=
  let (a, p) := c.rays.get
  (a, { c with rays := p })

/-- ctx.go:112-115 `PutRay`. -/
def Ctx.putRay (c : Ctx F S) (a : Nat) : Ctx F S := { c with rays := c.rays.put a }

/-- Evaluate the light field for a ray taken from the pool and put back afterwards
(the pattern of reflective.go:26-30, refractive.go:47-51, transparent.go:23-28). -/
def withRay (lf : LF F S) (fld : Field) (r : Ray F) : CtxM F S (Color F) := fun ctx => do
  let (a, ctx) := ctx.takeRay
  let (c, ctx) ← lf fld r ctx
  return (c, ctx.putRay a)

/-- materials/matte.go:101-106 `flipTowards`. -/
def flipTowards (n d : Vec F) : Vec F := if n.dot d >. lit 0 then n.mul (lit (-1)) else n

/-- materials/reflective.go:81-83 `reflect`. -/
def reflect (v n : Vec F) : Vec F := v.madd (lit (-2) * v.dot n) n

/-- materials/reflective.go:63-70 `fresnelReflection`. -/
def fresnelReflection (n1 n2 cosi : F) : F :=
  let n12 := n1 / n2
  let sin2t := n12 * n12 * (lit 1 - cosi * cosi)
  let cost := GoFloat.sqrt (lit 1 - sin2t)
  let Rp := sqr ((n1 * cosi - n2 * cost) / (n1 * cosi + n2 * cost))
  let Rs := sqr ((n1 * cost - n2 * cosi) / (n1 * cost + n2 * cosi))
  lit (1 / 2) * (Rp + Rs)

/-- Go's `intens == (Color{})`. -/
def Color.isZero (c : Color F) : Bool := c.R ==. lit 0 && c.G ==. lit 0 && c.B ==. lit 0

/-- materials/matte.go:62-86: the loop over the lights. `occl` is `s.Occlude`. -/
def directLoop (rng : Rng F S) (occl : Ray F → F → Color F → GoM (Color F × Ray F)) (p normal : Vec F) :
    List (Light F) → Color F → CtxM F S (Color F)
  | [], acc, ctx => .ok (acc, ctx)
  | l :: ls, acc, ctx => do
    let ((lpos, intens), ctx) ← l.sample rng p ctx
    if intens.isZero then directLoop rng occl p normal ls acc ctx
    else
      let lDelta := lpos.sub p
      let lDir := lDelta.normalized
      let cosTheta := lDir.dot normal
      if cosTheta <=. lit 0 then directLoop rng occl p normal ls acc ctx
      else do
        let (intens, _) ← occl ⟨p, lDir⟩ lDelta.len intens
        directLoop rng occl p normal ls (acc.add (intens.mul cosTheta)) ctx

/-- materials/matte.go:54-97 `matte.Shade`. The secondary ray's start is `p` during the loop
(no object modifies the ray permanently, `C15_ray_unchanged`). -/
def shadeMatte (rng : Rng F S) (s : Scene F) (lf : LF F S) (tex : Tex F) (r : Ray F) (h : HitCoords F) :
    CtxM F S (Color F) := fun ctx => do
  let normal := flipTowards h.normal r.dir
  let (a, ctx) := ctx.takeRay
  let p := (r.at h.t).madd tiny normal
  let (acc, ctx) ← directLoop rng s.occlude p normal s.lights Color.black ctx
  let start := p.madd tiny normal
  let (uv, ctx) ← ctx.generate2 rng
  let (c, ctx) ← lf .indirect ⟨start, cosineSphere uv.1 uv.2 normal⟩ ctx
  let acc := acc.add c
  let ctx := ctx.putRay a
  let refl ← tex h.loc
  return (acc.mul3 refl, ctx)

/-- The geometry computed by materials/refractive.go:30-43: normal, incident direction, indices,
cosine of incidence and squared sine of transmission. -/
def refractGeom (n1 n2 : F) (dir normal : Vec F) : Vec F × Vec F × F × F × F × F :=
  let n := normal.normalized
  let i := dir.normalized
  let (n, n1, n2) := if i.dot n >. lit 0 then (n.mul (lit (-1)), n2, n1) else (n, n1, n2)
  let n12 := n1 / n2
  let cosi := -i.dot n
  let sin2t := n12 * n12 * (lit 1 - cosi * cosi)
  (n, i, n1, n2, cosi, sin2t)

/-- The reflectance `R` of materials/refractive.go:54-59. -/
def refractR (n1 n2 cosi sin2t : F) : F :=
  let cost := GoFloat.sqrt (lit 1 - sin2t)
  let Rp := sqr ((n1 * cosi - n2 * cost) / (n1 * cosi + n2 * cost))
  let Rs := sqr ((n1 * cost - n2 * cosi) / (n1 * cost + n2 * cosi))
  lit (1 / 2) * (Rp + Rs)

/-- The transmitted direction, materials/refractive.go:64. -/
def refractDir (n12 cosi sin2t : F) (i n : Vec F) : Vec F :=
  (i.mul n12).madd (n12 * cosi - GoFloat.sqrt (lit 1 - sin2t)) n

/-- materials/refractive.go:28-79 `refractive.Shade`. The deferred `PutRay`s run in reverse order
at the end. -/
def shadeRefractive (lf : LF F S) (n1 n2 : F) (r : Ray F) (h : HitCoords F) : CtxM F S (Color F) :=
  fun ctx =>
  let (n, i, n1, n2, cosi, sin2t) := refractGeom n1 n2 r.dir h.normal
  if sin2t >. lit 1 then
    withRay lf .direct ⟨r.at (h.t - tiny), reflect r.dir h.normal⟩ ctx
  else do
    let R := refractR n1 n2 cosi sin2t
    let T := lit 1 - R
    let (a2, ctx) := ctx.takeRay
    let (cT, ctx) ← lf .direct ⟨r.at (h.t + tiny), refractDir (n1 / n2) cosi sin2t i n⟩ ctx
    let (a3, ctx) := ctx.takeRay
    let (cR, ctx) ← lf .direct ⟨r.at (h.t - tiny), reflect i n⟩ ctx
    return ((cR.mul R).add (cT.mul T), (ctx.putRay a3).putRay a2)

/-- materials/blend.go:13-19: `ca` or `cb`, evaluated only if its key is positive. -/
def whenPos (key : F) (m : CtxM F S (Color F)) : CtxM F S (Color F) := fun ctx =>
  if key >. lit 0 then m ctx else .ok (Color.black, ctx)

/-- The `Shade` methods of package materials and of `black` (scene.go:166-168). -/
def Mat.shade (rng : Rng F S) (s : Scene F) (lf : LF F S) : Mat F → Ray F → HitCoords F →
    CtxM F S (Color F)
  | .black, _, _, ctx => .ok (Color.black, ctx)
  /- materials/flat.go:18-20 -/
  | .flat tex, _, h, ctx => do return (← tex h.loc, ctx)
  | .matte tex, r, h, ctx => shadeMatte rng s lf tex r h ctx
  /- materials/reflective.go:24-31 -/
  | .reflective c, r, h, ctx => do
    let (col, ctx) ← withRay lf .direct ⟨r.at (h.t - tiny), reflect r.dir h.normal⟩ ctx
    return (col.mul3 c, ctx)
  /- materials/reflective.go:50-61 -/
  | .reflectFresnel n under, r, h, ctx => do
    let (a, ctx) := ctx.takeRay
    let R := fresnelReflection (lit 1) n (GoFloat.abs (h.normal.dot r.dir))
    let T := lit 1 - R
    let (tr, ctx) ← under.shade rng s lf r h ctx
    let (refl, ctx) ← lf .direct ⟨r.at (h.t - tiny), reflect r.dir h.normal⟩ ctx
    return ((refl.mul R).madd T tr, ctx.putRay a)
  | .refractive n1 n2, r, h, ctx => shadeRefractive lf n1 n2 r h ctx
  /- materials/transparent.go:21-30 (`useRec` is not read) -/
  | .transparent tex _, r, h, ctx => do
    let (a, ctx) := ctx.takeRay
    let (col, ctx) ← lf .indirect ⟨r.at (h.t + tiny), r.dir⟩ ctx
    let f ← tex h.loc
    return (col.mul3 f, ctx.putRay a)
  /- materials/twosided.go:17-23 -/
  | .twoSided front back, r, h, ctx =>
    if r.dir.dot h.normal >. lit 0 then front.shade rng s lf r h ctx else back.shade rng s lf r h ctx
  /- materials/blend.go:49-53 -/
  | .blend a matA b matB, r, h, ctx => do
    let (ca, ctx) ← matA.shade rng s lf r h ctx
    let (cb, ctx) ← matB.shade rng s lf r h ctx
    return ((ca.mul a).madd b cb, ctx)
  /- materials/blend.go:9-22 -/
  | .blendMap tex matA matB, r, h, ctx => do
    let col ← tex h.loc
    let key1 := col.R
    let key2 := lit 1 - key1
    let (ca, ctx) ← whenPos key1 (matA.shade rng s lf r h) ctx
    let (cb, ctx) ← whenPos key2 (matB.shade rng s lf r h) ctx
    return ((ca.mul key1).madd key2 cb, ctx)
  | .func f, r, h, ctx => do return (← f r h, ctx)

/-! ## Media -/

/-- media/expfog.go:40-47 `intersectIntervals`. -/
def intersectIntervals (start1 end1 start2 end2 : F) : F × F :=
  let start := fmax start1 start2
  let stop := fmin end1 end2
  if !(stop >. start) then (lit 0, lit 0) else (start, stop)

/-- media/expfog.go:49-58 `intersectHalfSpace`. -/
def intersectHalfSpace (height : F) (r : Ray F) : F × F :=
  let rs := r.start.y - height
  let rd := r.dir.y
  let ten := -rs / rd
  let tex := -r.dir.y / lit 0
  if ten >. tex then (tex, ten) else (ten, tex)

/-- The interval of the ray inside the fog, expfog.go:32-33 and fog.go:28-29. -/
def fogInterval (height : F) (r : Ray F) (tMax : F) : F × F :=
  let (ten, tex) := intersectHalfSpace height r
  intersectIntervals (lit 0) tMax ten tex

/-- media/fog.go:70-75 `randExpInterval`. -/
def randExpInterval (rand density max : F) : F × F :=
  let y := rand
  let N := lit 1 / (lit 1 - GoFloat.exp (-density * max))
  let t := lit (-1) / density * GoFloat.log (lit 1 - y / N)
  (t, lit 1 / N)

/-- media/fog.go:40-57: the loop over the lights; `n` is `m.numLight - i`. -/
def fogLoop (rng : Rng F S) (occl : Ray F → F → Color F → GoM (Color F × Ray F)) (p : Vec F) (weight : F) :
    Int → List (Light F) → Color F → CtxM F S (Color F)
  | _, [], acc, ctx => .ok (acc, ctx)
  | n, l :: ls, acc, ctx =>
    if n = 0 then .ok (acc, ctx)
    else do
      let ((lpos, intens), ctx) ← l.sample rng p ctx
      if intens.isZero then fogLoop rng occl p weight (n - 1) ls acc ctx
      else do
        let lDelta := lpos.sub p
        let (intens, _) ← occl ⟨p, lDelta.normalized⟩ lDelta.len intens
        fogLoop rng occl p weight (n - 1) ls (acc.madd weight intens) ctx

/-- media/fog.go:31-61: `Filter` of `fog` after the interval `start` to `stop` of the ray inside the fog is known. -/
def fogScatter (rng : Rng F S) (s : Scene F) (density : F) (numLight : Int) (r : Ray F) (start stop : F) (orig : Color F) :
    CtxM F S (Color F) := fun ctx => do
  let len := stop - start
  let (uv, ctx) ← ctx.generate2 rng
  let (tSampl, weight) := randExpInterval uv.1 density len
  let t := start + tSampl
  let p := r.at (t - tiny)
  let (a, ctx) := ctx.takeRay
  let (acc, ctx) ← fogLoop rng s.occlude p weight numLight s.lights Color.black ctx
  let trans := GoFloat.exp (-len * density)
  return ((orig.mul trans).add acc, ctx.putRay a)

/-- The `Filter` methods of package media. -/
def Medium.filter (rng : Rng F S) (s : Scene F) : Medium F → Ray F → F → Color F → CtxM F S (Color F)
  /- media/expfog.go:25-38 -/
  | .expFog density ambient height, r, tMax, orig, ctx => do
    if !(← ctx.isInitial) then return (orig, ctx)
    let (start, stop) := fogInterval height r tMax
    let len := stop - start
    if !(len >=. lit 0) then throw (.msg "assertion failed")
    let trans := GoFloat.exp (-len * density)
    return ((orig.mul trans).madd (lit 1 - trans) ambient, ctx)
  /- media/fog.go:24-62 -/
  | .fog density height numLight, r, tMax, orig, ctx => do
    if !(← ctx.isInitial) then return (orig, ctx)
    let (start, stop) := fogInterval height r tMax
    fogScatter rng s density numLight r start stop orig ctx

/-- scene.go:104-106: apply the media in order. -/
def mediaLoop (rng : Rng F S) (s : Scene F) (r : Ray F) (t : F) :
    List (Medium F) → Color F → CtxM F S (Color F)
  | [], c, ctx => .ok (c, ctx)
  | m :: ms, c, ctx => do
    let (c, ctx) ← m.filter rng s r t c ctx
    mediaLoop rng s r t ms c ctx

/-- scene.go:98-102: shade the front record; a nil material panics. -/
def shadeFront (rng : Rng F S) (s : Scene F) (lf : LF F S) (front : HitRecord F (Mat F)) (r : Ray F) :
    CtxM F S (Color F) := fun ctx =>
  match front.mat with
  | none => .error .nilDeref
  | some m => m.shade rng s lf r ⟨front.t, front.normal.normalized, front.loc⟩ ctx

/-- scene.go:86-110 `lightField` (and 74-83), statistics omitted. `fuel` bounds the nesting;
`base` is what happens beyond it. -/
def Scene.lightFieldFrom (rng : Rng F S) (s : Scene F) (base : LF F S) : Nat → LF F S
  | fuel, fld, r, ctx =>
    if s.recursionDepth = ctx.depth then .ok (Color.black, ctx)
    else
      match fuel with
      | 0 => base fld r ctx
      | fuel + 1 => do
        let ctx := { ctx with depth := ctx.depth + 1 }
        let (front, r) ← intersectFrontmost (s.seen fld) r
        let (c, ctx) ← shadeFront rng s (s.lightFieldFrom rng base fuel) front r ctx
        let (c, ctx) ← mediaLoop rng s r front.t s.media c ctx
        return (c, { ctx with depth := ctx.depth - 1 })

/-- The light field when at most `fuel` nested evaluations are allowed: more are reported as
`diverge`. `C12_stops` shows that `recursionDepth` many are enough. -/
def Scene.lightField (rng : Rng F S) (s : Scene F) (fuel : Nat) : LF F S :=
  s.lightFieldFrom rng (fun _ _ _ => .error .diverge) fuel

end BR
