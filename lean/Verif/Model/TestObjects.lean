import Verif.Model.Api

/-! Model of `/repo/tracer/test/objects.go`: the simple ball, sheet and lamp that the tests of the program are built from. -/

namespace BR

set_option linter.unusedSectionVars false

variable {F M : Type} [Add F] [Sub F] [Mul F] [Div F] [Neg F] [GoFloat F]

/-- tracer/test/objects.go:10-29 `Sheet` and its `Intersect`. -/
def testSheet (m : Option M) (height : F) (r : Ray F) : HitRecord F M :=
  let origin : Vec F := ⟨lit 0, height, lit 0⟩
  let rs := (r.start.sub origin).y
  let rd := r.dir.y
  let t := (-rs) / rd
  if t <. lit 0 || t ==. GoFloat.inf then HitRecord.miss
  else
    let p := r.at t
    ⟨t, ⟨lit 0, lit 1, lit 0⟩, ⟨p.x, p.z, lit 0⟩, m⟩

/-- tracer/test/objects.go:31-69 `Sphere` and its `Intersect`. -/
def testSphere (m : Option M) (diam : F) (origin : Vec F) (r : Ray F) : GoM (HitRecord F M) := do
  checkRay r
  let radius := diam / lit 2
  let r2 := radius * radius
  let v := r.start.sub origin
  let d := r.dir
  let vd := v.dot d
  let D := vd * vd - (v.len2 - r2)
  if D <. lit 0 then return HitRecord.miss
  let sqrtD := GoFloat.sqrt D
  let t1 := -vd - sqrtD
  let t2 := -vd + sqrtD
  let t := if t1 <. lit 0 then t2 else t1
  if t >. lit 0 then
    let n := (r.at t).sub origin
    return ⟨t, n, (r.at t).sub origin, m⟩
  return HitRecord.miss

/-- tracer/test/objects.go:91-93 `Sample` of `PointLight`: where the light comes from; the colour is white. -/
def testLampFrom (pos dst : Vec F) : Vec F := pos.madd (-(lit (101 / 1000))) (pos.sub dst).normalized

end BR
