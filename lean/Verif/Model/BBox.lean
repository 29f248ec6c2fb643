import Verif.Model.Geom

/-! Model of `/repo/tracer/objects/boundingbox.go`, the box functions of `tree.go` and
`transformed.go`. -/

namespace BR

variable {F : Type} [Add F] [Sub F] [Mul F] [Div F] [Neg F] [GoFloat F]

/-- tracer/objects/boundingbox.go:10-14 `BoundingBox`. -/
@[ext] structure BBox (F : Type) where
  min : Vec F
  max : Vec F

namespace BBox

/-- tracer/objects/boundingbox.go:23-25: `if v[i] < Min[i] { Min[i] = v[i] }`. -/
def lower (m v : F) : F := if v <. m then v else m

/-- tracer/objects/boundingbox.go:26-28: `if v[i] > Max[i] { Max[i] = v[i] }`. -/
def upper (m v : F) : F := if v >. m then v else m

/-- tracer/objects/boundingbox.go:20-30, one iteration of the loop over the hull
(the loop over `i` is unrolled). -/
def hullStep (b : BBox F) (v : Vec F) : GoM (BBox F) := do
  checkNaNVec v
  return ⟨⟨lower b.min.x v.x, lower b.min.y v.y, lower b.min.z v.z⟩,
    ⟨upper b.max.x v.x, upper b.max.y v.y, upper b.max.z v.z⟩⟩

/-- tracer/objects/boundingbox.go:16-34 `boundingBoxFromHull`. `hull[0]` panics if empty. -/
def fromHull (hull : List (Vec F)) : GoM (BBox F) :=
  match hull with
  | [] => .error .indexOutOfRange
  | v0 :: _ => do
    let b ← hull.foldlM hullStep ⟨v0, v0⟩
    checkNaNVec b.min
    checkNaNVec b.max
    return b

/-- tracer/objects/boundingbox.go:36-42 `translated`. -/
def translated (b : BBox F) (delta : Vec F) : BBox F := ⟨b.min.add delta, b.max.add delta⟩

/-- tracer/objects/boundingbox.go:44-51 `withMargin`. -/
def withMargin (b : BBox F) (delta : F) : BBox F :=
  ⟨b.min.add ⟨-delta, -delta, -delta⟩, b.max.add ⟨delta, delta, delta⟩⟩

/-- tracer/objects/boundingbox.go:53 `Size` (`Dx`, `Dy`, `Dz` of lines 54-56 are its components). -/
def size (b : BBox F) : Vec F := b.max.sub b.min

/-- tracer/objects/boundingbox.go:58-63 `inside`. -/
def inside (b : BBox F) (p : Vec F) : Bool :=
  p.x >. b.min.x && p.x <. b.max.x &&
  p.y >. b.min.y && p.y <. b.max.y &&
  p.z >. b.min.z && p.z <. b.max.z

/-- One component of tracer/objects/boundingbox.go:93-102 `safeAverage`
(`math.IsInf(a, -1)` is `a == -Inf`). -/
def safeAvg (a b : F) : F :=
  if a ==. -GoFloat.inf && b ==. GoFloat.inf then lit 0 else lit (1 / 2) * (a + b)

/-- tracer/objects/boundingbox.go:93-102 `safeAverage`. -/
def safeAverage (a b : Vec F) : Vec F := ⟨safeAvg a.x b.x, safeAvg a.y b.y, safeAvg a.z b.z⟩

/-- tracer/objects/boundingbox.go:65-67 `Center`. -/
def center (b : BBox F) : Vec F := safeAverage b.min b.max

/-- tracer/objects/boundingbox.go:69-73 `CenterBottom`. -/
def centerBottom (b : BBox F) : Vec F := { b.center with y := b.min.y }

/-- tracer/objects/boundingbox.go:75-79 `CenterTop`. -/
def centerTop (b : BBox F) : Vec F := { b.center with y := b.max.y }

/-- tracer/objects/boundingbox.go:81-85 `CenterBack`. -/
def centerBack (b : BBox F) : Vec F := { b.center with z := b.min.z }

/-- tracer/objects/boundingbox.go:87-91 `CenterFront`. -/
def centerFront (b : BBox F) : Vec F := { b.center with z := b.max.z }

/-- tracer/objects/boundingbox.go:143-152 `max3`. -/
def max3 (x y z : F) : F :=
  let m := x
  let m := if y >. m then y else m
  if z >. m then z else m

/-- tracer/objects/boundingbox.go:154-163 `min3`. -/
def min3 (x y z : F) : F :=
  let m := x
  let m := if y <. m then y else m
  if z <. m then z else m

/-- Entry and exit parameter of one slab, tracer/objects/boundingbox.go:104-126:
`idir := 1/dir; tmin := (min-start)*idir; tmax := (max-start)*idir; Min, Max`. -/
def slab (mn mx start dir : F) : F × F :=
  let idir := lit 1 / dir
  let tmin := (mn - start) * idir
  let tmax := (mx - start) * idir
  (fmin tmin tmax, fmax tmin tmax)

/-- `ten`, `tex` of tracer/objects/boundingbox.go:104-128 (same computation in tree.go:129-153,
215-244 and 257-280). -/
def tenTex (b : BBox F) (r : Ray F) : F × F :=
  let sx := slab b.min.x b.max.x r.start.x r.dir.x
  let sy := slab b.min.y b.max.y r.start.y r.dir.y
  let sz := slab b.min.z b.max.z r.start.z r.dir.z
  (max3 sx.1 sy.1 sz.1, min3 sx.2 sy.2 sz.2)

/-- tracer/objects/boundingbox.go:104-137 `intersect`; also tree.go:128-162 `intersectAABB`
and tree.go:214-253 `intersectAABBf` on a box already converted with `toF`. -/
def intersect (b : BBox F) (r : Ray F) : F :=
  let (ten, tex) := b.tenTex r
  if ten >. tex then lit 0
  else if ten <. lit 0 then tex
  else ten

/-- tracer/objects/boundingbox.go:139-141 `intersects`. -/
def intersects (b : BBox F) (r : Ray F) : Bool := b.intersect r >. lit 0

/-- tracer/objects/tree.go:256-286 `intersectAABB2`. -/
def intersect2 (b : BBox F) (r : Ray F) : F × F :=
  let (ten, tex) := b.tenTex r
  if ten >. tex then (lit 0, lit 0) else (ten, tex)

/-- tracer/objects/boundingbox.go:165-168 `infBox`; lights/planar.go:130-132 returns the same. -/
def infBox : BBox F :=
  ⟨⟨-GoFloat.inf, -GoFloat.inf, -GoFloat.inf⟩, ⟨GoFloat.inf, GoFloat.inf, GoFloat.inf⟩⟩

/-- tracer/objects/csg.go:64-77 `intersectBounds`. -/
def inter (a b : BBox F) : BBox F :=
  ⟨⟨fmax a.min.x b.min.x, fmax a.min.y b.min.y, fmax a.min.z b.min.z⟩,
   ⟨fmin a.max.x b.max.x, fmin a.max.y b.max.y, fmin a.max.z b.max.z⟩⟩

/-- tracer/objects/csg.go:105-120, the box returned by `or.Bounds`. -/
def union (a b : BBox F) : BBox F :=
  ⟨⟨fmin a.min.x b.min.x, fmin a.min.y b.min.y, fmin a.min.z b.min.z⟩,
   ⟨fmax a.max.x b.max.x, fmax a.max.y b.max.y, fmax a.max.z b.max.z⟩⟩

/-- tracer/objects/transformed.go:73-86 `hull`. -/
def hull (B : BBox F) : List (Vec F) :=
  let a := B.min
  let b := B.max
  [⟨a.x, a.y, a.z⟩, ⟨a.x, a.y, b.z⟩, ⟨a.x, b.y, a.z⟩, ⟨a.x, b.y, b.z⟩,
   ⟨b.x, a.y, a.z⟩, ⟨b.x, a.y, b.z⟩, ⟨b.x, b.y, a.z⟩, ⟨b.x, b.y, b.z⟩]

/-- tracer/objects/transformed.go:65-71 `transformBounds`. -/
def transform (orig : BBox F) (t : Affine F) : GoM (BBox F) := fromHull (orig.hull.map t.point)

/-- tracer/objects/tree.go:184-212 `boundingBoxToF` followed by `to64`: every coordinate goes
through `float32`. -/
def toF (b : BBox F) : BBox F :=
  ⟨⟨GoFloat.toF32 b.min.x, GoFloat.toF32 b.min.y, GoFloat.toF32 b.min.z⟩,
   ⟨GoFloat.toF32 b.max.x, GoFloat.toF32 b.max.y, GoFloat.toF32 b.max.z⟩⟩

end BBox

end BR
