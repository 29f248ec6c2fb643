import Verif.Num.GoFloat

/-! Model of `/repo/util/util.go` and `/repo/geom`: scalar helpers, vectors, matrices, affine
transforms. Operand order follows the Go text. -/

namespace BR

variable {F : Type} [Add F] [Sub F] [Mul F] [Div F] [Neg F] [GoFloat F]

/-- util/util.go:10-18 `Max`: `x > y ? x : y` (returns `y` if either is NaN). -/
def fmax (x y : F) : F := if x >. y then x else y

/-- util/util.go:20-29 `Max3`. -/
def fmax3 (x y z : F) : F :=
  let m := x
  let m := if y >. m then y else m
  if z >. m then z else m

/-- util/util.go:31-39 `Min`: `x < y ? x : y`. -/
def fmin (x y : F) : F := if x <. y then x else y

/-- util/util.go:41-43 `Re`. -/
def fRe (x : F) : F := fmax x (lit 0)

/-- util/util.go:45-48 `Frac`. -/
def frac (x : F) : F := x - GoFloat.floor x

/-- util/util.go:58-60 `Sqr`. -/
def sqr (x : F) : F := x * x

/-- util/util.go:88-97 `Sin`: exactly 0 at ±π. -/
def goSin (x : F) : F :=
  if x ==. GoFloat.pi || x ==. -GoFloat.pi then lit 0 else GoFloat.sin x

/-- util/util.go:99-108 `Cos`: exactly 0 at ±π/2. -/
def goCos (x : F) : F :=
  if x ==. GoFloat.pi / lit 2 || x ==. -GoFloat.pi / lit 2 then lit 0 else GoFloat.cos x

/-- util/util.go:110-116 `Sinc`. -/
def sinc (x : F) : F := if x ==. lit 0 then lit 1 else GoFloat.sin x / x

/-- geom/vec.go:7-9 `Vec`, components `v[0]`, `v[1]`, `v[2]`. -/
@[ext] structure Vec (F : Type) where
  x : F
  y : F
  z : F

namespace Vec

/-- `v[i]` for `i < 3` (other indices do not compile in Go). -/
def get (v : Vec F) (i : Fin 3) : F := match i with | 0 => v.x | 1 => v.y | 2 => v.z

/-- `v[i] = s`. -/
def set (v : Vec F) (i : Fin 3) (s : F) : Vec F :=
  match i with | 0 => { v with x := s } | 1 => { v with y := s } | 2 => { v with z := s }

/-- geom/util.go:33-34 `O`, also the Go zero value `Vec{}`. -/
def zero : Vec F := ⟨lit 0, lit 0, lit 0⟩

/-- geom/util.go:24-31 `Ex`, `Ey`, `Ez`. -/
def ex : Vec F := ⟨lit 1, lit 0, lit 0⟩
@[inherit_doc ex] def ey : Vec F := ⟨lit 0, lit 1, lit 0⟩
@[inherit_doc ex] def ez : Vec F := ⟨lit 0, lit 0, lit 1⟩

/-- geom/vec.go:11-18 `Add`. -/
def add (a b : Vec F) : Vec F := ⟨a.x + b.x, a.y + b.y, a.z + b.z⟩

/-- geom/vec.go:20-27 `MAdd`: `a + s*b`. -/
def madd (a : Vec F) (s : F) (b : Vec F) : Vec F :=
  ⟨a.x + s * b.x, a.y + s * b.y, a.z + s * b.z⟩

/-- geom/vec.go:29-36 `Sub`. -/
def sub (a b : Vec F) : Vec F := ⟨a.x - b.x, a.y - b.y, a.z - b.z⟩

/-- geom/vec.go:38-41 `Dot`. -/
def dot (a b : Vec F) : F := a.x * b.x + a.y * b.y + a.z * b.z

/-- geom/vec.go:43-50 `Mul`: `s * a`. -/
def mul (a : Vec F) (s : F) : Vec F := ⟨s * a.x, s * a.y, s * a.z⟩

/-- geom/vec.go:52-55 `Len`. -/
def len (a : Vec F) : F := GoFloat.sqrt (a.x * a.x + a.y * a.y + a.z * a.z)

/-- geom/vec.go:57-60 `Len2`. -/
def len2 (a : Vec F) : F := a.x * a.x + a.y * a.y + a.z * a.z

/-- geom/vec.go:62-71 `Normalized` (and 73-80 `Normalize`, which overwrites). -/
def normalized (a : Vec F) : Vec F :=
  let s := lit 1 / GoFloat.sqrt (a.x * a.x + a.y * a.y + a.z * a.z)
  ⟨a.x * s, a.y * s, a.z * s⟩

/-- geom/vec.go:82-89 `Cross`. -/
def cross (a b : Vec F) : Vec F :=
  ⟨a.y * b.z - a.z * b.y, a.z * b.x - a.x * b.z, a.x * b.y - a.y * b.x⟩

/-- geom/vec.go:104-114 `argMin`: index of the component of least magnitude, first on ties. -/
def argMin (v : Vec F) : Fin 3 :=
  let step := fun (st : Fin 3 × F) (i : Fin 3) =>
    if GoFloat.abs (v.get i) <. st.2 then (i, GoFloat.abs (v.get i)) else st
  ([0, 1, 2].foldl step (0, GoFloat.abs (v.get 0))).1

/-- geom/vec.go:116-119 `IsNaN`. -/
def isNaN (a : Vec F) : Bool := GoFloat.isNaN a.x || GoFloat.isNaN a.y || GoFloat.isNaN a.z

end Vec

/-- util/util.go:82-86 `CheckNaNVec`: panics if a component is NaN (infinities pass). -/
def checkNaNVec (v : Vec F) : GoM Unit :=
  if GoFloat.isNaN v.x || GoFloat.isNaN v.y || GoFloat.isNaN v.z then .error (.msg "got NaN")
  else .ok ()

/-- geom/util.go:39-41 `TriangleNormal`. -/
def triangleNormal (a b c : Vec F) : Vec F := ((b.sub a).cross (c.sub a)).normalized

/-- geom/matrix.go:4 `Matrix`: three vectors `m[0]`, `m[1]`, `m[2]`, the columns of the linear map. -/
@[ext] structure Matrix (F : Type) where
  c0 : Vec F
  c1 : Vec F
  c2 : Vec F

namespace Matrix

/-- `m[i]`. -/
def get (m : Matrix F) (i : Fin 3) : Vec F := match i with | 0 => m.c0 | 1 => m.c1 | 2 => m.c2

/-- geom/affinetransform.go:42-44 `UnitMatrix`. -/
def unit : Matrix F := ⟨Vec.ex, Vec.ey, Vec.ez⟩

/-- One column of geom/matrix.go:7-17: `c[i][j] = ((0 + b[i][0]*m[0][j]) + b[i][1]*m[1][j]) + b[i][2]*m[2][j]`. -/
def mulCol (m : Matrix F) (bi : Vec F) : Vec F :=
  ⟨lit 0 + bi.x * m.c0.x + bi.y * m.c1.x + bi.z * m.c2.x,
   lit 0 + bi.x * m.c0.y + bi.y * m.c1.y + bi.z * m.c2.y,
   lit 0 + bi.x * m.c0.z + bi.y * m.c1.z + bi.z * m.c2.z⟩

/-- geom/matrix.go:6-17 `Mul` (the triple loop, unrolled). -/
def mul (m b : Matrix F) : Matrix F := ⟨m.mulCol b.c0, m.mulCol b.c1, m.mulCol b.c2⟩

/-- geom/matrix.go:19-27 `MulVec`. -/
def mulVec (m : Matrix F) (v : Vec F) : Vec F :=
  ⟨m.c0.x * v.x + m.c1.x * v.y + m.c2.x * v.z,
   m.c0.y * v.x + m.c1.y * v.y + m.c2.y * v.z,
   m.c0.z * v.x + m.c1.z * v.y + m.c2.z * v.z⟩

/-- geom/matrix.go:29-32 `Mulf`. -/
def mulf (m : Matrix F) (f : F) : Matrix F := ⟨m.c0.mul f, m.c1.mul f, m.c2.mul f⟩

/-- The `det` of geom/matrix.go:46-54. -/
def det (m : Matrix F) : F :=
  let a := m.c0.x; let b := m.c1.x; let c := m.c2.x
  let d := m.c0.y; let e := m.c1.y; let f := m.c2.y
  let g := m.c0.z; let h := m.c1.z; let i := m.c2.z
  let A := e * i - f * h
  let B := f * g - d * i
  let C := d * h - e * g
  a * A + b * B + c * C

/-- geom/matrix.go:34-56 `Inverse`: adjugate times `1/det`. -/
def inverse (m : Matrix F) : Matrix F :=
  let a := m.c0.x; let b := m.c1.x; let c := m.c2.x
  let d := m.c0.y; let e := m.c1.y; let f := m.c2.y
  let g := m.c0.z; let h := m.c1.z; let i := m.c2.z
  let inv : Matrix F :=
    ⟨⟨e * i - f * h, f * g - d * i, d * h - e * g⟩,
     ⟨c * h - b * i, a * i - c * g, b * g - a * h⟩,
     ⟨b * f - c * e, c * d - a * f, a * e - b * d⟩⟩
  inv.mulf (lit 1 / m.det)

end Matrix

/-- geom/affinetransform.go:18-23 `AffineTransform`: `y = A x + b`. -/
@[ext] structure Affine (F : Type) where
  A : Matrix F
  B : Vec F

namespace Affine

/-- geom/affinetransform.go:35-40 `UnitTransform`. -/
def unit : Affine F := ⟨Matrix.unit, Vec.zero⟩

/-- geom/affinetransform.go:133-138 `TransformPoint`. -/
def point (t : Affine F) (p : Vec F) : Vec F := (t.A.mulVec p).add t.B

/-- geom/affinetransform.go:140-146 `TransformDir`. -/
def dir (t : Affine F) (d : Vec F) : Vec F := t.A.mulVec d

/-- geom/affinetransform.go:148-160 `Inverse`. -/
def inverse (t : Affine F) : Affine F :=
  let Ainv := t.A.inverse
  ⟨Ainv, (Ainv.mulVec t.B).mul (lit (-1))⟩

/-- geom/affinetransform.go:167-177 `t.Before(s)`: `t` first, then `s`. -/
def before (t s : Affine F) : Affine F := ⟨s.A.mul t.A, (s.A.mulVec t.B).add s.B⟩

/-- geom/affinetransform.go:162-165 `t.After(s)`. -/
def after (t s : Affine F) : Affine F := s.before t

/-- geom/affinetransform.go:25-33 `ComposeLR`. -/
def composeLR (ts : List (Affine F)) : Affine F := ts.foldl (fun comp t => comp.before t) unit

/-- geom/affinetransform.go:54-61 `Translate`. -/
def translate (delta : Vec F) : Affine F :=
  ⟨⟨⟨lit 1, lit 0, lit 0⟩, ⟨lit 0, lit 1, lit 0⟩, ⟨lit 0, lit 0, lit 1⟩⟩, delta⟩

/-- geom/affinetransform.go:179-185 `WithOrigin`. -/
def withOrigin (t : Affine F) (o : Vec F) : Affine F :=
  composeLR [translate (o.mul (lit (-1))), t, translate o]

/-- geom/affinetransform.go:46-52 `Scale`. -/
def scale (origin : Vec F) (s : F) : Affine F :=
  (⟨⟨⟨s, lit 0, lit 0⟩, ⟨lit 0, s, lit 0⟩, ⟨lit 0, lit 0, s⟩⟩, Vec.zero⟩ : Affine F).withOrigin origin

/-- geom/affinetransform.go:108-120 `rotationMatrix`. -/
def rotationMatrix (axis : Vec F) (angle : F) : Matrix F :=
  let u := axis.normalized
  let c := goCos angle
  let s := goSin angle
  let c1 := lit 1 - c
  ⟨⟨c + u.x * u.x * c1, u.y * u.x * c1 + u.z * s, u.z * u.x * c1 - u.y * s⟩,
   ⟨u.x * u.y * c1 - u.z * s, c + u.y * u.y * c1, u.z * u.y * c1 + u.x * s⟩,
   ⟨u.x * u.z * c1 + u.y * s, u.y * u.z * c1 - u.x * s, c + u.z * u.z * c1⟩⟩

/-- geom/affinetransform.go:63-68 `Rotate`. -/
def rotate (origin axis : Vec F) (angle : F) : Affine F :=
  (⟨rotationMatrix axis angle, Vec.zero⟩ : Affine F).withOrigin origin

/-- geom/affinetransform.go:79-81 `Yaw`. -/
def yaw (angle : F) : Affine F := rotate Vec.zero Vec.ey angle

/-- geom/affinetransform.go:90-92 `Pitch`. -/
def pitch (angle : F) : Affine F := rotate Vec.zero Vec.ex angle

/-- geom/affinetransform.go:100-102 `Roll`. -/
def roll (angle : F) : Affine F := rotate Vec.zero Vec.ez angle

/-- geom/affinetransform.go:104-106 `YawPitchRoll`. -/
def yawPitchRoll (y p r : F) : Affine F := ((yaw y).after (pitch p)).after (roll r)

/-- geom/affinetransform.go:122-131 `MapBaseTo`. -/
def mapBaseTo (o x y z : Vec F) : Affine F := ⟨⟨x.sub o, y.sub o, z.sub o⟩, o⟩

end Affine

/-- tracer/ray.go `Ray`: start and direction (assumed of unit length by some of the code). -/
@[ext] structure Ray (F : Type) where
  start : Vec F
  dir : Vec F

/-- tracer/ray.go:14-18 `At`: `Start + t*Dir`. -/
def Ray.at (r : Ray F) (t : F) : Vec F := r.start.madd t r.dir

/-- tracer/ray.go: `Tiny = 1./(1204*1024)`. -/
def tiny : F := lit (1 / (1204 * 1024))

end BR
