import Verif.Model.Geom

/-! Model of `/repo/tracer/sequence`: Halton numbers, shifted Halton sequences, sampling maps. -/

namespace BR

variable {F : Type} [Add F] [Sub F] [Mul F] [Div F] [Neg F] [GoFloat F]

/-- tracer/sequence/halton.go:15-19, the loop `for i > 0 {...}` with `f`, `r` and `i` as in Go.
The Go loop is unbounded; the model gives up with `diverge` after `fuel` rounds.
`i % 0` panics in Go; the generic part `int(math.Floor(float64(i)/bf))` is kept as written. -/
def haltonLoop (b : Nat) : Nat → F → F → Nat → GoM F
  | 0, _, r, i => if 0 < i then .error .diverge else .ok r
  | fuel + 1, f, r, i =>
    if 0 < i then
      if b = 0 then .error (.msg "integer divide by zero") else
      let f := f / ofInt b
      let r := r + f * ofInt (i % b : Nat)
      haltonLoop b fuel f r (GoFloat.trunc (GoFloat.floor (ofInt i / (ofInt b : F)))).toNat
    else .ok r

/-- tracer/sequence/halton.go:9-21 `Halton(b, i)`. The fuel `i+1` is enough for `b ≥ 2`
(`C09_terminates`). -/
def halton (b i : Nat) : GoM F := haltonLoop b (i + 1) (lit 1) (lit 0) (i + 1)

/-- tracer/sequence/sequence.go:31-37 `halton` (fields `offset` and `stride` are never read). -/
structure HaltonSeq (F : Type) where
  baseU : Nat
  baseV : Nat
  stride : Nat
  index : Nat
  shiftU : F
  shiftV : F
  shifts : List (F × F)

namespace HaltonSeq

/-- tracer/sequence/sequence.go:38-47 `NewHalton`. -/
def new (baseU baseV stride : Nat) (shifts : List (F × F)) : HaltonSeq F :=
  { baseU, baseV, stride, index := 0, shiftU := lit 0, shiftV := lit 0, shifts }

/-- tracer/sequence/sequence.go:49-53 `Init`: panics if there is no shift for the pixel. -/
def init (s : HaltonSeq F) (pixel pass : Nat) : GoM (HaltonSeq F) :=
  match s.shifts[pixel]? with
  | none => .error .indexOutOfRange
  | some sh => .ok { s with shiftU := sh.1, shiftV := sh.2, index := pass }

/-- tracer/sequence/sequence.go:55-59 `Generate2`. It does not change the sequence. -/
def generate2 (s : HaltonSeq F) : GoM (F × F) := do
  let u ← halton s.baseU s.index
  let v ← halton s.baseV s.index
  return (frac (u + s.shiftU), frac (v + s.shiftV))

end HaltonSeq

/-- tracer/sequence/mappings.go:13-19 `UniformDisk`. -/
def uniformDisk (u v : F) : F × F :=
  let theta := lit 2 * GoFloat.pi * u
  let r := GoFloat.sqrt v
  (r * GoFloat.cos theta, r * GoFloat.sin theta)

/-- tracer/sequence/mappings.go:37-47: the index replaced by 1 in `t`, the component of `normal`
of least magnitude (first on ties). -/
def cosineSphereAxis (normal : Vec F) : Fin 3 :=
  let i : Fin 3 := 0
  let min := GoFloat.abs normal.x
  let (i, min) := if GoFloat.abs normal.y <. min then ((1 : Fin 3), GoFloat.abs normal.y) else (i, min)
  if GoFloat.abs normal.z <. min then 2 else i

/-- tracer/sequence/mappings.go:27-57 `CosineSphere`. -/
def cosineSphere (u v : F) (normal : Vec F) : Vec F :=
  let (x, y) := uniformDisk u v
  let z := GoFloat.sqrt (lit 1 - (x * x + y * y))
  let S : Vec F := ⟨x, y, z⟩
  let t := normal.set (cosineSphereAxis normal) (lit 1)
  let ex := (t.cross normal).normalized
  let ey := ex.cross normal
  let ez := normal
  let m : Matrix F := ⟨ex, ey, ez⟩
  m.mulVec S

end BR
