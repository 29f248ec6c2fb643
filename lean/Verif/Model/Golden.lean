import Verif.Model.Load

/-! Model of the comparisons with stored pictures in `/repo/tracer/test/test.go` and `/repo/tracer/test/convergence.go`.
Reading and writing of files, and the reports of Go's package `testing`, are not modelled. -/

namespace BR

set_option linter.unusedSectionVars false

variable {F : Type} [Add F] [Sub F] [Mul F] [Div F] [Neg F] [GoFloat F]

/-- `At(x, y).RGBA()` of a decoded file, without alpha: Go's decoded PNG files have the zero colour outside of their bounds. -/
def Decoded.at (d : Decoded) (x y : Nat) : Nat × Nat × Nat := if x < d.w ∧ y < d.h then d.rgb x y else (0, 0, 0)

/-- tracer/test/test.go:157-163 `diff`. -/
def chanDiff (a b : Nat) : Int :=
  let d : Int := a - b
  if d < 0 then -d else d

/-- tracer/test/test.go:144-151: the loops of `Diff`. The bounds of decoded files start at (0, 0). -/
def goldenDelta (A B : Decoded) : Int :=
  (List.range A.h).foldl (fun delta y =>
    (List.range A.w).foldl (fun delta x =>
      let p := A.at x y
      let q := B.at x y
      delta + (chanDiff p.1 q.1 + chanDiff p.2.1 q.2.1 + chanDiff p.2.2 q.2.2)) delta) 0

/-- tracer/test/test.go:143-155 `Diff`. Simplification: integers do not overflow. -/
def goldenDiff (A B : Decoded) : F :=
  let nPix : Int := ((A.w : Int) + 1) * ((A.w : Int) + 1)
  ofInt (goldenDelta A B) / (lit (3 * 255) * ofInt nPix)

/-- tracer/test/test.go:38-47 `Compare` and 136-141 `DiffImg`: whether the test passes. `got` is the picture as saved and read again, `want` the
stored one. -/
def comparePasses (tolerance : F) (got want : Decoded) : Bool := !(goldenDiff got want >. tolerance)

/-- tracer/test/convergence.go:71-76 `clamp`. -/
def clampOne (c : Color F) : Color F := ⟨fmin (lit 1) c.R, fmin (lit 1) c.G, fmin (lit 1) c.B⟩

/-- `img[iy][ix]`. -/
def rowsGet (img : List (List (Color F))) (ix iy : Nat) : GoM (Color F) :=
  match img[iy]? with
  | none => .error .indexOutOfRange
  | some r => match r[ix]? with
    | none => .error .indexOutOfRange
    | some c => .ok c

/-- imagef/image.go:28-38 `NumPixels`. -/
def rowsPixels (img : List (List (Color F))) : Nat :=
  match img with
  | [] => 0
  | r :: _ => r.length * img.length

/-- tracer/test/convergence.go:56-69 `rmsError`. `img` is the image of the sampler. -/
def rmsError (img golden : List (List (Color F))) : GoM F := do
  let errSq ← (List.range img.length).foldlM (fun (errSq : F) iy => do
    let errSqx ← (List.range (img[iy]?.getD []).length).foldlM (fun (errSqx : F) ix => do
      let a := clampOne (← rowsGet img ix iy)
      let b := clampOne (← rowsGet golden ix iy)
      return errSqx + (Vec.sub ⟨a.R, a.G, a.B⟩ ⟨b.R, b.G, b.B⟩).len2) (lit 0)
    return errSq + errSqx) (lit 0)
  return GoFloat.sqrt errSq / ofInt (rowsPixels golden)

/-- tracer/test/convergence.go:16-26 `Convergence` and `Row`, without the sampler: the passes so far and the rows of the table. -/
structure Convergence (F : Type) where
  totalPass : Int
  output : List (Int × F)

/-- tracer/test/convergence.go:28-32 `Sample`, and lines 52-54 `Error`. `img` is the image of the sampler after it has sampled
`nPass` more passes. -/
def Convergence.sample (golden : List (List (Color F))) (c : Convergence F) (nPass : Int) (img : List (List (Color F))) :
    GoM (Convergence F) := do
  let total := c.totalPass + nPass
  let e ← rmsError img golden
  return ⟨total, c.output ++ [(total, e)]⟩

end BR
