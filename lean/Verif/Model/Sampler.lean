import Verif.Model.Color
import Verif.Model.Ctx

/-! Model of `/repo/tracer/sampler.go`: tiles, accumulation, pixel coordinates. -/

namespace BR

variable {F : Type} [Add F] [Sub F] [Mul F] [Div F] [Neg F] [GoFloat F]

/-- tracer/sampler.go:137-140 `tile`: columns `x0 ≤ x < x1`, rows `y0 ≤ y < y1`. -/
structure Tile where
  x0 : Nat
  y0 : Nat
  x1 : Nat
  y1 : Nat
  deriving DecidableEq, Repr

/-- The loop header `for x := x0; x < w; x += ts` (tracer/sampler.go:118, 120) as the list of its
values. The code uses `ts = 16`; for `ts = 0` the Go loop would not end, the model stops. -/
def stepRange (x0 w ts : Nat) : List Nat :=
  if _h : x0 < w ∧ 0 < ts then x0 :: stepRange (x0 + ts) w ts else []
termination_by w - x0

/-- tracer/sampler.go:113-127 `tessellate`: the tiles in the order they are sent. -/
def tessellate (w h ts : Nat) : List Tile :=
  (stepRange 0 w ts).flatMap fun x0 =>
    (stepRange 0 h ts).map fun y0 => ⟨x0, y0, min (x0 + ts) w, min (y0 + ts) h⟩

/-- tracer/sampler.go:130-132 `divUp` (Go integer division truncates towards zero). -/
def divUp (x y : Int) : Int := Int.tdiv (x - 1) y + 1

/-- tracer/sampler.go:114-117: the capacity of the tile channel. -/
def tileCap (w h ts : Nat) : Int := divUp w ts * divUp h ts

/-- tracer/sampler.go:73-79 `sampleTile`: the pixels `(ix, iy)` of a tile in sampling order. -/
def Tile.pixels (t : Tile) : List (Nat × Nat) :=
  (List.range' t.y0 (t.y1 - t.y0)).flatMap fun iy =>
    (List.range' t.x0 (t.x1 - t.x0)).map fun ix => (ix, iy)

/-- tracer/sampler.go:22-32: the accumulators of one pixel: `n`, `sum`, `sumSq`. -/
@[ext] structure Cell (F : Type) where
  n : Nat
  sum : Color F
  sumSq : Color F

/-- tracer/sampler.go:34-42: a fresh accumulator. -/
def Cell.zero : Cell F := ⟨0, .black, .black⟩

/-- tracer/sampler.go:91, 101-106: count the pass, then add the colour unless it is NaN. -/
def Cell.push (s : Cell F) (c : Color F) : Cell F :=
  if c.isNaN then { s with n := s.n + 1 }
  else
    { n := s.n + 1
      sum := s.sum.add c
      sumSq := ⟨s.sumSq.R + c.R * c.R, s.sumSq.G + c.G * c.G, s.sumSq.B + c.B * c.B⟩ }

/-- tracer/sampler.go:259-261 `linterp`. -/
def linterp (x1 y1 x2 y2 x : F) : F := y1 + (y2 - y1) * (x - x1) / (x2 - x1)

/-- tracer/sampler.go:241-254 `IndexToCam` (identical code in sampler/util.go). -/
def indexToCam (w h : Int) (ix iy : F) : GoM (F × F) :=
  let W : F := ofInt w
  let H : F := ofInt h
  if ix <. lit (-1/2) || iy <. lit (-1/2) || ix >. W - lit (1/2) || iy >. H - lit (1/2) then
    .error (.msg "IndexToCam: pixel index out of range")
  else
    .ok (linterp (lit (-1/2)) (lit 0) (W - lit (1/2)) (lit 1) ix,
         linterp (lit (-1/2)) (lit (1/2) + lit (1/2) * (H / W)) (H - lit (1/2))
           (lit (1/2) - lit (1/2) * (H / W)) iy)

/-- tracer/sampler.go:160-164 `PixelSize`. `math.Min` of two finite positive numbers. -/
def pixelSize (w h : Int) : F :=
  let minf : F := if (ofInt w : F) <. ofInt h then ofInt w else ofInt h
  lit 1 / minf

/-- tracer/sampler.go:199-201 `imagef`. -/
def Cell.image (s : Cell F) : Color F := s.sum.mul (lit 1 / ofInt s.n)

/-- tracer/sampler.go:212-224 `variancef`. -/
def Cell.variance (s : Cell F) : Color F :=
  let n : F := ofInt s.n
  let d := lit 1 / (n * (n - lit 1))
  ⟨(n * s.sumSq.R - sqr s.sum.R) * d, (n * s.sumSq.G - sqr s.sum.G) * d,
   (n * s.sumSq.B - sqr s.sum.B) * d⟩

/-- tracer/sampler.go:203-209 `stddevf`. -/
def Cell.stddev (s : Cell F) : Color F :=
  let v := s.variance
  ⟨GoFloat.sqrt v.R, GoFloat.sqrt v.G, GoFloat.sqrt v.B⟩

/-- What `samplePixel` needs from its context (tracer/ctx.go) and from the image function:
`init pixel pass`, the anti-aliasing pair, and the image function itself. `C` is the whole mutable
state of the context. -/
structure Shader (F C : Type) where
  init : C → Nat → Nat → GoM C
  aa : C → GoM ((F × F) × C)
  f : C → F → F → GoM (Color F × C)

/-- The parts of `samplePixel` that come from the context of tracer/ctx.go, for an image function
`f`: `Init` and `ctx.AA.Generate2` (which does not change the context). -/
def ctxShader {S : Type} (f : Ctx F S → F → F → GoM (Color F × Ctx F S)) : Shader F (Ctx F S) where
  init := Ctx.init
  aa c := do return (← c.aa.generate2, c)
  f := f

/-- tracer/sampler.go:84-100: one iteration of the pass loop of `samplePixel` up to the colour:
initialise the context with pixel number `w*iy+ix` and the pass count `n`, jitter, call `f`. -/
def passColor {C : Type} (sh : Shader F C) (w h : Nat) (antiAlias : Bool) (ctx : C)
    (p : Nat × Nat) (n : Nat) : GoM (Color F × C) := do
  let (xi, yi) ← indexToCam (F := F) w h (ofInt p.1) (ofInt p.2)
  let ctx ← sh.init ctx (w * p.2 + p.1) n
  if antiAlias then
    let (uv, ctx) ← sh.aa ctx
    let pixs : F := pixelSize w h
    sh.f ctx (xi + pixs * (uv.1 - lit (1/2))) (yi + pixs * (uv.2 - lit (1/2)))
  else
    sh.f ctx xi yi

/-- tracer/sampler.go:81-107 `samplePixel` on the accumulators of one pixel. -/
def samplePixel {C : Type} (sh : Shader F C) (w h : Nat) (antiAlias : Bool) (p : Nat × Nat) :
    Nat → C → Cell F → GoM (Cell F × C)
  | 0, ctx, s => .ok (s, ctx)
  | n + 1, ctx, s => do
    let (c, ctx) ← passColor sh w h antiAlias ctx p s.n
    samplePixel sh w h antiAlias p n ctx (s.push c)

end BR
