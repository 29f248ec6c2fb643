import Verif.Model.Sampler
import Mathlib.Logic.Function.Basic

/-!
# The concurrent sampler

Model of tracer/sampler.go:49-107: `SampleWithCancel` starts `W` workers that receive tiles from one
closed channel and update the accumulators of the tile's pixels. Each transition is one channel
receive, one read or one write of a pixel's `n`, `sum` or `sumSq`, or one local computation, and any
worker may move next. The three colour channels of a read or write are one transition.
The cancel channel is ignored by the code.
-/

namespace BR

variable {F : Type} [Add F] [Sub F] [Mul F] [Div F] [Neg F] [GoFloat F]

abbrev Pixel := Nat × Nat

/-- Program points inside one pass of `samplePixel` (tracer/sampler.go:86-106), with the values held
in registers. -/
inductive Stage (F : Type)
  /-- before reading `s.n[iy][ix]` for `ctx.Init` (line 90) -/
  | start
  /-- `Init` argument read -/
  | gotK (k : Nat)
  /-- `s.n[iy][ix]++` (line 91): old value read -/
  | gotN (k m : Nat)
  /-- count written; next is the call of the image function (lines 93-100) -/
  | counted (k : Nat)
  /-- colour computed and not NaN (line 101) -/
  | colored (c : Color F)
  /-- `s.sum[iy][ix].Add(c)` (line 102): old sum read -/
  | gotSum (c σ : Color F)
  /-- sum written -/
  | summed (c : Color F)
  /-- `s.sumSq` (lines 103-105): old value read -/
  | gotSq (c q : Color F)

/-- A worker goroutine: waiting to receive, busy with pixel `p` (with the other pixels `rest` of its
tile and `left` passes including the current one to go), or returned. -/
inductive Worker (F C : Type)
  | idle (ctx : C)
  | busy (ctx : C) (p : Pixel) (rest : List Pixel) (left : Nat) (st : Stage F)
  | finished

/-- Global state. `crashed` is set when a worker panics, which ends the program. -/
structure SamplerState (F C : Type) (W : Nat) where
  queue : List Tile
  mem : Pixel → Cell F
  ws : Fin W → Worker F C
  crashed : Bool

section
variable {C : Type} {W : Nat} (sh : Shader F C) (w h : Nat) (aa : Bool) (nPass : Nat)

/-- tracer/sampler.go:73-79, 86: go on with the next pixel; with `nPass = 0` no pixel does anything. -/
def nextPixel (ctx : C) : List Pixel → Worker F C
  | [] => .idle ctx
  | p :: ps => if nPass = 0 then .idle ctx else .busy ctx p ps nPass .start

/-- End of a pass: next pass of the same pixel, or next pixel. -/
def endPass (ctx : C) (p : Pixel) (rest : List Pixel) (left : Nat) : Worker F C :=
  if left ≤ 1 then nextPixel nPass ctx rest else .busy ctx p rest (left - 1) .start

/-- One transition of worker `i`; `none` if it has returned or the program has crashed. -/
def workerStep (s : SamplerState F C W) (i : Fin W) : Option (SamplerState F C W) :=
  if s.crashed then none else
  let goto (wk : Worker F C) : SamplerState F C W := { s with ws := Function.update s.ws i wk }
  match s.ws i with
  | .finished => none
  | .idle ctx =>
    match s.queue with
    | [] => some (goto .finished)
    | t :: q => some { goto (nextPixel nPass ctx t.pixels) with queue := q }
  | .busy ctx p rest left st =>
    let write (c : Cell F) (wk : Worker F C) : SamplerState F C W :=
      { goto wk with mem := Function.update s.mem p c }
    match st with
    | .start => some (goto (.busy ctx p rest left (.gotK (s.mem p).n)))
    | .gotK k => some (goto (.busy ctx p rest left (.gotN k (s.mem p).n)))
    | .gotN k m => some (write { s.mem p with n := m + 1 } (.busy ctx p rest left (.counted k)))
    | .counted k =>
      match passColor sh w h aa ctx p k with
      | .error _ => some { s with crashed := true }
      | .ok (c, ctx') =>
        if c.isNaN then some (goto (endPass nPass ctx' p rest left))
        else some (goto (.busy ctx' p rest left (.colored c)))
    | .colored c => some (goto (.busy ctx p rest left (.gotSum c (s.mem p).sum)))
    | .gotSum c σ => some (write { s.mem p with sum := σ.add c } (.busy ctx p rest left (.summed c)))
    | .summed c => some (goto (.busy ctx p rest left (.gotSq c (s.mem p).sumSq)))
    | .gotSq c q =>
      some (write { s.mem p with sumSq := ⟨q.R + c.R * c.R, q.G + c.G * c.G, q.B + c.B * c.B⟩ }
        (endPass nPass ctx p rest left))

/-- tracer/sampler.go:52-66: all tiles queued, every worker with its own new context. -/
def samplerInit (ctx0 : Fin W → C) (mem : Pixel → Cell F) : SamplerState F C W :=
  { queue := tessellate w h 16, mem := mem, ws := fun i => .idle (ctx0 i), crashed := false }

/-- `Runs s k s'`: some schedule leads from `s` to `s'` in `k` transitions. -/
inductive Runs : SamplerState F C W → Nat → SamplerState F C W → Prop
  | refl (s) : Runs s 0 s
  | step {s k s' s''} (i : Fin W) : Runs s k s' → workerStep sh w h aa nPass s' i = some s'' →
      Runs s (k + 1) s''

/-- `wg.Wait()` returns: every worker has returned. -/
def SamplerState.done (s : SamplerState F C W) : Prop := ∀ i, s.ws i = .finished

/-- The pixel whose accumulators a worker's next transition reads or writes. -/
def Worker.touches : Worker F C → Option Pixel
  | .busy _ p _ _ st => match st with
    | .counted _ => none
    | _ => some p
  | _ => none

end

end BR
