import Verif.Model.Api
import Verif.Model.Workers

/-! Model of `/repo/api/animate.go`: rendering a numbered sequence of frames to files. -/

namespace BR

set_option linter.unusedSectionVars false

variable {F : Type} [Add F] [Sub F] [Mul F] [Div F] [Neg F] [GoFloat F]

/-! ## Paths -/

/-- The elements of a path, between slashes. -/
def splitSlash : List Char → List (List Char)
  | [] => [[]]
  | c :: cs =>
    if c = '/' then [] :: splitSlash cs
    else match splitSlash cs with
      | [] => [[c]]
      | s :: ss => (c :: s) :: ss

/-- One element in Go's `path.Clean`; the result so far is a stack, the last element first. -/
def cleanStep (rooted : Bool) (out : List (List Char)) (e : List Char) : List (List Char) :=
  if e = [] ∨ e = ['.'] then out
  else if e = ['.', '.'] then
    match out with
    | [] => if rooted then [] else [e]
    | top :: rest => if top = ['.', '.'] then e :: out else rest
  else e :: out

/-- Go's `path.Clean`. -/
def pathClean (p : List Char) : List Char :=
  let rooted := p.head? = some '/'
  let out := List.intercalate ['/'] ((splitSlash p).foldl (cleanStep rooted) []).reverse
  if rooted then '/' :: out else if out = [] then ['.'] else out

/-- Go's `path.Join` of two elements that are not empty. -/
def pathJoin (d n : List Char) : List Char := pathClean (d ++ '/' :: n)

/-- Go's `fmt.Sprintf("%05d.jpg", i)` for `i ≥ 0` (api/animate.go:38). -/
def frameFile (i : Nat) : List Char :=
  let digits := Nat.toDigits 10 i
  List.replicate (5 - digits.length) '0' ++ digits ++ ".jpg".toList

/-- api/animate.go:34: the directory of the frames, for the output file `out`. -/
def frameDir (out : List Char) : List Char := noExt out ++ "-frames".toList

/-! ## Frames -/

/-- The picture of a frame: the image of a new sampler for this specification, with or without anti-aliasing, after so
many calls of `Sample(1)` (api/animate.go:24-29). What the image is, is the subject of C01-C08 and C80. -/
structure FramePicture (F : Type) where
  spec : Spec F
  antiAlias : Bool
  passes : Nat

/-- api/spec.go:37-39 `Spec.ImageFunc`. A nil camera panics when it is first used. -/
def Spec.imageFunc {S : Type} (rng : Rng F S) (s : Spec F) (ctx : Ctx F S) (u v : F) : GoM (Color F × Ctx F S) :=
  match s.camera with
  | none => .error .nilDeref
  | some cam => s.scene.imageFunc rng cam ctx u v

/-- api/animate.go:25-29: the accumulators of a new sampler after so many calls of `Sample(1)`. In each call any number
of workers run in any order, with new contexts that satisfy `fresh`. -/
inductive Shots {C : Type} (sh : Shader F C) (w h : Nat) (aa : Bool) (fresh : C → Prop) : Nat → (Pixel → Cell F) → Prop
  | start : Shots sh w h aa fresh 0 fun _ => Cell.zero
  | sample {n : Nat} {mem : Pixel → Cell F} {W : Nat} {ctx0 : Fin W → C} {s : SamplerState F C W} {k : Nat} :
      Shots sh w h aa fresh n mem → 0 < W → (∀ i, fresh (ctx0 i)) →
      Runs sh w h aa 1 (samplerInit w h ctx0 mem) k s → s.done → Shots sh w h aa fresh (n + 1) s.mem

/-- What `Animate` does to the file system. `broken` is a file that could not be written completely. -/
inductive AnimEvent (F : Type)
  | mkdir (dir : List Char)
  | write (file : List Char) (pic : FramePicture F)
  | broken (file : List Char)

/-- How an attempt to encode and write a file ends. -/
inductive WriteOutcome
  | written
  /-- encoding or creating the file failed -/
  | notCreated
  /-- the file was created but not written completely -/
  | incomplete
  deriving DecidableEq

/-- api/render.go:88-113 `savef` with the `check` around it (api/animate.go:39-40). The second component tells whether
the program goes on. -/
def saveFrame (env : List (AnimEvent F) → WriteOutcome) (name : List Char) (pic : FramePicture F)
    (log : List (AnimEvent F)) : List (AnimEvent F) × Bool :=
  match saveTarget name [] with
  | .error _ => (log, false)
  | .ok (_, file) =>
    match env log with
    | .written => (log ++ [.write file pic], true)
    | .notCreated => (log, false)
    | .incomplete => (log ++ [.broken file], false)

/-- api/animate.go:22-41 `renderFrame`, for the output file name `out`. Failing to make the directory is only printed.
A panic (in `InitDefaults` or while sampling) ends the program. Whether sampling panics is decided by `shoot`. -/
def renderFrame (env : List (AnimEvent F) → WriteOutcome) (shoot : FramePicture F → Bool) (out : List Char) (spec : Spec F)
    (i : Nat) (log : List (AnimEvent F)) : List (AnimEvent F) × Bool :=
  match spec.initDefaults with
  | .error _ => (log, false)
  | .ok spec =>
    let pic : FramePicture F := ⟨spec, decide (spec.numPass > 1), spec.numPass.toNat⟩
    if shoot pic then
      let dir := frameDir out
      let log := log ++ [.mkdir dir]
      let fname := pathJoin dir (frameFile i)
      match saveFrame env (pathJoin dir "last.jpg".toList) pic log with
      | (log, false) => (log, false)
      | (log, true) => saveFrame env fname pic log
    else (log, false)

/-- api/animate.go:13-20 `Animate`, `n` frames from number `i` on; `f` may panic. -/
def animateFrom (env : List (AnimEvent F) → WriteOutcome) (shoot : FramePicture F → Bool) (out : List Char)
    (f : Nat → GoM (Spec F)) : Nat → Nat → List (AnimEvent F) → List (AnimEvent F) × Bool
  | 0, _, log => (log, true)
  | n + 1, i, log =>
    match f i with
    | .error _ => (log, false)
    | .ok spec =>
      match renderFrame env shoot out spec i log with
      | (log, false) => (log, false)
      | (log, true) => animateFrom env shoot out f n (i + 1) log

/-- api/animate.go:13-20 `Animate`. -/
def animate (env : List (AnimEvent F) → WriteOutcome) (shoot : FramePicture F → Bool) (out : List Char)
    (f : Nat → GoM (Spec F)) (numFrame : Int) : List (AnimEvent F) × Bool :=
  animateFrom env shoot out f numFrame.toNat 0 []

end BR
