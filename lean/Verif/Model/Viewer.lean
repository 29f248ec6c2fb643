import Verif.Model.Geom

/-! Model of `/repo/cmd/bruteray-view/main.go` and of the `View` of `/repo/api/view.go`. The main goroutine is a state machine
with one step for each of the parts of the loop in `run`; the goroutines started by `goBakeAndSend` are a list of pending
requests. Pixels are not modelled: an image is described by the request it is the answer to. -/

namespace BR.Viewer

set_option linter.unusedSectionVars false

variable {F : Type} [Add F] [Sub F] [Mul F] [Div F] [Neg F] [GoFloat F]

/-- api/view.go:10-21 `View`. -/
structure View (F : Type) where
  width : Int
  height : Int
  antiAlias : Bool
  camPos : Vec F
  camYaw : F
  camPitch : F
  debugNormals : Int
  debugIsometric : Bool
  debugIsometricFOV : F
  debugIsometricDir : Int

/-- Where an image comes from. -/
inductive Shown (F : Type)
  /-- main.go:572-580 `dummyImage`. -/
  | dummy
  /-- The answer to a preview request for this view. -/
  | preview (v : View F)
  /-- The answer to a bake request for this view. -/
  | bake (v : View F)

/-- The parts of the loop of `run`. -/
inductive Pc
  | poll
  | repaint1
  | startBake
  | wait
  | repaint2
  | stopped
  deriving DecidableEq

/-- main.go:65-95 `state`, without the window system's handles. `window` is the image last drawn by `repaint`; `pending` are
the views of the requests of `goBakeAndSend` that have not been received from `bakery` yet. -/
structure State (F : Type) where
  view : View F
  mouseDown : Int
  lastMouseX : F
  lastMouseY : F
  preview : Bool
  renderDirty : Bool
  paused : Bool
  bakeResolution : Nat
  isBaking : Bool
  wantBake : Bool
  lastImg : Shown F
  windowDirty : Bool
  window : Shown F
  winSize : Int × Int
  aborted : Bool
  pending : List (View F)
  pc : Pc

/-- main.go:45-57. -/
def State.init : State F where
  view := ⟨32, 32, false, ⟨lit 0, lit 0, lit 0⟩, lit 0, lit 0, 0, false, lit 0, 0⟩
  mouseDown := 0
  lastMouseX := lit 0
  lastMouseY := lit 0
  preview := false
  renderDirty := true
  paused := false
  bakeResolution := 0
  isBaking := false
  wantBake := false
  lastImg := .dummy
  windowDirty := true
  window := .dummy
  winSize := (32, 32)
  aborted := false
  pending := []
  pc := .poll

/-! ### Events -/

/-- The keys of main.go:306-338. -/
inductive Key
  | left | right | up | down | space | x | y | z | p | n | other

/-- main.go:286-299: the events that are handled. Mouse buttons have the numbers of golang.org/x/mobile/event/mouse: left 1,
wheel up -1, wheel down -2, wheel left -3, wheel right -4. -/
inductive Event (F : Type)
  | lifecycle (dead : Bool)
  | size (width height : Int)
  | key (press : Bool) (code : Key) (shift : Bool)
  | mouse (press release : Bool) (button : Int) (shift : Bool) (x y : F)
  | paint

/-- main.go:452-467 `rotateCamera`. -/
def rotateCamera (s : State F) (dx dy : F) : State F :=
  let sens : F := lit (5 / 1000)
  let pitch := s.view.camPitch + dy * sens
  let pitch := if pitch <. -GoFloat.pi / lit 2 then -GoFloat.pi / lit 2 else pitch
  let pitch := if pitch >. GoFloat.pi / lit 2 then GoFloat.pi / lit 2 else pitch
  { s with view := { s.view with camYaw := s.view.camYaw + dx * sens, camPitch := pitch }, renderDirty := true }

/-- main.go:469-477 `moveCam`. -/
def moveCam (s : State F) (dir : Vec F) : State F :=
  let viewDir := (Affine.yawPitchRoll s.view.camYaw s.view.camPitch (lit 0)).A
  { s with view := { s.view with camPos := s.view.camPos.madd (lit (5 / 100)) (viewDir.mulVec dir) }, renderDirty := true }

/-- main.go:391-398 `isometricZoom`. -/
def isometricZoom (s : State F) (factor : F) : State F :=
  let fov := if s.view.debugIsometricFOV ==. lit 0 then lit 8 else s.view.debugIsometricFOV
  { s with view := { s.view with debugIsometricFOV := fov * factor }, renderDirty := true }

/-- api/spec.go:34 `SpecMaxDebugNormals`. -/
def specMaxDebugNormals : Int := 2

/-- main.go:400-407 `toggleNormals`. -/
def toggleNormals (s : State F) : State F :=
  let n := s.view.debugNormals + 1
  { s with view := { s.view with debugNormals := if n > specMaxDebugNormals then 0 else n }, renderDirty := true }

/-- main.go:409-423 `toggleIsometric`. -/
def toggleIsometric (s : State F) (dir : Int) : State F :=
  let v := s.view
  { s with
    view := { v with
      debugIsometric := if v.debugIsometricDir = dir then !v.debugIsometric else true
      debugIsometricDir := dir
      debugIsometricFOV := if v.debugIsometricFOV ==. lit 0 then lit 8 else v.debugIsometricFOV }
    renderDirty := true }

/-- main.go:301-340 `handleKeyEvent`. -/
def handleKey (s : State F) (press : Bool) (code : Key) (shift : Bool) : State F :=
  if press then
    match code with
    | .left => moveCam s ⟨lit (-1), lit 0, lit 0⟩
    | .right => moveCam s ⟨lit 1, lit 0, lit 0⟩
    | .up => if shift then moveCam s ⟨lit 0, lit 1, lit 0⟩ else moveCam s ⟨lit 0, lit 0, lit (-1)⟩
    | .down => if shift then moveCam s ⟨lit 0, lit (-1), lit 0⟩ else moveCam s ⟨lit 0, lit 0, lit 1⟩
    | .space => moveCam s ⟨lit 0, lit 1, lit 0⟩
    | .x => toggleIsometric s 0
    | .y => toggleIsometric s 1
    | .z => toggleIsometric s 2
    | .p => { s with paused := !s.paused }
    | .n => toggleNormals s
    | .other => s
  else s

/-- main.go:344-361, the first half of `handleMouseEvent`. -/
def handleMouseButton (s : State F) (press release : Bool) (button : Int) (x y : F) : State F :=
  let s1 := if press then { s with mouseDown := button, preview := decide (button = 1) } else s
  let s2 := if release then { s1 with mouseDown := 0, preview := if button = 1 then false else s1.preview } else s1
  let s3 := if s2.mouseDown = 1 then
      rotateCamera s2 (GoFloat.toF32 (x - s2.lastMouseX)) (GoFloat.toF32 (y - s2.lastMouseY)) else s2
  { s3 with lastMouseX := x, lastMouseY := y }

/-- main.go:363-389, the second half of `handleMouseEvent`. `1 / math.Sqrt2` is a constant in Go; here it is a division. -/
def handleMouseWheel (s : State F) (button : Int) (shift : Bool) : State F :=
  if !s.view.debugIsometric then
    if button = -1 ∧ shift then moveCam s ⟨lit 0, lit 1, lit 0⟩
    else if button = -1 then moveCam s ⟨lit 0, lit 0, lit (-1)⟩
    else if button = -2 ∧ shift then moveCam s ⟨lit 0, lit (-1), lit 0⟩
    else if button = -2 then moveCam s ⟨lit 0, lit 0, lit 1⟩
    else if button = -3 then moveCam s ⟨lit (-1), lit 0, lit 0⟩
    else if button = -4 then moveCam s ⟨lit 1, lit 0, lit 0⟩
    else s
  else if button = -1 then isometricZoom s (lit 1 / GoFloat.sqrt (lit 2))
  else if button = -2 then isometricZoom s (GoFloat.sqrt (lit 2))
  else s

/-- main.go:425-446 `handleSizeEvent`. -/
def handleSize (s : State F) (w h : Int) : State F :=
  { s with winSize := (w, h), view := { s.view with width := w, height := h }, renderDirty := true, windowDirty := true }

/-- main.go:178-193 `cancelBaking`. The cancel request changes nothing in the viewer. -/
def cancelBaking (s : State F) : State F := { s with wantBake := false, bakeResolution := 0 }

/-- main.go:286-299 `handleEvent`, with 448-450 `handlePaintEvent` and 502-508 `handleLifecycleEvent`. -/
def handleEvent (s : State F) : Event F → State F
  | .lifecycle dead => if dead then { cancelBaking s with aborted := true, windowDirty := true } else { s with windowDirty := true }
  | .size w h => handleSize s w h
  | .key press code shift => handleKey s press code shift
  | .mouse press release button shift x y => handleMouseWheel (handleMouseButton s press release button x y) button shift
  | .paint => { s with windowDirty := true }

/-! ### Rendering -/

/-- main.go:63 `maxDownScale`. -/
def maxDownScale : Int := 8

/-- What becomes of a preview request. -/
inductive PreviewResult
  /-- The request failed: `renderPreview` returns the dummy image. -/
  | failed
  /-- An image without pixels. -/
  | empty
  | image

/-- The view of a preview request, main.go:155-157. -/
def downscaled (s : State F) : View F :=
  { s.view with width := s.view.width.tdiv maxDownScale, height := s.view.height.tdiv maxDownScale }

/-- main.go:135-145. -/
def renderIfDirty (s : State F) (r : PreviewResult) : State F :=
  if s.renderDirty then
    let s := cancelBaking s
    match r with
    | .failed => { s with lastImg := .dummy, renderDirty := false, windowDirty := true }
    | .empty => s
    | .image => { s with lastImg := .preview (downscaled s), renderDirty := false, windowDirty := true }
  else s

/-- main.go:134-150 `repaintIfNeeded`, with 480-494 `repaint`. -/
def repaintIfNeeded (s : State F) (r : PreviewResult) : State F :=
  let s := renderIfDirty s r
  if s.windowDirty then { s with window := s.lastImg, windowDirty := false } else s

/-- main.go:200-206: the loop that halves `div`; `n` iterations are left. -/
def bakeDiv : Nat → Int → Int
  | 0, div => div
  | n + 1, div => if div.tdiv 2 ≤ 1 then 1 else bakeDiv n (div.tdiv 2)

/-- The view of a bake request, main.go:199-211. -/
def bakeView (s : State F) : View F :=
  let div := bakeDiv s.bakeResolution maxDownScale
  { s.view with width := s.winSize.1.tdiv div, height := s.winSize.2.tdiv div, antiAlias := decide (div = 1) }

/-- main.go:195-223 `goBakeAndSend`. -/
def goBakeAndSend (s : State F) : State F :=
  { s with isBaking := true, wantBake := true, pending := s.pending ++ [bakeView s] }

/-- main.go:114-116. -/
def bakeIfIdle (s : State F) : State F :=
  if !s.isBaking && !s.preview && !s.renderDirty && !s.paused then goBakeAndSend s else s

/-- main.go:167-176 `handleBakery`, for the answer to a request for view `v`; `empty` if it failed or has no pixels. -/
def handleBakery (s : State F) (v : View F) (empty : Bool) : State F :=
  let s1 := if !empty && s.isBaking && !s.renderDirty && !s.preview && s.wantBake then
    { s with lastImg := .bake v, windowDirty := true } else s
  { s1 with isBaking := false, bakeResolution := s1.bakeResolution + 1 }

/-! ### The loop -/

/-- main.go:97-130 `run`, with any events and any answers. -/
inductive Step : State F → State F → Prop
  | abort1 (s : State F) : s.pc = .poll → s.aborted → Step s { s with pc := .stopped }
  /-- `handleEventBacklog`, main.go:273-284. -/
  | events1 (s : State F) (e : Event F) (es : List (Event F)) : s.pc = .poll →
      Step s { (e :: es).foldl handleEvent s with pc := .repaint1 }
  | noEvent (s : State F) : s.pc = .poll → Step s { s with pc := .repaint1 }
  | repaint1 (s : State F) (r : PreviewResult) : s.pc = .repaint1 → Step s { repaintIfNeeded s r with pc := .startBake }
  | startBake (s : State F) : s.pc = .startBake → Step s { bakeIfIdle s with pc := .wait }
  | abort2 (s : State F) : s.pc = .wait → s.aborted → Step s { s with pc := .stopped }
  | events2 (s : State F) (e : Event F) (es : List (Event F)) : s.pc = .wait →
      Step s { (e :: es).foldl handleEvent s with pc := .repaint2 }
  | bakery (s : State F) (l1 : List (View F)) (v : View F) (l2 : List (View F)) (empty : Bool) : s.pc = .wait →
      s.pending = l1 ++ v :: l2 → Step s { handleBakery s v empty with pending := l1 ++ l2, pc := .repaint2 }
  | repaint2 (s : State F) (r : PreviewResult) : s.pc = .repaint2 → Step s { repaintIfNeeded s r with pc := .poll }

/-- States that can be reached. -/
inductive Reachable : State F → Prop
  | init : Reachable .init
  | step (s t : State F) : Reachable s → Step s t → Reachable t

end BR.Viewer
