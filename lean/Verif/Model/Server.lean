/-! Model of the bake requests of `/repo/api/server.go` as a transition system. Each request is a thread (HTTP handlers run
concurrently); a step is what happens between two points where other threads can interfere. Critical sections guarded by
`s.mu` are one step; the unguarded reads of `s.smplr` and `s.smplrNum` are steps of their own. Previews (server.go:90-95)
use no shared state and have no steps. Samplers are identified with the view they render: `NewSampler` is called with a
function of the view only. -/

namespace BR.Server

variable {V : Type}

/-- Where the handler of a bake request is. -/
inductive Pc (V : Type)
  | idle
  /-- After `prepareBakery`, server.go:98. -/
  | prepared (view : V) (cancel : Nat)
  /-- Inside `SampleWithCancel`, server.go:109: sampling the sampler of view `sampler`. -/
  | sampling (view : V) (cancel : Nat) (sampler : V) (passes : Nat)
  /-- After `SampleWithCancel`. -/
  | sampled (view : V)
  /-- After `s.smplr.Image()`, server.go:110, of the sampler of view `image`; before the deferred function. -/
  | finished (view : V) (image : V)
  /-- The handler returned the image of view `image`. -/
  | responded (view : V) (image : V)
  /-- The handler returned the error "already baking", server.go:123. -/
  | refused (view : V)

/-- server.go:29-33, the fields guarded by `mu`; channels are numbered in the order they are made. -/
structure State (V : Type) where
  cancel : Option Nat
  closed : Nat → Bool
  channels : Nat
  smplr : Option V
  smplrNum : Nat
  pc : Nat → Pc V
  /-- Whether a closed channel was closed again, which panics. -/
  crashed : Bool

/-- server.go:36-51 `newServer`. -/
def State.init : State V := ⟨none, fun _ => false, 0, none, 0, fun _ => .idle, false⟩

/-- Set the position of thread `i`. -/
def State.goto (s : State V) (i : Nat) (p : Pc V) : State V := { s with pc := fun j => if j = i then p else s.pc j }

/-- server.go:118-135 `prepareBakery`, by thread `i`. -/
def prepareBakery [DecidableEq V] (s : State V) (i : Nat) (v : V) : State V :=
  match s.cancel with
  | some _ => s.goto i (.refused v)
  | none =>
    let s1 := { s with cancel := some s.channels, channels := s.channels + 1 }
    let s2 := if s.smplr = some v then s1 else { s1 with smplr := some v, smplrNum := 1 }
    s2.goto i (.prepared v s.channels)

/-- server.go:102-107, the deferred function of `renderView`. -/
def deferred (s : State V) : State V := { s with cancel := none, smplrNum := s.smplrNum + 1 }

/-- server.go:137-146 `handleCancel`. -/
def handleCancel (s : State V) : State V :=
  match s.cancel with
  | none => s
  | some c => { s with crashed := s.crashed || s.closed c, closed := fun j => if j = c then true else s.closed j, cancel := none }

/-- What can happen. -/
inductive Action (V : Type)
  /-- A bake request for view `v` arrives at thread `i`. -/
  | bake (i : Nat) (v : V)
  | start (i : Nat)
  | stop (i : Nat)
  | image (i : Nat)
  | finish (i : Nat)
  /-- A cancel request. -/
  | cancel

/-- What happens next. -/
inductive Step [DecidableEq V] : State V → Action V → State V → Prop
  /-- server.go:98 -/
  | bake (s : State V) (i : Nat) (v : V) : s.pc i = .idle → Step s (.bake i v) (prepareBakery s i v)
  /-- server.go:109, the arguments are read. -/
  | start (s : State V) (i : Nat) (v : V) (c : Nat) (w : V) : s.pc i = .prepared v c → s.smplr = some w →
      Step s (.start i) (s.goto i (.sampling v c w s.smplrNum))
  /-- `SampleWithCancel` returns: it is done, or it saw that its channel is closed. -/
  | stop (s : State V) (i : Nat) (v : V) (c : Nat) (w : V) (n : Nat) : s.pc i = .sampling v c w n →
      Step s (.stop i) (s.goto i (.sampled v))
  /-- server.go:110 -/
  | image (s : State V) (i : Nat) (v w : V) : s.pc i = .sampled v → s.smplr = some w →
      Step s (.image i) (s.goto i (.finished v w))
  /-- The deferred function. -/
  | finish (s : State V) (i : Nat) (v w : V) : s.pc i = .finished v w →
      Step s (.finish i) ((deferred s).goto i (.responded v w))
  | cancel (s : State V) : Step s .cancel (handleCancel s)

end BR.Server
