import Verif.Num.GoFloat

/-! Model of `/repo/cmd/bruteray-watch/main.go`: rerun a program whenever its source file changes. -/

namespace BR

/-- What happens during one round of the loop of `watch` (main.go:27-35): programs end by themselves meanwhile, the
modification time of the file is read (or that fails), and if the program is rerun: compiling fails or makes a program
from the file as it was last modified at that time, and the program can be started or not. -/
structure Poll where
  exited : Nat → Bool
  stat : Option Nat
  built : Option Nat
  starts : Bool

/-- The variables `ts` (`none` is the zero time) and `last` of main.go:26, 38, and the world: the processes started, the
latest first, and those that run. A process is a number and the modification time of its source. -/
structure WatchState where
  ts : Option Nat
  last : Option Nat
  started : List (Nat × Nat)
  running : List (Nat × Nat)

/-- main.go:41-48: kill the last program, if any. -/
def killLast (s : WatchState) : WatchState :=
  match s.last with
  | none => s
  | some pid => { s with running := s.running.filter fun q => q.1 != pid }

/-- main.go:40-72 `rerun`. Killing a process that has ended gives an error that is only printed; `Wait` returns when the
process has ended. If the program cannot be started, `cmd.Process` is nil in line 66. -/
def rerunProgram (p : Poll) (s : WatchState) : GoM WatchState :=
  let s := killLast s
  match p.built with
  | none => .ok s
  | some v =>
    if p.starts then
      let proc := (s.started.length, v)
      .ok { s with last := some proc.1, started := proc :: s.started, running := proc :: s.running }
    else .error .nilDeref

/-- main.go:27-35, one round. If the file cannot be found the program ends. -/
def pollFile (s : WatchState) (p : Poll) : GoM WatchState :=
  let s := { s with running := s.running.filter fun q => !p.exited q.1 }
  match p.stat with
  | none => .error (.msg "stat")
  | some t =>
    if some t ≠ s.ts then do
      let s ← rerunProgram p s
      return { s with ts := some t }
    else .ok s

/-- main.go:25-36 `watch`, for so many rounds. -/
def watchFile (polls : List Poll) : GoM WatchState := polls.foldlM pollFile ⟨none, none, [], []⟩

end BR
