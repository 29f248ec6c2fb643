import Verif.Model.Sequence

/-! Model of `/repo/cmd/halton/halton.go`, the command that prints sample points. -/

namespace BR

variable {F : Type} [Add F] [Sub F] [Mul F] [Div F] [Neg F] [GoFloat F]

/-- cmd/halton/halton.go:12-20, the flags. Integers do not overflow in the model. -/
structure HaltonFlags where
  a : Int := 2
  b : Int := 3
  s : Int := 1
  i : Int := 0
  n : Int := 300
  disk : Bool := false
  rnd : Bool := false

/-- tracer/sequence/halton.go:9-21 `Halton(b, i)` for all integers: for a negative index the loop is not entered, for a negative
base it ends after one round because the index has become negative. -/
def haltonInt (b i : Int) : GoM F :=
  if i + 1 ≤ 0 then .ok (lit 0)
  else if b < 0 then .ok (lit 0 + lit 1 / ofInt b * ofInt ((i + 1).tmod b))
  else halton b.toNat i.toNat

/-- cmd/halton/halton.go:29-40, one line. `rand` are the two random numbers drawn for it. -/
def HaltonFlags.line (f : HaltonFlags) (rand : F × F) (i : Int) : GoM (F × F) := do
  let u ← haltonInt f.a i
  let v ← haltonInt f.b i
  let uv := if f.rnd then rand else (u, v)
  if f.disk then
    let d := uniformDisk uv.1 uv.2
    return (d.1 / lit 2 + lit (1 / 2), d.2 / lit 2 + lit (1 / 2))
  else return uv

/-- How far the command has come. -/
inductive Ended
  | running
  | done
  | panicked (p : Panic)
deriving DecidableEq

/-- cmd/halton/halton.go:26-41, the loop, after `fuel` rounds: what it has printed and how far it is. -/
def HaltonFlags.loop (f : HaltonFlags) (rand : Nat → F × F) (max : Int) : Nat → Int → List (F × F) → List (F × F) × Ended
  | 0, i, out => (out, if i < max then .running else .done)
  | fuel + 1, i, out =>
    if i < max then
      match f.line (rand out.length) i with
      | .error p => (out, .panicked p)
      | .ok l => f.loop rand max fuel (i + f.s) (out ++ [l])
    else (out, .done)

/-- cmd/halton/halton.go:22-43 `main`, after `fuel` rounds of the loop. -/
def HaltonFlags.run (f : HaltonFlags) (rand : Nat → F × F) (fuel : Nat) : List (F × F) × Ended :=
  f.loop rand (f.s * (f.i + f.n)) fuel f.i []

end BR
