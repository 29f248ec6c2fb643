import Verif.Model.Sequence

/-! Model of `/repo/tracer/ctx.go`: the per-worker context. -/

namespace BR

variable {F : Type} [Add F] [Sub F] [Mul F] [Div F] [Neg F] [GoFloat F]

/-- tracer/ctx.go:115-118 `pool` of rays. Rays are heap objects; the model names them by numbers.
`free` is the slice `p.p` (last element = list head), `next` is the next address `new(Ray)` returns. -/
structure Pool where
  free : List Nat
  next : Nat

namespace Pool

/-- tracer/ctx.go:120-127 `get`: reuse the last recycled ray or allocate. -/
def get (p : Pool) : Nat × Pool :=
  match p.free with
  | [] => (p.next, { p with next := p.next + 1 })
  | r :: rest => (r, { p with free := rest })

/-- tracer/ctx.go:129-131 `put`. -/
def put (p : Pool) (r : Nat) : Pool := { p with free := r :: p.free }

end Pool

/-- A source of pseudo-random pairs, tracer/sequence/sequence.go:16-29 (`math/rand` seeded with the
clock). `S` is its hidden state; the model knows nothing else about it. -/
structure Rng (F S : Type) where
  next2 : S → (F × F) × S

/-- tracer/ctx.go:28-43 `Ctx` without statistics. `heap` holds the contents of pool rays. -/
structure Ctx (F S : Type) where
  depth : Int
  seq1 : HaltonSeq F
  seq2 : HaltonSeq F
  seq3 : S
  seqL : HaltonSeq F
  aa : HaltonSeq F
  rays : Pool

namespace Ctx

variable {S : Type}

/-- tracer/ctx.go:47-67 `NewCtx` (`pseudo` is the constant false). The shifts come from a
fixed-seed generator; `shifts` is an arbitrary list here. -/
def new (shifts : List (F × F)) (seed : S) : Ctx F S :=
  { depth := 0
    seq1 := .new 2 3 1 shifts
    seq2 := .new 5 7 1 shifts
    seq3 := seed
    seqL := .new 5 7 11 shifts
    aa := .new 2 3 1 shifts
    rays := { free := [], next := 0 } }

/-- tracer/ctx.go:69-74 `Init`. The pseudo-random sequence ignores it, and `AA` is not initialised
by the code. -/
def init (c : Ctx F S) (pixel pass : Nat) : GoM (Ctx F S) := do
  let s1 ← c.seq1.init pixel pass
  let s2 ← c.seq2.init pixel pass
  let sL ← c.seqL.init pixel pass
  return { c with seq1 := s1, seq2 := s2, seqL := sL }

/-- tracer/ctx.go:76-88 `Generate2`. -/
def generate2 (rng : Rng F S) (c : Ctx F S) : GoM ((F × F) × Ctx F S) :=
  if c.depth = 0 then .error (.msg "Ctx.Generate2: bad recursion depth") else
  if c.depth = 1 then do return (← c.seq1.generate2, c)
  else if c.depth = 2 then do return (← c.seq2.generate2, c)
  else
    let (uv, s) := rng.next2 c.seq3
    .ok (uv, { c with seq3 := s })

/-- tracer/ctx.go:90-92 `GenerateLens`. -/
def generateLens (rng : Rng F S) (c : Ctx F S) : (F × F) × Ctx F S :=
  let (uv, s) := rng.next2 c.seq3
  (uv, { c with seq3 := s })

/-- tracer/ctx.go:98-101 `IsInitial`: asserts that tracing has started. -/
def isInitial (c : Ctx F S) : GoM Bool :=
  if c.depth = 0 then .error (.msg "assertion failed") else .ok (c.depth == 1)

end Ctx

/-- A context pool with the contents of its rays: tracer/ctx.go:103-131. -/
structure RayHeap (F : Type) where
  pool : Pool
  heap : Nat → Ray F

namespace RayHeap

/-- tracer/ctx.go:103-110 `Ctx.Ray`: a ray from the pool, overwritten with `Ray{}`. -/
def ray (s : RayHeap F) : Nat × RayHeap F :=
  let (r, p) := s.pool.get
  (r, { pool := p, heap := fun i => if i = r then ⟨.zero, .zero⟩ else s.heap i })

/-- tracer/ctx.go:112-115 `PutRay`. -/
def putRay (s : RayHeap F) (r : Nat) : RayHeap F := { s with pool := s.pool.put r }

/-- The caller writes to a ray it holds. -/
def write (s : RayHeap F) (r : Nat) (v : Ray F) : RayHeap F :=
  { s with heap := fun i => if i = r then v else s.heap i }

end RayHeap

end BR
