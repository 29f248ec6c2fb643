import Verif.Model.Sampler

/-! Specification of accumulation: what the accumulators of a pixel should hold. -/

namespace BR

variable {F : Type} [Add F] [Sub F] [Mul F] [Div F] [Neg F] [GoFloat F]

/-- The colour sequence of a pixel, pass by pass, added to accumulator `s`: pass `k` (counted from
the accumulator's pass count) contributes `g k`. -/
def accumulate (g : Nat → Color F) (s : Cell F) : Nat → Cell F
  | 0 => s
  | k + 1 => (accumulate g s k).push (g (accumulate g s k).n)

/-- An image function is deterministic on the `w × h` image with colours `g`: from every context
satisfying `I`, sampling pixel `p` in pass `k` yields colour `g p k` without panicking, and a context
satisfying `I` again. -/
def Deterministic {C : Type} (sh : Shader F C) (w h : Nat) (aa : Bool) (I : C → Prop)
    (g : Nat × Nat → Nat → Color F) : Prop :=
  ∀ ctx, I ctx → ∀ p : Nat × Nat, p.1 < w → p.2 < h → ∀ k,
    ∃ ctx', passColor sh w h aa ctx p k = .ok (g p k, ctx') ∧ I ctx'

/-- An image function that draws at random: from every context satisfying `I`, sampling pixel `p` in pass `k` yields
without panicking some colour that has property `P p k`, and a context satisfying `I` again. -/
def Possible {C : Type} (sh : Shader F C) (w h : Nat) (aa : Bool) (I : C → Prop)
    (P : Nat × Nat → Nat → Color F → Prop) : Prop :=
  ∀ ctx, I ctx → ∀ p : Nat × Nat, p.1 < w → p.2 < h → ∀ k,
    ∃ c ctx', passColor sh w h aa ctx p k = .ok (c, ctx') ∧ I ctx' ∧ P p k c

end BR
