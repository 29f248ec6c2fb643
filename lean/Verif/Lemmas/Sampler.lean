import Verif.Spec.Sampler
import Verif.Num.Ext
import Mathlib.Algebra.BigOperators.Group.Finset.Basic
import Mathlib.Algebra.BigOperators.Ring.Finset
import Mathlib.Algebra.Order.BigOperators.Ring.Finset
import Mathlib.Tactic.Linarith
import Mathlib.Tactic.FieldSimp
import Mathlib.Tactic.LinearCombination

/-! Lemmas about pixel accumulators. -/

namespace BR

set_option linter.unusedSectionVars false

variable {F : Type} [Add F] [Sub F] [Mul F] [Div F] [Neg F] [GoFloat F]

theorem Cell.push_n (s : Cell F) (c : Color F) : (s.push c).n = s.n + 1 := by
  unfold Cell.push; split <;> rfl

theorem accumulate_n (g : Nat → Color F) (s : Cell F) (k : Nat) : (accumulate g s k).n = s.n + k := by
  induction k with
  | zero => rfl
  | succ k ih => rw [accumulate, Cell.push_n, ih]; omega

theorem accumulate_add (g : Nat → Color F) (s : Cell F) (a b : Nat) :
    accumulate g s (a + b) = accumulate g (accumulate g s a) b := by
  induction b with
  | zero => rfl
  | succ b ih => rw [← Nat.add_assoc, accumulate, ih]; rfl

open Finset in
/-- Exact accumulators of `n` real samples. -/
theorem accumulate_real (g : Nat → Color ℝ) (n : Nat) :
    accumulate g Cell.zero n =
      { n := n
        sum := ⟨∑ k ∈ range n, (g k).R, ∑ k ∈ range n, (g k).G, ∑ k ∈ range n, (g k).B⟩
        sumSq := ⟨∑ k ∈ range n, (g k).R ^ 2, ∑ k ∈ range n, (g k).G ^ 2,
          ∑ k ∈ range n, (g k).B ^ 2⟩ } := by
  induction n with
  | zero => simp [accumulate, Cell.zero, Color.black]
  | succ n ih =>
    rw [accumulate, ih]
    simp [Cell.push, Color.isNaN, Color.add, sum_range_succ, sq]

open Finset in
/-- The two-pass and the one-pass form of the sum of squared deviations. -/
theorem sum_sq_dev (x : Nat → ℝ) (n : Nat) (hn : 0 < n) :
    n * ∑ k ∈ range n, x k ^ 2 - (∑ k ∈ range n, x k) ^ 2
      = n * ∑ k ∈ range n, (x k - (∑ j ∈ range n, x j) / n) ^ 2 := by
  have hn' : (n : ℝ) ≠ 0 := by positivity
  set S := ∑ j ∈ range n, x j with hS
  have h1 : ∑ k ∈ range n, (x k - S / n) ^ 2
      = ∑ k ∈ range n, x k ^ 2 - 2 * (S / n) * S + n * (S / n) ^ 2 := by
    have : ∀ k ∈ range n, (x k - S / n) ^ 2 = x k ^ 2 - 2 * (S / n) * x k + (S / n) ^ 2 := by
      intros; ring
    rw [sum_congr rfl this, sum_add_distrib, sum_sub_distrib, ← mul_sum, ← hS]
    simp
  rw [h1]; field_simp; ring

end BR
