import Verif.Model.HaltonTool
import Verif.Lemmas.GoM
import Mathlib.Tactic.Linarith
import Mathlib.Tactic.Ring

/-! The loop of the command that prints sample points. -/

namespace BR
set_option linter.unusedSectionVars false

variable {F : Type} [Add F] [Sub F] [Mul F] [Div F] [Neg F] [GoFloat F]

/-- A loop whose lines can all be computed prints them in order and then ends. -/
theorem HaltonFlags.loop_lines (f : HaltonFlags) (hs : 1 ≤ f.s) (rand : Nat → F × F) (max : Int) (P : Nat → F × F → Prop) (i0 : Int)
    (hline : ∀ k : Nat, i0 + k * f.s < max → ∃ l, f.line (rand k) (i0 + k * f.s) = .ok l ∧ P k l) :
    ∀ (N : Nat) (i : Int) (out : List (F × F)), i = i0 + out.length * f.s → (∀ k (h : k < out.length), P k out[k]) →
      (∀ k : Nat, k < out.length → i0 + k * f.s < max) → max - i ≤ N →
      ∀ fuel, N ≤ fuel → ∃ lines, f.loop rand max fuel i out = (lines, .done) ∧ (∀ k (h : k < lines.length), P k lines[k]) ∧
        ∀ k : Nat, k < lines.length ↔ i0 + k * f.s < max := by
  have stop : ∀ (i : Int) (out : List (F × F)), i = i0 + out.length * f.s → (∀ k : Nat, k < out.length → i0 + k * f.s < max) → max ≤ i →
      ∀ k : Nat, k < out.length ↔ i0 + k * f.s < max := by
    intro i out hi hlt hmax k
    refine ⟨hlt k, fun h => ?_⟩
    by_contra hk
    have : (out.length : Int) ≤ k := by omega
    have := mul_le_mul_of_nonneg_right this (by linarith : 0 ≤ f.s)
    linarith
  intro N
  induction N with
  | zero =>
    intro i out hi hP hlt hN fuel _
    refine ⟨out, ?_, hP, stop i out hi hlt (by push_cast at hN; linarith)⟩
    cases fuel with
    | zero => rw [HaltonFlags.loop, if_neg (by push_cast at hN; linarith)]
    | succ fuel => rw [HaltonFlags.loop, if_neg (by push_cast at hN; linarith)]
  | succ N ih =>
    intro i out hi hP hlt hN fuel hf
    obtain ⟨fuel, rfl⟩ : ∃ m, fuel = m + 1 := ⟨fuel - 1, by omega⟩
    by_cases hc : i < max
    · obtain ⟨l, e, hl⟩ := hline out.length (hi ▸ hc)
      rw [HaltonFlags.loop, if_pos hc, hi, e]
      dsimp only
      refine ih _ _ (by rw [List.length_append]; push_cast [List.length_singleton]; ring) ?_ ?_ ?_ fuel (by omega)
      · intro k hk
        rw [List.length_append, List.length_singleton] at hk
        by_cases hk' : k < out.length
        · rw [List.getElem_append_left hk']
          exact hP k hk'
        · obtain rfl : k = out.length := by omega
          simpa using hl
      · intro k hk
        rw [List.length_append, List.length_singleton] at hk
        by_cases hk' : k < out.length
        · exact hlt k hk'
        · obtain rfl : k = out.length := by omega
          rw [← hi]; exact hc
      · push_cast at hN ⊢
        rw [← hi]
        linarith
    · refine ⟨out, ?_, hP, stop i out hi hlt (by linarith)⟩
      rw [HaltonFlags.loop, if_neg hc]

/-- The loop of the whole command. -/
theorem HaltonFlags.run_lines (f : HaltonFlags) (hs : 1 ≤ f.s) (rand : Nat → F × F) (P : Nat → F × F → Prop)
    (hline : ∀ k : Nat, f.i + k * f.s < f.s * (f.i + f.n) → ∃ l, f.line (rand k) (f.i + k * f.s) = .ok l ∧ P k l) (fuel : Nat) (hf : f.s * (f.i + f.n) - f.i ≤ fuel) :
    ∃ lines, f.run rand fuel = (lines, .done) ∧ (∀ k (h : k < lines.length), P k lines[k]) ∧
      ∀ k : Nat, k < lines.length ↔ f.i + k * f.s < f.s * (f.i + f.n) :=
  f.loop_lines hs rand (f.s * (f.i + f.n)) P f.i hline fuel f.i [] (by simp) (by simp) (by simp) hf fuel le_rfl

end BR
