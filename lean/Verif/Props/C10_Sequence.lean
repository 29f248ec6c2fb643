import Verif.Props.C09_Halton
import Verif.Model.Ctx

/-!
# C10 Random-shifted sequences
-/

namespace BR

set_option linter.unusedSectionVars false

/-- Exact arithmetic: whatever the shift (the table of the code has shifts in [0,1)²), every generated
pair is in the half-open unit square. -/
theorem C10_range (s : HaltonSeq ℝ) (hu : 2 ≤ s.baseU) (hv : 2 ≤ s.baseV) :
    ∃ u v, s.generate2 = .ok (u, v) ∧ (0 ≤ u ∧ u < 1) ∧ (0 ≤ v ∧ v < 1) := by
  refine ⟨frac (radInv s.baseU (s.index + 1) + s.shiftU),
    frac (radInv s.baseV (s.index + 1) + s.shiftV), ?_, ?_, ?_⟩
  · unfold HaltonSeq.generate2
    rw [C09_value hu, C09_value hv]
    rfl
  · exact ⟨Int.fract_nonneg _, Int.fract_lt_one _⟩
  · exact ⟨Int.fract_nonneg _, Int.fract_lt_one _⟩

/-- Exact arithmetic: what is generated. For pixel `i` and pass `n` the pair consists of the `n`-th Halton
numbers of the two bases, the first moved by the pixel's first shift and the second by its second shift, both
modulo one. -/
theorem C10_value (s s' : HaltonSeq ℝ) (hu : 2 ≤ s.baseU) (hv : 2 ≤ s.baseV) (pixel pass : Nat) (dx dy : ℝ)
    (hsh : s.shifts[pixel]? = some (dx, dy)) (h : s.init pixel pass = .ok s') :
    s'.generate2 = .ok (Int.fract (radInv s.baseU (pass + 1) + dx), Int.fract (radInv s.baseV (pass + 1) + dy)) := by
  unfold HaltonSeq.init at h
  rw [hsh] at h
  cases h
  unfold HaltonSeq.generate2
  dsimp only
  rw [C09_value hu, C09_value hv]
  rfl

variable {F : Type} [Add F] [Sub F] [Mul F] [Div F] [Neg F] [GoFloat F]

/-- Any number type: after initialisation the pair is a function of the pass, the bases and the
pixel's shift only. Whatever the two sequences generated or were initialised with before, they agree
if the shift tables give the two pixels the same shift. -/
theorem C10_pure (s t s' t' : HaltonSeq F) (pixel pixel' pass : Nat)
    (hb : s.baseU = t.baseU ∧ s.baseV = t.baseV) (hsh : s.shifts[pixel]? = t.shifts[pixel']?)
    (hs : s.init pixel pass = .ok s') (ht : t.init pixel' pass = .ok t') :
    s'.generate2 = t'.generate2 := by
  unfold HaltonSeq.init at hs ht
  cases h1 : s.shifts[pixel]? with
  | none => rw [h1] at hs; cases hs
  | some sh =>
    rw [h1] at hs
    rw [← hsh, h1] at ht
    cases hs
    cases ht
    simp only [HaltonSeq.generate2, hb.1, hb.2]

/-- Initialisation succeeds exactly for pixels that have a shift. -/
theorem C10_init (s : HaltonSeq F) (pixel pass : Nat) :
    (∃ s', s.init pixel pass = .ok s') ↔ pixel < s.shifts.length := by
  unfold HaltonSeq.init
  by_cases h : pixel < s.shifts.length
  · rw [List.getElem?_eq_getElem h]; simp [h]
  · rw [List.getElem?_eq_none (by omega)]; simp [h]

/-- The context of a `w × h` sampler has one shift per pixel, so initialisation succeeds for every
pixel of the image and every pass. -/
theorem C10_ctx_init {S : Type} (w h : Nat) (shifts : List (F × F)) (hlen : shifts.length = w * h)
    (seed : S) (x y pass : Nat) (hx : x < w) (hy : y < h) :
    ∃ c', (Ctx.new shifts seed).init (w * y + x) pass = .ok c' := by
  have hlt : w * y + x < shifts.length := by
    rw [hlen]
    calc w * y + x < w * y + w := by omega
      _ = w * (y + 1) := by ring
      _ ≤ w * h := Nat.mul_le_mul_left w hy
  unfold Ctx.init HaltonSeq.init
  simp only [Ctx.new, HaltonSeq.new, List.getElem?_eq_getElem hlt]
  exact ⟨_, rfl⟩

/-- Repeated draws at the same depth give the same pair: the sequences do not advance. -/
theorem C10_repeated {S : Type} (rng : Rng F S) (c c' : Ctx F S) (uv : F × F)
    (hd : c.depth = 1 ∨ c.depth = 2) (h : c.generate2 rng = .ok (uv, c')) :
    c' = c ∧ c'.generate2 rng = .ok (uv, c') := by
  have : c' = c := by
    unfold Ctx.generate2 at h
    rcases hd with hd | hd
    · simp only [hd] at h
      cases h1 : c.seq1.generate2 with
      | error e => rw [h1] at h; cases h
      | ok r => rw [h1] at h; cases h; rfl
    · simp only [hd] at h
      cases h1 : c.seq2.generate2 with
      | error e => rw [h1] at h; cases h
      | ok r => rw [h1] at h; cases h; rfl
  subst this
  exact ⟨rfl, h⟩

/-- Non-vacuity of `C10_value`. -/
example : (HaltonSeq.new 2 3 1 [((0.25 : ℝ), (0.5 : ℝ)), (0.75, 0.125)]).shifts[1]? =
    some ((0.75 : ℝ), (0.125 : ℝ)) := rfl

/-- Non-vacuity: two pixels with the same shift. -/
example : ∃ s', (HaltonSeq.new 2 3 1 [((0.25 : ℝ), (0.5 : ℝ)), (0.25, 0.5)]).init 1 7 = .ok s' := by
  rw [C10_init]; simp [HaltonSeq.new]

end BR
