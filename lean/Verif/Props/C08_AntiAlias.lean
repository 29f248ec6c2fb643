import Verif.Props.C07_PixelCoords
import Verif.Props.C09_Halton
import Verif.Lemmas.GoM

/-!
# C08 Anti-aliasing

The property is violated by the code: the sequence used for anti-aliasing is never initialised with
the pixel and pass, so every pixel is sampled at the same off-centre point in every pass, and for wide
images that point is outside the pixel. Exact arithmetic.
-/

namespace BR

/-- A context whose anti-aliasing sequence is as `NewCtx` made it. -/
def AAFresh {S : Type} (shifts : List (ℝ × ℝ)) (c : Ctx ℝ S) : Prop := c.aa = .new 2 3 1 shifts

theorem aaFresh_new {S : Type} (shifts : List (ℝ × ℝ)) (seed : S) :
    AAFresh shifts (Ctx.new shifts seed) := rfl

/-- Neither initialisation for a pixel and pass nor drawing numbers changes that. -/
theorem aaFresh_init {S : Type} {shifts : List (ℝ × ℝ)} {c c' : Ctx ℝ S} (h : AAFresh shifts c)
    (pixel pass : Nat) (hi : c.init pixel pass = .ok c') : AAFresh shifts c' := by
  unfold Ctx.init at hi
  cases h1 : c.seq1.init pixel pass <;> rw [h1] at hi
  · cases hi
  cases h2 : c.seq2.init pixel pass <;> rw [h2] at hi
  · cases hi
  cases h3 : c.seqL.init pixel pass <;> rw [h3] at hi
  · cases hi
  cases hi
  exact h

/-- The image function that reports the position it is called with. -/
noncomputable def positionShader (S : Type) : Shader ℝ (Ctx ℝ S) := ctxShader fun c u v => .ok (⟨u, v, 0⟩, c)

/-- With anti-aliasing every pass of a pixel samples the pixel centre displaced by exactly
`(0, -1/6)` pixel sizes: the position does not depend on the pass. -/
theorem C08_violated_constant {S : Type} {shifts : List (ℝ × ℝ)} (c : Ctx ℝ S) (h : AAFresh shifts c)
    (w hgt : Nat) (p : Nat × Nat) (pass : Nat) (hx : p.1 < w) (hy : p.2 < hgt)
    (hsh : w * p.2 + p.1 < c.seq1.shifts.length)
    (hsh2 : c.seq2.shifts = c.seq1.shifts) (hshL : c.seqL.shifts = c.seq1.shifts) :
    ∃ c', passColor (positionShader S) w hgt true c p pass = .ok
      (⟨((p.1 : ℝ) + 1/2) / w, 1/2 + ((hgt : ℝ) / 2 - (p.2 + 1/2)) / w - 1/6 * pixelSize w hgt, 0⟩, c')
      := by
  have h1 : (p.1 : ℝ) + 1 ≤ w := by exact_mod_cast hx
  have h2 : (p.2 : ℝ) + 1 ≤ hgt := by exact_mod_cast hy
  have h3 : (0 : ℝ) ≤ p.1 := Nat.cast_nonneg _
  have h4 : (0 : ℝ) ≤ p.2 := Nat.cast_nonneg _
  have hi : ∃ c', c.init (w * p.2 + p.1) pass = .ok c' := by
    unfold Ctx.init HaltonSeq.init
    rw [hsh2, hshL, List.getElem?_eq_getElem hsh]
    exact ⟨_, rfl⟩
  obtain ⟨c', hc'⟩ := hi
  have haa := aaFresh_init h _ _ hc'
  refine ⟨c', ?_⟩
  unfold passColor
  rw [C07_affine (by omega) (by omega) _ _ (by simp; linarith) (by simp; linarith)
    (by simp; linarith) (by simp; linarith)]
  have hg : (HaltonSeq.new 2 3 1 shifts).generate2 = .ok ((1/2 : ℝ), 1/3) := by
    unfold HaltonSeq.generate2
    simp only [HaltonSeq.new, C09_value (b := 2) (by norm_num), C09_value (b := 3) (by norm_num)]
    change Except.ok (frac (radInv 2 1 + lit 0), frac (radInv 3 1 + lit 0)) = _
    have e2 : radInv 2 1 = 1/2 := by simp [radInv, Nat.ofDigits]
    have e3 : radInv 3 1 = 1/3 := by simp [radInv, Nat.ofDigits]
    rw [e2, e3]
    have f2 : ⌊(1/2 : ℝ)⌋ = 0 := by rw [Int.floor_eq_zero_iff]; norm_num
    have f3 : ⌊(1/3 : ℝ)⌋ = 0 := by rw [Int.floor_eq_zero_iff]; norm_num
    simp only [frac, lit_real, floor_real]
    norm_num at f2 f3 ⊢
  have hg' : c'.aa.generate2 = .ok ((1/2 : ℝ), 1/3) := by rw [show c'.aa = _ from haa, hg]
  simp only [ok_bind, positionShader, ctxShader, hc', hg', pure_ok, if_true, lit_real, ofInt_real]
  congr 3
  · push_cast; ring
  · push_cast; ring

/-- For images more than three times as wide as high that point is outside the pixel: the vertical
displacement exceeds half the pixel pitch `1/w`. -/
theorem C08_violated_footprint {w h : Nat} (hh : 0 < h) (hw : 3 * h < w) :
    1/2 * (1 / (w : ℝ)) < 1/6 * pixelSize w h := by
  have h1 : (0 : ℝ) < h := by exact_mod_cast hh
  have h2 : (3 : ℝ) * h < w := by exact_mod_cast hw
  have h3 : (0 : ℝ) < w := by linarith
  have : ¬ ((w : ℝ) < h) := by linarith
  simp only [pixelSize, ofInt_real, lt_real, Int.cast_natCast, this, decide_false, lit_real]
  push_cast
  have : 1/6 * (1 / (h : ℝ)) = 1 / (6 * h) := by field_simp
  rw [this]
  have : 1/2 * (1 / (w : ℝ)) = 1 / (2 * w) := by field_simp
  rw [this]
  apply one_div_lt_one_div_of_lt <;> linarith

/-- What does hold: for images at least as high as wide, any pair in the unit square displaces the
sample by at most half a pixel pitch in both directions. -/
theorem C08_footprint_partial {w h : Nat} (hw : 0 < w) (hwh : w ≤ h) (u v : ℝ)
    (hu : 0 ≤ u ∧ u ≤ 1) (hv : 0 ≤ v ∧ v ≤ 1) :
    |pixelSize w h * (u - 1/2)| ≤ 1/2 * (1 / (w : ℝ)) ∧
    |pixelSize w h * (v - 1/2)| ≤ 1/2 * (1 / (w : ℝ)) := by
  have hp : pixelSize (F := ℝ) w h = 1 / w := by
    have : (w : ℝ) ≤ h := by exact_mod_cast hwh
    rcases this.lt_or_eq with h1 | h1
    · simp [pixelSize, h1]
    · simp [pixelSize, h1]
  have hpos : (0 : ℝ) ≤ 1 / w := by positivity
  rw [hp]
  have key : ∀ t : ℝ, 0 ≤ t → t ≤ 1 → |1 / (w : ℝ) * (t - 1/2)| ≤ 1/2 * (1 / (w : ℝ)) := by
    intro t h1 h2
    rw [abs_mul, abs_of_nonneg hpos, mul_comm]
    exact mul_le_mul_of_nonneg_right (abs_le.2 ⟨by linarith, by linarith⟩) hpos
  exact ⟨key u hu.1 hu.2, key v hv.1 hv.2⟩

/-- Non-vacuity: in a 4x1 image with enough shifts the sample of pixel (1,0) is displaced by more
than half a pixel, in every pass. -/
example (pass : Nat) : ∃ c', passColor (positionShader Unit) 4 1 true
    (Ctx.new (List.replicate 4 (0, 0)) ()) (1, 0) pass = .ok (⟨3/8, 1/2 - 1/6, 0⟩, c') := by
  obtain ⟨c', h⟩ := C08_violated_constant (Ctx.new (List.replicate 4 ((0 : ℝ), (0 : ℝ))) ())
    (aaFresh_new _ _) 4 1 (1, 0) pass (by norm_num) (by norm_num) (by simp [Ctx.new, HaltonSeq.new])
    rfl rfl
  refine ⟨c', ?_⟩
  rw [h]
  simp [pixelSize]
  norm_num

end BR
