import Verif.Model.Texture
import Verif.Lemmas.Geom
import Mathlib.Algebra.Order.Floor.Ring

/-! C43: procedural textures and coordinate changes, in exact arithmetic. -/

namespace BR.Texture

private theorem floorInt_real (x : ℝ) : floorInt x = ⌊x⌋ := by
  unfold floorInt
  change realTrunc (⌊x⌋ : ℝ) = _
  unfold realTrunc
  split_ifs <;> simp

private theorem tmod_two (n : Int) : n.tmod 2 = 0 ↔ Even n := by
  rw [Int.even_iff, Int.tmod_eq_emod]
  split_ifs <;> omega

/-- **C43 (checkers).** The colour is the first texture's if the numbers of the half periods in both directions that hold
the point have an even sum, and the second texture's otherwise. Also for negative coordinates. -/
theorem C43_checkers (pU pV u v w : ℝ) (a b : Tex ℝ) :
    (Even (⌊2 * pU * u⌋ + ⌊2 * pV * v⌋) → checkers pU pV a b ⟨u, v, w⟩ = a ⟨u, v, 0⟩) ∧
    (¬ Even (⌊2 * pU * u⌋ + ⌊2 * pV * v⌋) → checkers pU pV a b ⟨u, v, w⟩ = b ⟨u, v, 0⟩) := by
  unfold checkers
  simp only [floorInt_real, tmod_two, lit_real, Rat.cast_zero, Rat.cast_ofNat]
  rw [show u * (pU * 2) = 2 * pU * u by ring, show v * (pV * 2) = 2 * pV * v by ring]
  exact ⟨fun h => if_pos h, fun h => if_neg h⟩

/-- **C43 (checkers repeat).** With plain colours, moving by half a period in either direction exchanges the colours,
and moving by a whole number of periods changes nothing: everywhere, also across zero. -/
theorem C43_checkers_repeat (pU pV u v w : ℝ) (hU : pU ≠ 0) (hV : pV ≠ 0) (a b : Color ℝ) (m n : ℤ) :
    checkers pU pV a.tex b.tex ⟨u + 1 / (2 * pU), v, w⟩ = checkers pU pV b.tex a.tex ⟨u, v, w⟩ ∧
    checkers pU pV a.tex b.tex ⟨u, v + 1 / (2 * pV), w⟩ = checkers pU pV b.tex a.tex ⟨u, v, w⟩ ∧
    checkers pU pV a.tex b.tex ⟨u + m / pU, v + n / pV, w⟩ = checkers pU pV a.tex b.tex ⟨u, v, w⟩ := by
  unfold checkers Color.tex
  simp only [floorInt_real, tmod_two, lit_real, Rat.cast_ofNat]
  have e1 : (u + 1 / (2 * pU)) * (pU * 2) = u * (pU * 2) + 1 := by field_simp
  have e2 : (v + 1 / (2 * pV)) * (pV * 2) = v * (pV * 2) + 1 := by field_simp
  have e3 : (u + m / pU) * (pU * 2) = u * (pU * 2) + ((2 * m : ℤ) : ℝ) := by push_cast; field_simp
  have e4 : (v + n / pV) * (pV * 2) = v * (pV * 2) + ((2 * n : ℤ) : ℝ) := by push_cast; field_simp
  rw [e1, e2, e3, e4]
  simp only [Int.floor_add_one, Int.floor_add_intCast]
  generalize ⌊u * (pU * 2)⌋ = i
  generalize ⌊v * (pV * 2)⌋ = j
  refine ⟨?_, ?_, ?_⟩ <;> by_cases h : Even (i + j)
  · rw [if_pos h, if_neg (by rw [Int.even_iff] at *; omega)]
  · rw [if_neg h, if_pos (by rw [Int.even_iff] at *; omega)]
  · rw [if_pos h, if_neg (by rw [Int.even_iff] at *; omega)]
  · rw [if_neg h, if_pos (by rw [Int.even_iff] at *; omega)]
  · rw [if_pos h, if_pos (by rw [Int.even_iff] at *; omega)]
  · rw [if_neg h, if_neg (by rw [Int.even_iff] at *; omega)]

/-- A coordinate is nearer than `width` to a line of a grid of lines a distance `1 / pitch` apart. -/
private theorem near_line {width p x : ℝ} (hp : 0 < p) :
    (∃ k : ℤ, |x - k / p| < width) ↔ Int.fract (x * p) < width * p ∨ 1 - width * p < Int.fract (x * p) := by
  have key : ∀ k : ℤ, |x - k / p| < width ↔ |x * p - k| < width * p := by
    intro k
    rw [← mul_lt_mul_iff_left₀ hp]
    have : |x - k / p| * p = |x * p - k| := by
      rw [← abs_of_pos hp, ← abs_mul, abs_of_pos hp, sub_mul, div_mul_cancel₀ _ hp.ne']
    rw [this]
  simp only [key]
  have f0 := Int.fract_nonneg (x * p)
  have f1 := Int.fract_lt_one (x * p)
  have ef := Int.self_sub_floor (x * p)
  constructor
  · rintro ⟨k, hk⟩
    rw [abs_lt] at hk
    rcases le_or_gt k ⌊x * p⌋ with h | h
    · left
      have : (k : ℝ) ≤ ⌊x * p⌋ := by exact_mod_cast h
      linarith
    · right
      have : ((⌊x * p⌋ : ℤ) : ℝ) + 1 ≤ k := by exact_mod_cast h
      linarith
  · rintro (h | h)
    · exact ⟨⌊x * p⌋, by rw [ef, abs_of_nonneg f0]; exact h⟩
    · refine ⟨⌊x * p⌋ + 1, ?_⟩
      push_cast
      rw [abs_lt]
      constructor <;> linarith

/-- **C43 (grid).** The second texture is shown exactly at the points nearer than `width` to one of the lines
`u = k / pitchU` or `v = k / pitchV`, for all integers `k`. -/
theorem C43_grid (width pU pV u v w : ℝ) (hU : 0 < pU) (hV : 0 < pV) (a b : Tex ℝ) :
    ((∃ k : ℤ, |u - k / pU| < width) ∨ (∃ k : ℤ, |v - k / pV| < width) →
      grid width pU pV a b ⟨u, v, w⟩ = b ⟨u, v, 0⟩) ∧
    (¬ ((∃ k : ℤ, |u - k / pU| < width) ∨ (∃ k : ℤ, |v - k / pV| < width)) →
      grid width pU pV a b ⟨u, v, w⟩ = a ⟨u, v, 0⟩) := by
  rw [near_line hU, near_line hV]
  have ef : ∀ x : ℝ, frac x = Int.fract x := fun x => Int.self_sub_floor x
  unfold grid atUV
  simp only [ef, lit_real, Rat.cast_zero, Rat.cast_one, lt_real, Bool.or_eq_true, decide_eq_true_eq]
  constructor
  · intro h
    rw [if_pos (by tauto)]
  · intro h
    rw [if_neg (by tauto)]

/-- **C43 (moving and scaling).** A moved texture shows at `(u + δu, v + δv)` what the original shows at `(u, v)`; a
scaled one shows at `(u·su, v·sv)` what the original shows at `(u, v)`. -/
theorem C43_pan_scale (t : Tex ℝ) (u v w du dv su sv : ℝ) (hu : su ≠ 0) (hv : sv ≠ 0) :
    pan t du dv ⟨u + du, v + dv, w⟩ = t ⟨u, v, 0⟩ ∧ scaleUV t su sv ⟨u * su, v * sv, w⟩ = t ⟨u, v, 0⟩ := by
  unfold pan scaleUV panned atUV
  simp only [lit_real, Rat.cast_zero, Rat.cast_one, mul_one, add_sub_cancel_right, sub_zero]
  refine ⟨trivial, ?_⟩
  rw [show u * su * (1 / su) = u by field_simp, show v * sv * (1 / sv) = v by field_simp]

/-- Non-vacuity: with one period per unit, the point (-1/4, 1/4) shows the second colour and (-1/4, -1/4) the first; it
is on the grid of width 1/3 and not on that of width 1/10. -/
example : ¬ Even (⌊(2 : ℝ) * 1 * (-1 / 4)⌋ + ⌊(2 : ℝ) * 1 * (1 / 4)⌋) ∧
    Even (⌊(2 : ℝ) * 1 * (-1 / 4)⌋ + ⌊(2 : ℝ) * 1 * (-1 / 4)⌋) ∧ (∃ k : ℤ, |(-1 / 4 : ℝ) - k / 1| < 1 / 3) ∧
    ¬ ∃ k : ℤ, |(-1 / 4 : ℝ) - k / 1| < 1 / 10 := by
  have e1 : ⌊(2 : ℝ) * 1 * (-1 / 4)⌋ = -1 := by rw [Int.floor_eq_iff]; norm_num
  have e2 : ⌊(2 : ℝ) * 1 * (1 / 4)⌋ = 0 := by rw [Int.floor_eq_iff]; norm_num
  refine ⟨by rw [e1, e2]; decide, by rw [e1]; decide, ⟨0, by norm_num [abs_lt]⟩, ?_⟩
  rintro ⟨k, hk⟩
  rw [abs_lt] at hk
  rcases le_or_gt k (-1) with h | h
  · have : (k : ℝ) ≤ -1 := by exact_mod_cast h
    linarith [hk.2]
  · have : (0 : ℝ) ≤ k := by exact_mod_cast h
    linarith [hk.1]

end BR.Texture
