import Verif.Model.Color
import Verif.Lemmas.ExtIs
import Mathlib.Tactic.NormNum
import Mathlib.Tactic.Linarith
import Mathlib.Analysis.SpecialFunctions.Pow.NNReal
import Mathlib.Analysis.SpecialFunctions.Pow.Deriv

/-! C38: the sRGB transfer function. -/

namespace BR

/-! The two branches of the curve over the reals. -/

private theorem clip_real (c : ℝ) : clip c = max 0 (min c 1) := by
  unfold clip
  simp only [lt_real, lit_real, decide_eq_true_eq]
  push_cast
  rcases lt_or_ge c 0 with h | h
  · rw [if_pos h]
    rw [if_neg (by norm_num), min_eq_left (by linarith), max_eq_left h.le]
  · rw [if_neg (not_lt.2 h)]
    rcases lt_or_ge 1 c with h1 | h1
    · rw [if_pos h1, min_eq_right h1.le, max_eq_right (by norm_num)]
    · rw [if_neg (not_lt.2 h1), min_eq_left h1, max_eq_right h]

private theorem clip_mem (c : ℝ) : 0 ≤ clip c ∧ clip c ≤ 1 := by
  rw [clip_real]
  exact ⟨le_max_left _ _, max_le (by norm_num) (min_le_right _ _)⟩

private theorem clip_mono {a b : ℝ} (h : a ≤ b) : clip a ≤ clip b := by
  rw [clip_real, clip_real]
  exact max_le_max le_rfl (min_le_min h le_rfl)

private theorem clip_id {c : ℝ} (h0 : 0 ≤ c) (h1 : c ≤ 1) : clip c = c := by
  rw [clip_real, min_eq_left h1, max_eq_right h0]

/-- The curve after clipping. -/
private noncomputable def curve (c : ℝ) : ℝ :=
  if c ≤ 31308 / 10000000 then 1292 / 100 * c else min 1 (1055 / 1000 * c ^ (5 / 12 : ℝ) - 5 / 100)

private theorem l2s_eq (c : ℝ) : linearToSRGB c = curve (clip c) := by
  unfold linearToSRGB curve
  simp only [lt_real, le_real, lit_real, pow_real, decide_eq_true_eq]
  push_cast
  rw [show (1 / (24 / 10) : ℝ) = 5 / 12 by norm_num]
  split_ifs with h1 h2
  · rfl
  · rw [min_eq_left h2.le]
  · rw [min_eq_right (not_lt.1 h2)]

private theorem pow_low {c : ℝ} (h : 31308 / 10000000 < c) : (9 / 100 : ℝ) ≤ c ^ (5 / 12 : ℝ) := by
  have h0 : (0 : ℝ) ≤ c := by linarith
  have e : c ^ (5 / 12 : ℝ) = (c ^ (5 : ℕ)) ^ ((12 : ℕ) : ℝ)⁻¹ := by
    rw [← Real.rpow_natCast, ← Real.rpow_mul h0]; norm_num
  rw [e]
  have h1 : ((9 / 100 : ℝ) ^ (12 : ℕ)) ^ ((12 : ℕ) : ℝ)⁻¹ = 9 / 100 := Real.pow_rpow_inv_natCast (by norm_num) (by norm_num)
  rw [← h1]
  refine Real.rpow_le_rpow (by positivity) ?_ (by positivity)
  calc (9 / 100 : ℝ) ^ 12 ≤ (31308 / 10000000) ^ 5 := by norm_num
    _ ≤ c ^ 5 := by gcongr

private theorem curve_mem {c : ℝ} (h0 : 0 ≤ c) : 0 ≤ curve c ∧ curve c ≤ 1 := by
  unfold curve
  split_ifs with h
  · constructor <;> linarith
  · have := pow_low (not_le.1 h)
    exact ⟨le_min (by norm_num) (by linarith), min_le_left _ _⟩

private theorem curve_mono {a b : ℝ} (h0 : 0 ≤ a) (h : a ≤ b) : curve a ≤ curve b := by
  unfold curve
  split_ifs with h1 h2 h2
  · linarith
  · have := pow_low (not_le.1 h2)
    exact le_min (by linarith) (by linarith)
  · linarith
  · refine min_le_min le_rfl ?_
    have := Real.rpow_le_rpow h0 h (show (0 : ℝ) ≤ 5 / 12 by norm_num)
    linarith

/-- Every real number is mapped into `[0, 1]`. -/
theorem C38_range (c : ℝ) : 0 ≤ linearToSRGB c ∧ linearToSRGB c ≤ 1 := by
  rw [l2s_eq]; exact curve_mem (clip_mem c).1

/-- The transfer function is monotone. -/
theorem C38_monotone (a b : ℝ) (h : a ≤ b) : linearToSRGB a ≤ linearToSRGB b := by
  rw [l2s_eq, l2s_eq]; exact curve_mono (clip_mem a).1 (clip_mono h)

private theorem clip_is {e : Ext} {x : ℝ} (h : e.Is x) : (clip e).Is (clip x) := by
  have l0 : (lit 0 : Ext).Is 0 := by simpa using Ext.Is.lit 0
  have l1 : (lit 1 : Ext).Is 1 := by simpa using Ext.Is.lit 1
  unfold clip
  simp only [h.lt l0, lt_real, lit_real, Rat.cast_zero, Rat.cast_one]
  by_cases hx : x < 0
  · simp only [hx, decide_true, if_true, l1.lt l0]
    norm_num
    exact ⟨false, rfl⟩
  · simp only [hx, decide_false, Bool.false_eq_true, if_false, l1.lt h, decide_eq_true_eq]
    split_ifs
    · exact l1
    · exact h

private theorem l2s_of_clip {e : Ext} {x : ℝ} (h : (clip e).Is x) (h0 : 0 ≤ x) (h1 : x ≤ 1) :
    (linearToSRGB e).Is (linearToSRGB x) := by
  unfold linearToSRGB
  rw [clip_id h0 h1]
  have l1 : (lit 1 : Ext).Is 1 := by simpa using Ext.Is.lit 1
  simp only [h.le (Ext.Is.lit _), le_real, lt_real, lit_real, decide_eq_true_eq]
  by_cases hx : x ≤ ((31308 / 10000000 : ℚ) : ℝ)
  · rw [if_pos hx, if_pos hx]; exact (Ext.Is.lit _).mul h
  · rw [if_neg hx, if_neg hx]
    have hp : (GoFloat.pow (clip e) (lit (1 / (24 / 10))) : Ext).Is (x ^ (((1 / (24 / 10) : ℚ)) : ℝ)) := by
      obtain ⟨s, hs⟩ := h
      rw [hs]
      exact ⟨false, rfl⟩
    have hq := ((Ext.Is.lit (1055 / 1000)).mul hp).sub (Ext.Is.lit (5 / 100))
    rw [l1.lt hq]
    simp only [decide_eq_true_eq, pow_real, Rat.cast_one]
    split_ifs
    · exact l1
    · exact hq

/-- Also infinite values are mapped into `[0, 1]`; only NaN is not. -/
theorem C38_range_all (e : Ext) (h : e ≠ .nan) : ∃ x, (linearToSRGB e).Is x ∧ 0 ≤ x ∧ x ≤ 1 := by
  obtain ⟨x, hx, h0, h1⟩ : ∃ x, (clip e).Is x ∧ 0 ≤ x ∧ x ≤ 1 := by
    cases e with
    | nan => exact absurd rfl h
    | inf s =>
      cases s
      · exact ⟨1, ⟨false, by simp [clip]⟩, by norm_num, le_rfl⟩
      · exact ⟨0, ⟨false, by simp [clip]⟩, le_rfl, by norm_num⟩
    | num x s => exact ⟨clip x, clip_is ⟨s, rfl⟩, (clip_mem x).1, (clip_mem x).2⟩
  exact ⟨_, l2s_of_clip hx h0 h1, C38_range x⟩

private theorem trunc_range {x : ℝ} (h0 : 0 ≤ x) (h1 : x ≤ 1) : 0 ≤ realTrunc (x * 65535) ∧ realTrunc (x * 65535) ≤ 65535 := by
  unfold realTrunc
  rw [if_pos (by positivity)]
  refine ⟨Int.floor_nonneg.2 (by positivity), ?_⟩
  have : ⌊x * 65535⌋ ≤ ⌊(65535 : ℝ)⌋ := Int.floor_mono (by linarith)
  simpa using this

/-- The 16-bit channels of a colour without NaN are in range. -/
theorem C38_rgba (c : Color Ext) (h : c.R ≠ .nan ∧ c.G ≠ .nan ∧ c.B ≠ .nan) :
    (0 ≤ c.rgba.1 ∧ c.rgba.1 ≤ 65535) ∧ (0 ≤ c.rgba.2.1 ∧ c.rgba.2.1 ≤ 65535) ∧
    (0 ≤ c.rgba.2.2.1 ∧ c.rgba.2.2.1 ≤ 65535) ∧ c.rgba.2.2.2 = 65535 := by
  have key : ∀ e : Ext, e ≠ .nan → 0 ≤ GoFloat.trunc (linearToSRGB e * lit 65535) ∧
      GoFloat.trunc (linearToSRGB e * lit 65535) ≤ 65535 := by
    intro e he
    obtain ⟨x, hx, h0, h1⟩ := C38_range_all e he
    obtain ⟨s, hs⟩ := hx.mul (Ext.Is.lit 65535)
    rw [hs]
    change 0 ≤ realTrunc _ ∧ realTrunc _ ≤ 65535
    push_cast
    exact trunc_range h0 h1
  exact ⟨key _ h.1, key _ h.2.1, key _ h.2.2, rfl⟩

/-- The decoder inverts the encoder on the dark, linear part of the curve.
Missing: the rest of `[0, 1]`, where it is false, see `C38_violated_brighter`. -/
theorem C38_inverse_partial (c : ℝ) (h0 : 0 ≤ c) (h1 : c ≤ 31308 / 10000000) :
    sRGBToLinear (linearToSRGB c) = c := by
  rw [l2s_eq, clip_id h0 (by linarith), curve, if_pos h1]
  unfold sRGBToLinear
  simp only [le_real, lit_real, decide_eq_true_eq]
  push_cast
  rw [if_pos (by linarith)]
  field_simp

/-- At the ends of the interval the decoder inverts the encoder. -/
theorem C38_ends_partial : sRGBToLinear (linearToSRGB (0 : ℝ)) = 0 ∧ sRGBToLinear (linearToSRGB (1 : ℝ)) = 1 := by
  refine ⟨C38_inverse_partial 0 le_rfl (by norm_num), ?_⟩
  rw [l2s_eq, clip_id zero_le_one le_rfl, curve, if_neg (by norm_num), Real.one_rpow, min_eq_left (by norm_num)]
  unfold sRGBToLinear
  simp only [le_real, lit_real, pow_real, decide_eq_true_eq]
  push_cast
  rw [if_neg (by norm_num)]
  norm_num

/-- Everywhere on the curved part of the curve, decoding an encoded value gives a strictly
brighter one: the encoder subtracts 0.05 where the decoder adds 0.055. -/
theorem C38_violated_brighter (c : ℝ) (h0 : 31308 / 10000000 < c) (h1 : c < 1) :
    c < sRGBToLinear (linearToSRGB c) := by
  have hp := pow_low h0
  have hc0 : 0 ≤ c := by linarith
  rw [l2s_eq, clip_id hc0 h1.le, curve, if_neg (not_le.2 h0)]
  unfold sRGBToLinear
  simp only [le_real, lit_real, pow_real, decide_eq_true_eq]
  push_cast
  rw [if_neg (by
    rw [not_le]
    exact lt_min (by norm_num) (by linarith))]
  have hbase : c ^ (5 / 12 : ℝ) < (min 1 (1055 / 1000 * c ^ (5 / 12 : ℝ) - 5 / 100) + 55 / 1000) / (1 + 55 / 1000) := by
    rw [lt_div_iff₀ (by norm_num)]
    rcases min_cases (1 : ℝ) (1055 / 1000 * c ^ (5 / 12 : ℝ) - 5 / 100) with ⟨e, _⟩ | ⟨e, _⟩
    · rw [e]
      have : c ^ (5 / 12 : ℝ) < 1 := Real.rpow_lt_one hc0 h1 (by norm_num)
      linarith
    · rw [e]; linarith
  have := Real.rpow_lt_rpow (by positivity) hbase (show (0 : ℝ) < 24 / 10 by norm_num)
  rwa [← Real.rpow_mul hc0, show (5 / 12 * (24 / 10) : ℝ) = 1 by norm_num, Real.rpow_one] at this

/-- All values from 0.99 up are encoded as 1: the encoder is not injective on `[0, 1]`. -/
theorem C38_violated_saturates (c : ℝ) (h0 : 99 / 100 ≤ c) : linearToSRGB c = 1 := by
  refine le_antisymm (C38_range c).2 ?_
  refine le_trans ?_ (C38_monotone _ _ h0)
  rw [l2s_eq, clip_id (by norm_num) (by norm_num), curve, if_neg (by norm_num)]
  refine le_min le_rfl ?_
  have e : (99 / 100 : ℝ) ^ (5 / 12 : ℝ) = ((99 / 100 : ℝ) ^ (5 : ℕ)) ^ ((12 : ℕ) : ℝ)⁻¹ := by
    rw [← Real.rpow_natCast, ← Real.rpow_mul (by norm_num)]; norm_num
  have h1 : ((105 / 105.5 : ℝ) ^ (12 : ℕ)) ^ ((12 : ℕ) : ℝ)⁻¹ = 105 / 105.5 :=
    Real.pow_rpow_inv_natCast (by norm_num) (by norm_num)
  have h2 : (105 / 105.5 : ℝ) ≤ (99 / 100 : ℝ) ^ (5 / 12 : ℝ) := by
    rw [e, ← h1]
    exact Real.rpow_le_rpow (by positivity) (by norm_num) (by positivity)
  linarith

/-- `SRGBSlope` is the slope of the encoder wherever the encoder does not clip (off the joint of its two pieces). -/
theorem C38_slope (c : ℝ) (h0 : 0 < c) (hj : c ≠ 31308 / 10000000) (h1 : linearToSRGB c < 1) :
    HasDerivAt (linearToSRGB : ℝ → ℝ) (sRGBSlope c) c := by
  have hc1 : c < 99 / 100 := by
    by_contra h
    exact absurd (C38_violated_saturates c (not_lt.1 h)) h1.ne
  unfold sRGBSlope
  simp only [le_real, lit_real, pow_real, decide_eq_true_eq]
  push_cast
  rcases lt_or_gt_of_ne hj with h | h
  · rw [if_pos h.le]
    have hd : HasDerivAt (fun x : ℝ => 1292 / 100 * x) (1292 / 100) c := by
      simpa using (hasDerivAt_id c).const_mul (1292 / 100 : ℝ)
    refine hd.congr_of_eventuallyEq ?_
    filter_upwards [Ioo_mem_nhds h0 h] with x hx
    rw [l2s_eq, clip_id hx.1.le (by linarith [hx.2]), curve, if_pos hx.2.le]
  · rw [if_neg (not_le.2 h)]
    have hd : HasDerivAt (fun x : ℝ => 1055 / 1000 * x ^ (5 / 12 : ℝ) - 5 / 100)
        (1055 / 1000 * (1 / (24 / 10)) * c ^ ((1 / (24 / 10) : ℝ) - 1)) c := by
      have := ((Real.hasDerivAt_rpow_const (x := c) (p := 5 / 12) (.inl h0.ne')).const_mul (1055 / 1000 : ℝ)).sub_const
        (5 / 100 : ℝ)
      exact this.congr_deriv (by rw [show (1 / (24 / 10) : ℝ) = 5 / 12 by norm_num]; ring)
    refine hd.congr_of_eventuallyEq ?_
    have hlt : (1055 / 1000 * c ^ (5 / 12 : ℝ) - 5 / 100 : ℝ) < 1 := by
      rw [l2s_eq, clip_id h0.le (by linarith), curve, if_neg (not_le.2 h)] at h1
      rcases min_lt_iff.1 h1 with h | h
      · exact absurd h (lt_irrefl _)
      · exact h
    filter_upwards [Ioo_mem_nhds h hc1, hd.continuousAt.eventually_lt continuousAt_const hlt] with x hx hx2
    rw [l2s_eq, clip_id (by linarith [hx.1]) (by linarith [hx.2]), curve, if_neg (not_le.2 hx.1), min_eq_right hx2.le]

/-- A grey at which the slope is meant. -/
example : linearToSRGB (1 / 1000 : ℝ) < 1 ∧ (sRGBSlope (1 / 1000 : ℝ)) = 1292 / 100 := by
  constructor
  · rw [l2s_eq, clip_id (by norm_num) (by norm_num), curve, if_pos (by norm_num)]; norm_num
  · unfold sRGBSlope
    simp only [le_real, lit_real, decide_eq_true_eq]
    push_cast
    rw [if_pos (by norm_num)]

/-- The hypotheses of the partial inverse and of the violation are met by visible greys. -/
example : (0 : ℝ) ≤ 1 / 1000 ∧ (1 / 1000 : ℝ) ≤ 31308 / 10000000 ∧ (31308 / 10000000 : ℝ) < 1 / 2 ∧ (1 / 2 : ℝ) < 1 := by
  norm_num

end BR
