import Verif.Spec.Radiance
import Verif.Lemmas.ExtIs
import Mathlib.Tactic.Linarith
import Mathlib.Tactic.Positivity
import Mathlib.Tactic.FieldSimp

/-! Ranges of extended numbers. -/

namespace BR
namespace Ext

variable {x y : Ext} {L K : ℝ}

theorem In.orNaN (h : x.In L) : x.InOrNaN L := .inr h
theorem In.nonneg (h : x.In L) : x.NonnegOrNaN := by
  obtain ⟨v, h, h0, -⟩ := h; exact .inr (.inr ⟨v, h, h0⟩)
theorem InOrNaN.nonneg (h : x.InOrNaN L) : x.NonnegOrNaN := by
  rcases h with h | h
  · exact .inl h
  · exact h.nonneg
theorem Nonneg.orNaN (h : x.Nonneg) : x.NonnegOrNaN := .inr (.inr h)

theorem is_num (v : ℝ) (s : Bool) : (num v s).Is v := ⟨s, rfl⟩

theorem InOrNaN.mono (h : x.InOrNaN L) (hL : L ≤ K) : x.InOrNaN K := by
  rcases h with h | ⟨v, h, h0, h1⟩
  · exact .inl h
  · exact .inr ⟨v, h, h0, h1.trans hL⟩

theorem InOrNaN.add (hx : x.InOrNaN L) (hy : y.InOrNaN K) : (x + y).InOrNaN (L + K) := by
  rcases hx with rfl | ⟨v, hv, v0, v1⟩
  · exact .inl (nan_add _)
  rcases hy with rfl | ⟨w, hw, w0, w1⟩
  · exact .inl (add_nan _)
  exact .inr ⟨v + w, hv.add hw, add_nonneg v0 w0, add_le_add v1 w1⟩

theorem InOrNaN.mul (hx : x.InOrNaN L) (hy : y.InOrNaN K) : (x * y).InOrNaN (L * K) := by
  rcases hx with rfl | ⟨v, hv, v0, v1⟩
  · exact .inl (nan_mul _)
  rcases hy with rfl | ⟨w, hw, w0, w1⟩
  · exact .inl (mul_nan _)
  exact .inr ⟨v * w, hv.mul hw, mul_nonneg v0 w0, mul_le_mul v1 w1 w0 (v0.trans v1)⟩

/-- A weighted mean of two values in range is in range. -/
theorem InOrNaN.blend {w : Ext} (hw : w.InOrNaN 1) (hx : x.InOrNaN L) (hy : y.InOrNaN L) :
    (w * x + (lit 1 - w) * y).InOrNaN L := by
  rcases hw with rfl | ⟨w, hw, w0, w1⟩
  · exact .inl (by simp)
  rcases hx with rfl | ⟨v, hv, v0, v1⟩
  · exact .inl (by simp)
  rcases hy with rfl | ⟨u, hu, u0, u1⟩
  · exact .inl (by simp)
  have h1 : (BR.lit 1 : Ext).Is 1 := by simpa using Is.lit 1
  exact .inr ⟨_, (hw.mul hv).add ((h1.sub hw).mul hu), by have := sub_nonneg.2 w1; positivity, by nlinarith⟩

theorem one_sub (h : x.InOrNaN 1) : (lit 1 - x).InOrNaN 1 := by
  rcases h with rfl | ⟨w, hw, w0, w1⟩
  · exact .inl (sub_nan _)
  have h1 : (BR.lit 1 : Ext).Is 1 := by simpa using Is.lit 1
  exact .inr ⟨_, h1.sub hw, by linarith, by linarith⟩

theorem NonnegOrNaN.add (hx : x.NonnegOrNaN) (hy : y.NonnegOrNaN) : (x + y).NonnegOrNaN := by
  rcases hx with rfl | rfl | ⟨v, ⟨s, rfl⟩, v0⟩
  · exact .inl (nan_add _)
  · rcases hy with rfl | rfl | ⟨w, ⟨t, rfl⟩, w0⟩
    · exact .inl (add_nan _)
    · exact .inr (.inl (by simp))
    · exact .inr (.inl rfl)
  · rcases hy with rfl | rfl | ⟨w, ⟨t, rfl⟩, w0⟩
    · exact .inl (add_nan _)
    · exact .inr (.inl rfl)
    · exact .inr (.inr ⟨v + w, (is_num v s).add (is_num w t), add_nonneg v0 w0⟩)

theorem sgn_of_pos {v : ℝ} (h : 0 < v) (s : Bool) : sgn (num v s) = false := by
  simp [sgn, h.ne', h.le]

theorem NonnegOrNaN.mul (hx : x.NonnegOrNaN) (hy : y.NonnegOrNaN) : (x * y).NonnegOrNaN := by
  rcases hx with rfl | rfl | ⟨v, ⟨s, rfl⟩, v0⟩
  · exact .inl (nan_mul _)
  · rcases hy with rfl | rfl | ⟨w, ⟨t, rfl⟩, w0⟩
    · exact .inl (mul_nan _)
    · exact .inr (.inl (by simp))
    · rw [inf_mul_num]
      split
      · exact .inl rfl
      · rename_i h
        rw [sgn_of_pos (lt_of_le_of_ne w0 (Ne.symm h))]
        exact .inr (.inl rfl)
  · rcases hy with rfl | rfl | ⟨w, ⟨t, rfl⟩, w0⟩
    · exact .inl (mul_nan _)
    · rw [num_mul_inf]
      split
      · exact .inl rfl
      · rename_i h
        rw [sgn_of_pos (lt_of_le_of_ne v0 (Ne.symm h))]
        exact .inr (.inl rfl)
    · exact .inr (.inr ⟨v * w, (is_num v s).mul (is_num w t), mul_nonneg v0 w0⟩)

theorem nonneg_of_sgn {v : ℝ} {s : Bool} (h : sgn (num v s) = false) : 0 ≤ v := by
  simp only [sgn] at h
  split at h
  · rename_i hv; rw [hv]
  · simpa using h

/-- The sign bit is clear, or the number is NaN. -/
theorem sgn_sq (x : Ext) : sgn (x * x) = false := by
  cases x with
  | nan => simp [sgn]
  | inf s => simp [sgn]
  | num v s =>
    rw [num_mul_num]
    unfold sgn
    by_cases h : v = 0
    · simp [h]
    · simp [h, mul_self_nonneg]

theorem sgn_add (hx : sgn x = false) (hy : sgn y = false) : sgn (x + y) = false := by
  cases x with
  | nan => simpa using hx
  | inf s =>
    simp only [sgn] at hx; subst hx
    cases y with
    | nan => rfl
    | inf t => simp only [sgn] at hy; subst hy; simp [sgn]
    | num w t => simp [sgn]
  | num v s =>
    cases y with
    | nan => rfl
    | inf t => simp only [sgn] at hy; subst hy; simp [sgn]
    | num w t =>
      rw [num_add_num, hx, hy]
      have := nonneg_of_sgn hx
      have := nonneg_of_sgn hy
      simp only [sgn]
      split
      · rfl
      · simp; linarith

/-- Positive constant divided by something with clear sign bit. -/
theorem div_nonneg {v : ℝ} {s : Bool} (hv : 0 < v) (hy : sgn y = false) : (num v s / y).NonnegOrNaN := by
  cases y with
  | nan => exact .inl (div_nan _)
  | inf t => exact .inr (.inr ⟨0, ⟨_, num_div_inf ..⟩, le_rfl⟩)
  | num w t =>
    by_cases h : w = 0
    · subst h
      rw [num_div_zero, if_neg hv.ne']
      simp only [sgn, if_true] at hy
      subst hy
      rw [sgn_of_pos hv]
      exact .inr (.inl rfl)
    · simp [sgn, h] at hy
      exact .inr (.inr ⟨v / w, (is_num v s).div (is_num w t) h, by positivity⟩)

theorem len2_sgn (a : Vec Ext) : sgn a.len2 = false :=
  sgn_add (sgn_add (sgn_sq _) (sgn_sq _)) (sgn_sq _)

/-- `!(x < 0)` -/
theorem nonneg_of_not_lt (h : (x <. lit 0) = false) : x.NonnegOrNaN := by
  cases x with
  | nan => exact .inl rfl
  | inf s => cases s <;> simp at h; exact .inr (.inl rfl)
  | num v s => simp at h; exact .inr (.inr ⟨v, ⟨s, rfl⟩, h⟩)

/-- `!(x <= 0)` -/
theorem nonneg_of_not_le (h : (x <=. lit 0) = false) : x.NonnegOrNaN := by
  cases x with
  | nan => exact .inl rfl
  | inf s => cases s <;> simp at h; exact .inr (.inl rfl)
  | num v s => simp at h; exact .inr (.inr ⟨v, ⟨s, rfl⟩, h.le⟩)

theorem nonneg_of_ge (h : (x >=. lit 0) = true) : x.NonnegOrNaN := by
  cases x with
  | nan => simp at h
  | inf s => cases s <;> simp at h; exact .inr (.inl rfl)
  | num v s => simp at h; exact .inr (.inr ⟨v, ⟨s, rfl⟩, h⟩)

theorem abs_nonneg (x : Ext) : (GoFloat.abs x).NonnegOrNaN := by
  cases x with
  | nan => exact .inl rfl
  | inf s => exact .inr (.inl rfl)
  | num v s => exact .inr (.inr ⟨|v|, ⟨_, rfl⟩, _root_.abs_nonneg v⟩)

/-- The fraction of light passing through a length of fog. -/
theorem exp_in {len d : Ext} (hl : len.NonnegOrNaN) (hd : d.Nonneg) : (GoFloat.exp (-len * d)).InOrNaN 1 := by
  obtain ⟨D, ⟨t, rfl⟩, hD⟩ := hd
  rcases hl with rfl | rfl | ⟨v, ⟨s, rfl⟩, v0⟩
  · exact .inl (by simp; rfl)
  · rw [neg_inf, inf_mul_num]
    split
    · exact .inl rfl
    · rename_i h
      rw [sgn_of_pos (lt_of_le_of_ne hD (Ne.symm h))]
      exact .inr ⟨0, ⟨false, rfl⟩, le_rfl, zero_le_one⟩
  · obtain ⟨k, hk⟩ := (is_num v s).neg.mul (is_num D t)
    rw [hk]
    exact .inr ⟨Real.exp (-v * D), ⟨false, rfl⟩, (Real.exp_pos _).le, Real.exp_le_one_iff.2 (by nlinarith)⟩

/-- Finite or NaN. -/
def FN (x : Ext) : Prop := x = .nan ∨ ∃ v, x.Is v

theorem FN.add (hx : x.FN) (hy : y.FN) : (x + y).FN := by
  rcases hx with rfl | ⟨v, hv⟩
  · exact .inl (nan_add _)
  rcases hy with rfl | ⟨w, hw⟩
  · exact .inl (add_nan _)
  exact .inr ⟨_, hv.add hw⟩

theorem FN.mul (hx : x.FN) (hy : y.FN) : (x * y).FN := by
  rcases hx with rfl | ⟨v, hv⟩
  · exact .inl (nan_mul _)
  rcases hy with rfl | ⟨w, hw⟩
  · exact .inl (mul_nan _)
  exact .inr ⟨_, hv.mul hw⟩

/-- A component divided by the root of `z`, when `z` is at least the square of the component. -/
theorem mul_inv_len {a z : Ext} (hs : sgn z = false) (hi : ∀ s, a = inf s → z = nan ∨ z = inf false)
    (hz : ∀ v s t, a = num v s → z = num 0 t → v = 0) : (a * (lit 1 / GoFloat.sqrt z)).FN := by
  cases z with
  | nan => exact .inl (by show a * (lit 1 / nan) = nan; simp)
  | inf t =>
    simp only [sgn] at hs; subst hs
    have : (GoFloat.sqrt (inf false) : Ext) = inf false := rfl
    rw [this, lit_ext, num_div_inf]
    cases a with
    | nan => exact .inl (nan_mul _)
    | inf s => rw [inf_mul_num, if_pos rfl]; exact .inl rfl
    | num v s => exact .inr ⟨_, (is_num _ _).mul (is_num _ _)⟩
  | num w t =>
    have hw := nonneg_of_sgn hs
    have hsq : (GoFloat.sqrt (num w t) : Ext) = num (Real.sqrt w) t := by
      show (if w < 0 then nan else num (Real.sqrt w) t) = _
      rw [if_neg (not_lt.2 hw)]
    rw [hsq, lit_ext]
    cases a with
    | nan => exact .inl (nan_mul _)
    | inf s => rcases hi s rfl with h | h <;> cases h
    | num v s =>
      by_cases h : w = 0
      · rw [h] at hz ⊢
        rw [Real.sqrt_zero, num_div_zero, if_neg (by norm_num), num_mul_inf, if_pos (hz v s t rfl rfl)]
        exact .inl rfl
      · have : Real.sqrt w ≠ 0 := (Real.sqrt_pos.2 (lt_of_le_of_ne hw (Ne.symm h))).ne'
        exact .inr ⟨_, (is_num _ _).mul ((is_num _ _).div (is_num _ _) this)⟩

theorem inf_sq_add {r : Ext} (s : Bool) (hr : sgn r = false) : inf s * inf s + r = nan ∨ inf s * inf s + r = inf false := by
  rw [inf_mul_inf, Bool.xor_self]
  cases r with
  | nan => left; rfl
  | inf t => simp only [sgn] at hr; subst hr; right; rfl
  | num v t => right; rfl

theorem top_add {z r : Ext} (hz : z = nan ∨ z = inf false) (hr : sgn r = false) : z + r = nan ∨ z + r = inf false := by
  rcases hz with rfl | rfl
  · left; simp
  · cases r with
    | nan => left; rfl
    | inf t => simp only [sgn] at hr; subst hr; right; rfl
    | num v t => right; rfl

theorem add_zero_left {x y : Ext} {t : Bool} (hx : sgn x = false) (hy : sgn y = false) (h : x + y = num 0 t) :
    ∃ s, x = num 0 s := by
  cases x with
  | nan => simp at h
  | inf s =>
    cases y with
    | nan => simp at h
    | inf u => rw [inf_add_inf] at h; split at h <;> simp at h
    | num v u => simp at h
  | num v s =>
    cases y with
    | nan => simp at h
    | inf u => simp at h
    | num w u =>
      rw [num_add_num] at h
      simp only [num.injEq] at h
      have h1 := nonneg_of_sgn hx
      have h2 := nonneg_of_sgn hy
      exact ⟨s, by rw [show v = 0 by linarith [h.1]]⟩

theorem sq_zero {v : ℝ} {s t : Bool} (h : num v s * num v s = num 0 t) : v = 0 := by
  rw [num_mul_num] at h
  simp only [num.injEq] at h
  exact mul_self_eq_zero.1 h.1

theorem add_comm' (x y : Ext) : x + y = y + x := by
  cases x with
  | nan => simp
  | inf s =>
    cases y with
    | nan => simp
    | inf t => simp only [inf_add_inf]; by_cases h : s = t <;> simp [h, eq_comm]
    | num w t => rfl
  | num v s =>
    cases y with
    | nan => simp
    | inf t => rfl
    | num w t => rw [num_add_num, num_add_num, add_comm, Bool.and_comm]

/-- Components of a normalised vector are finite or NaN. -/
theorem normalized_FN (a : Vec Ext) : a.normalized.x.FN ∧ a.normalized.y.FN ∧ a.normalized.z.FN := by
  obtain ⟨x, y, z⟩ := a
  have hs := len2_sgn ⟨x, y, z⟩
  have hx := sgn_sq x
  have hy := sgn_sq y
  have hz := sgn_sq z
  have hxy := sgn_add hx hy
  unfold Vec.len2 at hs
  dsimp only at hs
  refine ⟨mul_inv_len hs ?_ ?_, mul_inv_len hs ?_ ?_, mul_inv_len hs ?_ ?_⟩
  · rintro s rfl
    exact top_add (inf_sq_add s hy) hz
  · rintro v s t rfl h
    obtain ⟨s1, h⟩ := add_zero_left hxy hz h
    obtain ⟨s2, h⟩ := add_zero_left hx hy h
    exact sq_zero h
  · rintro s rfl
    refine top_add ?_ hz
    rw [add_comm']
    exact inf_sq_add s hx
  · rintro v s t rfl h
    obtain ⟨s1, h⟩ := add_zero_left hxy hz h
    rw [add_comm'] at h
    obtain ⟨s2, h⟩ := add_zero_left hy hx h
    exact sq_zero h
  · rintro s rfl
    rw [add_comm']
    exact inf_sq_add s hxy
  · rintro v s t rfl h
    rw [add_comm'] at h
    obtain ⟨s2, h⟩ := add_zero_left hz hxy h
    exact sq_zero h

/-- One polarisation of the reflectance. -/
theorem ratio_in {a b : ℝ} (ha : 0 ≤ a) (hb : 0 ≤ b) {x y : Ext} (hx : x.Is a) (hy : y.Is b) :
    (sqr ((x - y) / (x + y))).InOrNaN 1 := by
  obtain ⟨s, hs⟩ := hx.sub hy
  obtain ⟨t, ht⟩ := hx.add hy
  rw [hs, ht]
  by_cases h : a + b = 0
  · have h1 : a = 0 := by linarith
    have h2 : b = 0 := by linarith
    subst h1 h2
    rw [add_zero, num_div_zero, if_pos (by simp)]
    exact .inl (by simp [sqr])
  · have hpos : 0 < a + b := lt_of_le_of_ne (by positivity) (Ne.symm h)
    have hd := (is_num (a - b) s).div (is_num (a + b) t) h
    refine .inr ⟨_, hd.mul hd, mul_self_nonneg _, ?_⟩
    have h1 : |(a - b) / (a + b)| ≤ 1 := by
      rw [abs_div, abs_of_pos hpos, div_le_one hpos, abs_le]
      constructor <;> linarith
    rw [← abs_mul_abs_self]
    have := _root_.abs_nonneg ((a - b) / (a + b))
    nlinarith

/-- The reflectance is in [0,1] or NaN. -/
theorem refractR_in {n1 n2 c s : Ext} (h1 : n1.Positive) (h2 : n2.Positive) (hc : c.NonnegOrNaN)
    (hs : c = inf false → s = inf true) (hs' : ∀ u, c.Is u → ∃ v, s.Is v) :
    (refractR n1 n2 c s).InOrNaN 1 := by
  obtain ⟨m1, e1, p1⟩ := h1
  obtain ⟨m2, e2, p2⟩ := h2
  unfold refractR
  dsimp only
  have hone : (BR.lit 1 : Ext).Is 1 := by simpa using Is.lit 1
  have half : ∀ {x y : Ext}, x.InOrNaN 1 → y.InOrNaN 1 → (lit (1 / 2) * (x + y)).InOrNaN 1 := by
    intro x y hx hy
    have hh : (BR.lit (1 / 2) : Ext).InOrNaN (1 / 2) :=
      .inr ⟨1 / 2, by simpa using Is.lit (1 / 2), by norm_num, le_rfl⟩
    exact (hh.mul (hx.add hy)).mono (by norm_num)
  -- the cosine of transmission
  have hcost : ∀ v, s.Is v → GoFloat.sqrt (BR.lit 1 - s) = nan ∨ ∃ w, (GoFloat.sqrt (BR.lit 1 - s)).Is w ∧ 0 ≤ w := by
    intro v hv
    obtain ⟨k, hk⟩ := hone.sub hv
    rw [hk]
    show (if 1 - v < 0 then nan else num (Real.sqrt (1 - v)) k) = nan ∨
      ∃ w, Ext.Is (if 1 - v < 0 then nan else num (Real.sqrt (1 - v)) k) w ∧ 0 ≤ w
    split
    · left; rfl
    · right; exact ⟨_, ⟨_, rfl⟩, Real.sqrt_nonneg _⟩
  have nanCase : GoFloat.sqrt (BR.lit 1 - s) = nan ∨ c = nan → (lit (1 / 2) * (sqr ((n1 * c - n2 * GoFloat.sqrt (lit 1 - s)) / (n1 * c + n2 * GoFloat.sqrt (lit 1 - s))) +
      sqr ((n1 * GoFloat.sqrt (lit 1 - s) - n2 * c) / (n1 * GoFloat.sqrt (lit 1 - s) + n2 * c)))).InOrNaN 1 := by
    rintro (h | h)
    · rw [h]; left; simp [sqr]
    · rw [h]; left; simp [sqr]
  rcases hc with rfl | rfl | ⟨u, hu, u0⟩
  · exact nanCase (.inr rfl)
  · obtain rfl := hs rfl
    have e3 : GoFloat.sqrt (BR.lit 1 - inf true) = inf false := rfl
    rw [e3]
    obtain ⟨k1, rfl⟩ := e1
    obtain ⟨k2, rfl⟩ := e2
    left
    rw [num_mul_inf, num_mul_inf, if_neg p1.ne', if_neg p2.ne', sgn_of_pos p1, sgn_of_pos p2]
    simp [sqr, sub_def]
  · obtain ⟨v, hv⟩ := hs' u hu
    rcases hcost v hv with h | ⟨w, hw, w0⟩
    · exact nanCase (.inl h)
    · exact half (ratio_in (by positivity) (by positivity) (e1.mul hu) (e2.mul hw))
        (ratio_in (by positivity) (by positivity) (e1.mul hw) (e2.mul hu))

/-- The squared sine of transmission, for a cosine of incidence that may be infinite. -/
theorem sin2t_cases {n1 n2 c : Ext} (h1 : n1.Positive) (h2 : n2.Positive) :
    (c = inf false → n1 / n2 * (n1 / n2) * (lit 1 - c * c) = inf true) ∧
    (∀ u, c.Is u → ∃ v, (n1 / n2 * (n1 / n2) * (lit 1 - c * c)).Is v) := by
  obtain ⟨m1, e1, p1⟩ := h1
  obtain ⟨m2, e2, p2⟩ := h2
  have hq := (e1.div e2 p2.ne').mul (e1.div e2 p2.ne')
  have hone : (BR.lit 1 : Ext).Is 1 := by simpa using Is.lit 1
  constructor
  · rintro rfl
    obtain ⟨k, hk⟩ := hq
    have hpos : 0 < m1 / m2 * (m1 / m2) := by positivity
    rw [hk, inf_mul_inf]
    simp only [Bool.xor_self, lit_ext, num_sub_inf, Bool.not_false]
    rw [num_mul_inf, if_neg hpos.ne', sgn_of_pos hpos]
    rfl
  · intro u hu
    exact ⟨_, hq.mul (hone.sub (hu.mul hu))⟩

/-- The reflectance of `reflectFresnel`. -/
theorem fresnel_in {n c : Ext} (hn : n.Positive) (hc : c.NonnegOrNaN) :
    (fresnelReflection (lit 1) n c).InOrNaN 1 := by
  have h1 : (BR.lit 1 : Ext).Positive := ⟨1, by simpa using Is.lit 1, one_pos⟩
  obtain ⟨a, b⟩ := sin2t_cases (c := c) h1 hn
  exact refractR_in h1 hn hc a b

/-- The reflectance of `refractive`. -/
theorem refract_in {n1 n2 : Ext} (h1 : n1.Positive) (h2 : n2.Positive) {dir normal n i : Vec Ext}
    {m1 m2 cosi sin2t : Ext} (h : refractGeom n1 n2 dir normal = (n, i, m1, m2, cosi, sin2t)) :
    (refractR m1 m2 cosi sin2t).InOrNaN 1 := by
  obtain ⟨nx, ny, nz⟩ := normalized_FN normal
  obtain ⟨ix, iy, iz⟩ := normalized_FN dir
  have hfn : (dir.normalized.dot normal.normalized).FN := ((ix.mul nx).add (iy.mul ny)).add (iz.mul nz)
  unfold refractGeom at h
  dsimp only at h
  split at h
  · rename_i hpos
    simp only [Prod.mk.injEq] at h
    obtain ⟨rfl, rfl, rfl, rfl, rfl, rfl⟩ := h
    obtain ⟨a, b⟩ := sin2t_cases (c := -dir.normalized.dot (normal.normalized.mul (lit (-1)))) h2 h1
    refine refractR_in h2 h1 ?_ a b
    rcases hfn with h | ⟨v, hv⟩
    · rw [h] at hpos; simp at hpos
    · have hm1 : (BR.lit (-1) : Ext).Is (-1) := by simpa using Is.lit (-1)
      -- all components are finite, since the dot product is
      have split : ∀ {x y : Ext}, x.FN → y.FN → ∀ w, (x * y).Is w → (∃ u, x.Is u) ∧ ∃ u, y.Is u := by
        intro x y hx hy w hw
        rcases hx with rfl | hx
        · rw [nan_mul] at hw; obtain ⟨_, h⟩ := hw; cases h
        rcases hy with rfl | hy
        · rw [mul_nan] at hw; obtain ⟨_, h⟩ := hw; cases h
        exact ⟨hx, hy⟩
      have splitAdd : ∀ {x y : Ext}, x.FN → y.FN → ∀ w, (x + y).Is w → (∃ u, x.Is u) ∧ ∃ u, y.Is u := by
        intro x y hx hy w hw
        rcases hx with rfl | hx
        · rw [nan_add] at hw; obtain ⟨_, h⟩ := hw; cases h
        rcases hy with rfl | hy
        · rw [add_nan] at hw; obtain ⟨_, h⟩ := hw; cases h
        exact ⟨hx, hy⟩
      obtain ⟨⟨w1, hw1⟩, ⟨w2, hw2⟩⟩ := splitAdd ((ix.mul nx).add (iy.mul ny)) (iz.mul nz) _ hv
      obtain ⟨⟨w3, hw3⟩, ⟨w4, hw4⟩⟩ := splitAdd (ix.mul nx) (iy.mul ny) _ hw1
      obtain ⟨⟨a1, ha1⟩, ⟨b1, hb1⟩⟩ := split ix nx _ hw3
      obtain ⟨⟨a2, ha2⟩, ⟨b2, hb2⟩⟩ := split iy ny _ hw4
      obtain ⟨⟨a3, ha3⟩, ⟨b3, hb3⟩⟩ := split iz nz _ hw2
      have hdot : (dir.normalized.dot normal.normalized).Is (a1 * b1 + a2 * b2 + a3 * b3) :=
        ((ha1.mul hb1).add (ha2.mul hb2)).add (ha3.mul hb3)
      have h0 : (BR.lit 0 : Ext).Is 0 := by simpa using Is.lit 0
      rw [h0.lt hdot, decide_eq_true_iff] at hpos
      refine .inr (.inr ⟨-(a1 * (-1 * b1) + a2 * (-1 * b2) + a3 * (-1 * b3)), ?_, by nlinarith⟩)
      exact (((ha1.mul (hm1.mul hb1)).add (ha2.mul (hm1.mul hb2))).add (ha3.mul (hm1.mul hb3))).neg
  · rename_i hpos
    simp only [Prod.mk.injEq] at h
    obtain ⟨rfl, rfl, rfl, rfl, rfl, rfl⟩ := h
    obtain ⟨a, b⟩ := sin2t_cases (c := -dir.normalized.dot normal.normalized) h1 h2
    refine refractR_in h1 h2 ?_ a b
    rcases hfn with h | ⟨v, hv⟩
    · rw [h]; exact .inl rfl
    · have h0 : (BR.lit 0 : Ext).Is 0 := by simpa using Is.lit 0
      rw [h0.lt hv] at hpos
      simp at hpos
      exact .inr (.inr ⟨-v, hv.neg, by linarith⟩)

/-- The length of the ray in a fog layer is not negative, or NaN. -/
theorem fogInterval_nonneg (height : Ext) (r : Ray Ext) (tMax : Ext) :
    ((fogInterval height r tMax).2 - (fogInterval height r tMax).1).NonnegOrNaN := by
  unfold fogInterval intersectIntervals
  dsimp only
  split
  · have h0 : (BR.lit 0 : Ext).Is 0 := by simpa using Is.lit 0
    exact .inr (.inr ⟨_, h0.sub h0, by simp⟩)
  · rename_i h
    dsimp only
    generalize fmax (lit 0) (intersectHalfSpace height r).1 = a at *
    generalize fmin tMax (intersectHalfSpace height r).2 = b at *
    cases a with
    | nan => simp at h
    | inf s =>
      cases b with
      | nan => simp at h
      | inf t => cases s <;> cases t <;> simp [sub_def] at h ⊢; exact .inr (.inl rfl)
      | num w t => cases s <;> simp at h; exact .inr (.inl rfl)
    | num v s =>
      cases b with
      | nan => simp at h
      | inf t => cases t <;> simp at h; exact .inr (.inl rfl)
      | num w t =>
        simp at h
        exact .inr (.inr ⟨_, (is_num w t).sub (is_num v s), by linarith⟩)

end Ext
end BR
