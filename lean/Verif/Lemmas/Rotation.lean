import Verif.Lemmas.Geom
import Verif.Spec.Rotation

/-! Helper lemmas about normalisation and rotation. -/

namespace BR

/-- The exact-zero special cases of `util.Sin` agree with the sine. -/
theorem goSin_real (x : ℝ) : goSin x = Real.sin x := by
  unfold goSin
  simp only [eq_real, pi_real, lit_real, sin_real]
  split
  · rename_i h
    simp only [Bool.or_eq_true, decide_eq_true_eq] at h
    rcases h with h | h <;> simp [h]
  · rfl

/-- The exact-zero special cases of `util.Cos` agree with the cosine. -/
theorem goCos_real (x : ℝ) : goCos x = Real.cos x := by
  unfold goCos
  simp only [eq_real, pi_real, lit_real, cos_real]
  split
  · rename_i h
    simp only [Bool.or_eq_true, decide_eq_true_eq] at h
    push_cast at h ⊢
    rcases h with h | h
    · rw [h, Real.cos_pi_div_two]
    · rw [h, neg_div, Real.cos_neg, Real.cos_pi_div_two]
  · rfl

/-- A vector with a non-zero component has positive squared length. -/
theorem Vec.len2_pos {a : Vec ℝ} (h : a ≠ Vec.zero) : 0 < a.x * a.x + a.y * a.y + a.z * a.z := by
  rcases lt_or_eq_of_le
    (add_nonneg (add_nonneg (mul_self_nonneg a.x) (mul_self_nonneg a.y)) (mul_self_nonneg a.z)) with h' | h'
  · exact h'
  · exfalso; apply h
    have hx : a.x = 0 := by nlinarith [mul_self_nonneg a.x, mul_self_nonneg a.y, mul_self_nonneg a.z]
    have hy : a.y = 0 := by nlinarith [mul_self_nonneg a.x, mul_self_nonneg a.y, mul_self_nonneg a.z]
    have hz : a.z = 0 := by nlinarith [mul_self_nonneg a.x, mul_self_nonneg a.y, mul_self_nonneg a.z]
    simp [Vec.ext_iff, Vec.zero, hx, hy, hz]

/-- `Normalized` of a non-zero vector is a positive multiple of it with length 1. -/
theorem Vec.normalized_spec {a : Vec ℝ} (h : a ≠ Vec.zero) :
    ∃ s : ℝ, 0 < s ∧ a.normalized = a.mul s ∧ a.normalized.dot a.normalized = 1 := by
  have hp := Vec.len2_pos h
  have hs := Real.sqrt_pos.2 hp
  have hsq := Real.mul_self_sqrt hp.le
  refine ⟨1 / Real.sqrt (a.x * a.x + a.y * a.y + a.z * a.z), by positivity, ?_, ?_⟩
  · simp only [Vec.normalized, geo, lit_real, sqrt_real]; push_cast
    refine ⟨?_, ?_, ?_⟩ <;> ring
  · simp only [Vec.normalized, geo, lit_real, sqrt_real]; push_cast
    have e : ∀ s : ℝ, s ≠ 0 → s * s = a.x * a.x + a.y * a.y + a.z * a.z →
        a.x * (1 / s) * (a.x * (1 / s)) + a.y * (1 / s) * (a.y * (1 / s))
          + a.z * (1 / s) * (a.z * (1 / s)) = 1 := by
      intro s hs0 h2
      field_simp
      nlinarith
    exact e _ hs.ne' hsq

theorem rodrigues_dot (u : Vec ℝ) (hu : u.dot u = 1) (θ : ℝ) (v w : Vec ℝ) :
    (rodrigues u θ v).dot (rodrigues u θ w) = v.dot w := by
  have hcs := Real.sin_sq_add_cos_sq θ
  simp only [rodrigues, geo] at *
  generalize Real.sin θ = s at *
  generalize Real.cos θ = c at *
  have hs : s ^ 2 = 1 - c ^ 2 := by linarith
  have hz : u.z ^ 2 = 1 - u.x ^ 2 - u.y ^ 2 := by linarith
  linear_combination
    ((u.x * v.x + u.y * v.y + u.z * v.z) * (u.x * w.x + u.y * w.y + u.z * w.z) * ((1 - c) ^ 2)
      + s ^ 2 * (v.x * w.x + v.y * w.y + v.z * w.z)) * hu
    + ((v.x * w.x + v.y * w.y + v.z * w.z)
        - (u.x * v.x + u.y * v.y + u.z * v.z) * (u.x * w.x + u.y * w.y + u.z * w.z)) * hs

/-- Normalising a coordinate axis changes nothing. -/
theorem normalized_axes :
    (Vec.ex : Vec ℝ).normalized = Vec.ex ∧ (Vec.ey : Vec ℝ).normalized = Vec.ey ∧
    (Vec.ez : Vec ℝ).normalized = Vec.ez := by
  refine ⟨?_, ?_, ?_⟩ <;> simp [Vec.normalized, geo]

end BR
