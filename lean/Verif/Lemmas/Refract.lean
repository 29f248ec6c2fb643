import Verif.Model.Scene
import Verif.Spec.Optics
import Verif.Lemmas.Rotation

/-! The geometry of refraction over the reals. -/

namespace BR

/-- The angle of incidence of the program: `cosi` and `sin2t`. -/
theorem refractGeom_spec (n1 n2 : ℝ) (dir normal : Vec ℝ) (hd : dir ≠ Vec.zero) (hn : normal ≠ Vec.zero) :
    ∃ (I : Incidence), IsIncidence n1 n2 dir normal I ∧
      refractGeom n1 n2 dir normal = (I.n, I.i, I.m₁, I.m₂, -I.i.dot I.n,
        I.m₁ / I.m₂ * (I.m₁ / I.m₂) * (1 - (-I.i.dot I.n) * (-I.i.dot I.n))) := by
  obtain ⟨k, hk, ek, uk⟩ := Vec.normalized_spec hd
  obtain ⟨l, hl, el, ul⟩ := Vec.normalized_spec hn
  have hs : dir.normalized.dot normal.normalized = k * l * dir.dot normal := by
    rw [ek, el]; simp only [geo]; ring
  have hkl : 0 < k * l := mul_pos hk hl
  by_cases h : dir.normalized.dot normal.normalized > 0
  · have hpos : 0 < dir.dot normal := by
      rw [hs] at h; exact (mul_pos_iff_of_pos_left hkl).1 h
    refine ⟨⟨dir.normalized, normal.normalized.mul (-1), n2, n1⟩,
      ⟨uk, ⟨k, hk, ek⟩, ?_, ?_, fun h' => absurd hpos (not_lt.2 h'), fun _ => ⟨⟨-l, by linarith, ?_⟩, rfl, rfl⟩⟩, ?_⟩
    · dsimp only; simp only [geo] at ul ⊢; linear_combination ul
    · have : dir.normalized.dot (normal.normalized.mul (-1)) = -(dir.normalized.dot normal.normalized) := by
        simp only [geo]; ring
      dsimp only; rw [this]; linarith
    · dsimp only; rw [el]; simp only [geo]; refine ⟨?_, ?_, ?_⟩ <;> ring
    · simp only [refractGeom, lt_real, lit_real]
      push_cast
      rw [if_pos (by simpa using h)]
  · have hneg : dir.dot normal ≤ 0 := by
      rw [hs] at h; by_contra hc; exact h (mul_pos hkl (not_le.1 hc))
    refine ⟨⟨dir.normalized, normal.normalized, n1, n2⟩,
      ⟨uk, ⟨k, hk, ek⟩, ul, not_lt.1 h, fun _ => ⟨⟨l, hl, el⟩, rfl, rfl⟩, fun h' => absurd hneg (not_le.2 h')⟩, ?_⟩
    simp only [refractGeom, lt_real, lit_real]
    push_cast
    rw [if_neg (by simpa using h)]

theorem tang_len2 (I : Incidence) (hi : I.i.dot I.i = 1) (hn : I.n.dot I.n = 1) :
    (I.tangential I.i).len2 = 1 - (I.i.dot I.n) ^ 2 := by
  simp only [Incidence.tangential, geo] at *
  linear_combination hi + (I.i.x * I.n.x + I.i.y * I.n.y + I.i.z * I.n.z) ^ 2 * hn

theorem sinI_sq (I : Incidence) (hi : I.i.dot I.i = 1) (hn : I.n.dot I.n = 1) :
    I.sinI ^ 2 = 1 - (I.i.dot I.n) ^ 2 := by
  rw [← tang_len2 I hi hn]
  have : I.sinI = Real.sqrt (I.tangential I.i).len2 := rfl
  rw [this, Real.sq_sqrt]
  exact add_nonneg (add_nonneg (mul_self_nonneg _) (mul_self_nonneg _)) (mul_self_nonneg _)

theorem sinI_nonneg (I : Incidence) : 0 ≤ I.sinI := Real.sqrt_nonneg _

/-- The transmitted direction obeys Snell's law. -/
theorem refract_snell (I : Incidence) (hiu : I.i.dot I.i = 1) (hnu : I.n.dot I.n = 1) (hm2 : 0 < I.m₂) {q : ℝ}
    (hq : q = I.m₁ * I.sinI / I.m₂) (hle : q ^ 2 ≤ 1) :
    (refractDir (I.m₁ / I.m₂) (-I.i.dot I.n) (q ^ 2) I.i I.n).dot I.n = -Real.sqrt (1 - q ^ 2) ∧
    (refractDir (I.m₁ / I.m₂) (-I.i.dot I.n) (q ^ 2) I.i I.n).dot
      (refractDir (I.m₁ / I.m₂) (-I.i.dot I.n) (q ^ 2) I.i I.n) = 1 ∧
    (I.tangential (refractDir (I.m₁ / I.m₂) (-I.i.dot I.n) (q ^ 2) I.i I.n)).mul I.m₂ = (I.tangential I.i).mul I.m₁ ∧
    refractR I.m₁ I.m₂ (-I.i.dot I.n) (q ^ 2) =
      fresnelR I.m₁ I.m₂ (-I.i.dot I.n) (-(refractDir (I.m₁ / I.m₂) (-I.i.dot I.n) (q ^ 2) I.i I.n).dot I.n) := by
  have hsq := sinI_sq I hiu hnu
  set t := refractDir (I.m₁ / I.m₂) (-I.i.dot I.n) (q ^ 2) I.i I.n with ht
  have hw := Real.sq_sqrt (sub_nonneg.2 hle)
  set w := Real.sqrt (1 - q ^ 2) with hwdef
  obtain ⟨k, hk⟩ : ∃ k, k = I.m₁ / I.m₂ := ⟨_, rfl⟩
  have hkq : q ^ 2 = k ^ 2 * (1 - (I.i.dot I.n) ^ 2) := by
    rw [← hsq, hq, hk]; ring
  have htn : t.dot I.n = -w := by
    simp only [ht, refractDir, lit_real, sqrt_real, ← hk]
    push_cast
    rw [← hwdef]
    simp only [geo] at hnu ⊢
    linear_combination (-(k * (I.i.x * I.n.x + I.i.y * I.n.y + I.i.z * I.n.z)) - w) * hnu
  refine ⟨htn, ?_, ?_, ?_⟩
  · rw [hkq] at hw
    simp only [ht, refractDir, lit_real, sqrt_real, ← hk]
    push_cast
    rw [← hwdef]
    generalize w = w at hw
    simp only [geo] at hnu hiu hw ⊢
    linear_combination k ^ 2 * hiu + (k * (I.i.x * I.n.x + I.i.y * I.n.y + I.i.z * I.n.z) + w) ^ 2 * hnu + hw
  · have hkm : k * I.m₂ = I.m₁ := by rw [hk]; field_simp
    simp only [Incidence.tangential, htn]
    simp only [ht, refractDir, lit_real, sqrt_real, ← hk]
    push_cast
    rw [← hwdef]
    simp only [geo]
    refine ⟨?_, ?_, ?_⟩
    · linear_combination (I.i.x - I.n.x * (I.i.x * I.n.x + I.i.y * I.n.y + I.i.z * I.n.z)) * hkm
    · linear_combination (I.i.y - I.n.y * (I.i.x * I.n.x + I.i.y * I.n.y + I.i.z * I.n.z)) * hkm
    · linear_combination (I.i.z - I.n.z * (I.i.x * I.n.x + I.i.y * I.n.y + I.i.z * I.n.z)) * hkm
  · rw [htn, neg_neg]
    simp only [refractR, fresnelR, lit_real, sqrt_real, sqr]
    push_cast
    rw [← hwdef]
    ring

end BR
