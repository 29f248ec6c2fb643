import Verif.Model.Texture
import Verif.Lemmas.Geom
import Mathlib.Analysis.SpecialFunctions.Complex.Arg
import Mathlib.Analysis.SpecialFunctions.Trigonometric.Inverse

/-! C62: the fisheye mapping of directions to texture coordinates, in exact arithmetic. -/

namespace BR.Texture

/-- The coordinates of a point of the unit disc. -/
private theorem disc {A C : ℝ} (A0 : 0 ≤ A) (A1 : A ≤ 1) (c1 : |C| ≤ 1) :
    0 ≤ 1 / 2 + A * C * (1 / 2) ∧ 1 / 2 + A * C * (1 / 2) ≤ 1 := by
  rw [abs_le] at c1
  have h1 : A * C ≤ 1 := by nlinarith
  have h2 : -1 ≤ A * C := by nlinarith
  constructor <;> linarith

/-- **C62.** For every direction other than zero, the texture coordinates are in the unit square; their distance from the
centre, in units of half the picture, is the angle from the vertical axis (up or down) divided by a right angle; and they
lie from the centre in the direction of the horizontal part `(x, z)`. The mapped texture reads there. -/
theorem C62_fisheye (t : Tex ℝ) (d : Vec ℝ) (h : d.x ^ 2 + d.y ^ 2 + d.z ^ 2 ≠ 0) :
    ∃ u v : ℝ, mapFisheye t d = t ⟨u, v, 0⟩ ∧ 0 ≤ u ∧ u ≤ 1 ∧ 0 ≤ v ∧ v ≤ 1 ∧
      Real.sqrt ((2 * u - 1) ^ 2 + (2 * v - 1) ^ 2) =
        Real.arccos (|d.y| / Real.sqrt (d.x ^ 2 + d.y ^ 2 + d.z ^ 2)) / (Real.pi / 2) ∧
      ∃ k : ℝ, 0 ≤ k ∧ 2 * u - 1 = k * d.x ∧ 2 * v - 1 = k * d.z := by
  have hpos : 0 < d.x ^ 2 + d.y ^ 2 + d.z ^ 2 := lt_of_le_of_ne (by positivity) (Ne.symm h)
  set L := Real.sqrt (d.x ^ 2 + d.y ^ 2 + d.z ^ 2) with hL
  have L0 : 0 < L := Real.sqrt_pos.2 hpos
  have L2 : L ^ 2 = d.x ^ 2 + d.y ^ 2 + d.z ^ 2 := Real.sq_sqrt hpos.le
  have en : d.normalized = ⟨d.x / L, d.y / L, d.z / L⟩ := by
    have : Real.sqrt (d.x * d.x + d.y * d.y + d.z * d.z) = L := by rw [hL]; congr 1; ring
    simp only [Vec.normalized, geo, lit_real, sqrt_real]
    rw [this]
    push_cast
    refine ⟨?_, ?_, ?_⟩ <;> ring
  set X := d.x / L with hX
  set Y := d.y / L with hY
  set Z := d.z / L with hZ
  have hu : X ^ 2 + Y ^ 2 + Z ^ 2 = 1 := by
    rw [hX, hY, hZ]; field_simp; rw [L2]
  set ρ := Real.sqrt (Z * Z + X * X) with hρ
  have ρ0 : 0 ≤ ρ := Real.sqrt_nonneg _
  have ρ2 : ρ ^ 2 = Z * Z + X * X := Real.sq_sqrt (by nlinarith [sq_nonneg X, sq_nonneg Z])
  have ρ1 : ρ ≤ 1 := by
    rw [hρ]; refine Real.sqrt_le_one.2 ?_; nlinarith [sq_nonneg Y]
  have eA : Real.arcsin ρ = Real.arccos (|d.y| / L) := by
    have e : |d.y| / L = Real.sqrt (1 - ρ ^ 2) := by
      have h1 : |d.y| / L = |Y| := by rw [hY, abs_div, abs_of_pos L0]
      have h2 : (1 : ℝ) - ρ ^ 2 = Y ^ 2 := by rw [ρ2]; linarith [hu, sq X, sq Z]
      rw [h1, h2, Real.sqrt_sq_eq_abs]
    rw [e, Real.arcsin_eq_arccos ρ0]
  set A := Real.arcsin ρ / (Real.pi / 2) with hA
  have A0 : 0 ≤ A := div_nonneg (Real.arcsin_nonneg.2 ρ0) (by have := Real.pi_pos; linarith)
  have A1 : A ≤ 1 := by
    rw [hA, div_le_one (by have := Real.pi_pos; linarith)]; exact Real.arcsin_le_pi_div_two _
  have hnorm : ‖(⟨X, Z⟩ : ℂ)‖ = ρ := by
    rw [Complex.norm_def, Complex.normSq_mk, hρ, add_comm]
  -- the direction in the picture
  obtain ⟨k, k0, kx, kz⟩ : ∃ k : ℝ, 0 ≤ k ∧ A * Real.cos (Complex.arg ⟨X, Z⟩) = k * d.x ∧
      A * Real.sin (Complex.arg ⟨X, Z⟩) = k * d.z := by
    by_cases hz : ρ = 0
    · have hX0 : X = 0 := by
        have : Z * Z + X * X = 0 := by rw [← ρ2, hz]; ring
        nlinarith [mul_self_nonneg X, mul_self_nonneg Z]
      have hZ0 : Z = 0 := by
        have : Z * Z + X * X = 0 := by rw [← ρ2, hz]; ring
        nlinarith [mul_self_nonneg X, mul_self_nonneg Z]
      have hA0 : A = 0 := by rw [hA, hz, Real.arcsin_zero, zero_div]
      exact ⟨0, le_rfl, by rw [hA0]; ring, by rw [hA0]; ring⟩
    · have ρp : 0 < ρ := lt_of_le_of_ne ρ0 (Ne.symm hz)
      have hne : (⟨X, Z⟩ : ℂ) ≠ 0 := by rw [← norm_pos_iff, hnorm]; exact ρp
      refine ⟨A / (ρ * L), by positivity, ?_, ?_⟩
      · rw [Complex.cos_arg hne, hnorm]
        change A * (X / ρ) = _
        rw [hX]; field_simp
      · rw [Complex.sin_arg, hnorm]
        change A * (Z / ρ) = _
        rw [hZ]; field_simp
  have c1 := Real.abs_cos_le_one (Complex.arg ⟨X, Z⟩)
  have s1 := Real.abs_sin_le_one (Complex.arg ⟨X, Z⟩)
  have cs := Real.sin_sq_add_cos_sq (Complex.arg ⟨X, Z⟩)
  have e : mapFisheye t d = t ⟨1 / 2 + A * Real.cos (Complex.arg ⟨X, Z⟩) * (1 / 2),
      1 / 2 + A * Real.sin (Complex.arg ⟨X, Z⟩) * (1 / 2), 0⟩ := by
    unfold mapFisheye fisheyeUV
    rw [en]
    dsimp only
    simp only [lit_real, sqrt_real, asin_real]
    push_cast
    rfl
  refine ⟨_, _, e, (disc A0 A1 c1).1, (disc A0 A1 c1).2, (disc A0 A1 s1).1, (disc A0 A1 s1).2, ?_, k, k0, ?_, ?_⟩
  · rw [← eA, ← hA]
    have e2 : ∀ C S : ℝ, S ^ 2 + C ^ 2 = 1 →
        (2 * (1 / 2 + A * C * (1 / 2)) - 1) ^ 2 + (2 * (1 / 2 + A * S * (1 / 2)) - 1) ^ 2 = A ^ 2 := by
      intro C S h
      have e3 : (2 * (1 / 2 + A * C * (1 / 2)) - 1) ^ 2 + (2 * (1 / 2 + A * S * (1 / 2)) - 1) ^ 2 =
          A ^ 2 * (S ^ 2 + C ^ 2) := by ring
      rw [e3, h, mul_one]
    rw [e2 _ _ cs, Real.sqrt_sq A0]
  · rw [← kx]; ring
  · rw [← kz]; ring

/-- Non-vacuity: a direction below the horizon. -/
example : ((⟨1, -2, 2⟩ : Vec ℝ).x ^ 2 + (⟨1, -2, 2⟩ : Vec ℝ).y ^ 2 + (⟨1, -2, 2⟩ : Vec ℝ).z ^ 2) ≠ 0 := by norm_num

end BR.Texture
