import Verif.Lemmas.BallErr

/-! Rounding errors in normalising a vector, and in dot products of such vectors. -/

namespace BR

theorem round_rel (x : ℝ) : |roundBits 53 x - x| ≤ |x| / 2 ^ 53 + 1 / 2 ^ 200 := roundBits_err 53 (by norm_num) x

theorem mul_self_is {a : Flo} {x : ℝ} (ha : a.Is x) (hx : x ^ 2 ≤ 2 ^ 24) :
    ∃ y, (a * a).Is y ∧ |y - x ^ 2| ≤ x ^ 2 / 2 ^ 53 + 1 / 2 ^ 200 := by
  refine ⟨_, Flo.mul_is ha ha ?_, ?_⟩
  · rw [← sq, abs_of_nonneg (sq_nonneg x)]; exact hx.trans (by norm_num)
  · have := round_rel (x * x)
    rw [← sq, abs_of_nonneg (sq_nonneg x)] at this
    rwa [← sq]

/-- The computed sum of three squares. -/
theorem len2_is {v : Vec Flo} {w : Vec ℝ} (h : v.FIs w) {Q : ℝ} (hQ : Q = w.x ^ 2 + w.y ^ 2 + w.z ^ 2)
    (hlo : 1 / 2 ^ 24 ≤ Q) (hhi : Q ≤ 2 ^ 24) :
    ∃ σ, (v.x * v.x + v.y * v.y + v.z * v.z).Is σ ∧ |σ - Q| ≤ 5 / 2 ^ 53 * Q := by
  have x2 := sq_nonneg w.x
  have y2 := sq_nonneg w.y
  have z2 := sq_nonneg w.z
  obtain ⟨a, ha, ea⟩ := mul_self_is h.1 (by linarith)
  obtain ⟨b, hb, eb⟩ := mul_self_is h.2.1 (by linarith)
  obtain ⟨c, hc, ec⟩ := mul_self_is h.2.2 (by linarith)
  rw [abs_le] at ea eb ec
  norm_num at ea eb ec hlo hhi
  have hab : |a + b| ≤ (w.x ^ 2 + w.y ^ 2) * (1 + 1 / 2 ^ 53) + 2 / 2 ^ 200 := by
    rw [abs_le]
    norm_num
    constructor <;> linarith
  have e1 := (round_rel (a + b)).trans (add_le_add (div_le_div_of_nonneg_right hab (by norm_num)) le_rfl)
  have i1 := Flo.add_is ha hb (hab.trans (by norm_num; linarith))
  generalize roundBits 53 (a + b) = s1 at *
  rw [abs_le] at e1 hab
  norm_num at e1 hab
  have hsc : |s1 + c| ≤ Q * (1 + 3 / 2 ^ 53) + 5 / 2 ^ 200 := by
    rw [abs_le]
    norm_num
    constructor <;> linarith
  have e2 := (round_rel (s1 + c)).trans (add_le_add (div_le_div_of_nonneg_right hsc (by norm_num)) le_rfl)
  refine ⟨_, Flo.add_is i1 hc (hsc.trans (by norm_num; linarith)), ?_⟩
  generalize roundBits 53 (s1 + c) = s2 at *
  rw [abs_le] at *
  norm_num at *
  constructor <;> linarith

/-- In double precision, the normalised vector is a multiple of the vector, and nearly of length one. -/
theorem normalized_is {v : Vec Flo} {w : Vec ℝ} (h : v.FIs w) {g : ℝ} (hg0 : 1 / 2 ^ 12 ≤ g) (hg1 : g ≤ 2 ^ 12)
    (hg : g ^ 2 = w.x ^ 2 + w.y ^ 2 + w.z ^ 2) :
    ∃ (n : Vec ℝ) (κ : ℝ), v.normalized.FIs n ∧ 0 < κ ∧ |κ * g - 1| ≤ 1 / 2 ^ 48 ∧
      |n.x - κ * w.x| ≤ 1 / 2 ^ 50 ∧ |n.y - κ * w.y| ≤ 1 / 2 ^ 50 ∧ |n.z - κ * w.z| ≤ 1 / 2 ^ 50 := by
  have hgp : 0 < g := lt_of_lt_of_le (by norm_num) hg0
  have hQ0 : 1 / 2 ^ 24 ≤ g ^ 2 := by
    have := pow_le_pow_left₀ (by norm_num) hg0 2
    exact le_trans (by norm_num) this
  have hQ1 : g ^ 2 ≤ 2 ^ 24 := by
    have := pow_le_pow_left₀ hgp.le hg1 2
    exact this.trans (by norm_num)
  obtain ⟨σ, hσ, eσ⟩ := len2_is h hg hQ0 hQ1
  have hσ0 : 0 ≤ σ := by
    rw [abs_le] at eσ
    norm_num at *
    linarith
  have hσ1 : σ ≤ 2 ^ 200 := by
    rw [abs_le] at eσ
    norm_num at *
    linarith
  have hq := Flo.sqrt_is hσ hσ0 hσ1
  have hq0 := Real.sqrt_nonneg σ
  have hqq := Real.mul_self_sqrt hσ0
  generalize Real.sqrt σ = q0 at *
  have e0 : |q0 - g| ≤ 5 / 2 ^ 53 * g := by
    have h1 : |q0 - g| * (q0 + g) ≤ 5 / 2 ^ 53 * g * g := by
      have : |q0 - g| * (q0 + g) = |σ - g ^ 2| := by
        rw [← hqq, show q0 * q0 - g ^ 2 = (q0 - g) * (q0 + g) by ring, abs_mul, abs_of_pos (by linarith : 0 < q0 + g)]
      rw [this, mul_assoc, ← sq]
      exact eσ
    have h2 : |q0 - g| * g ≤ |q0 - g| * (q0 + g) := mul_le_mul_of_nonneg_left (by linarith) (abs_nonneg _)
    exact le_of_mul_le_mul_right (h2.trans h1) hgp
  have e1 := round_rel q0
  generalize roundBits 53 q0 = q at *
  rw [abs_of_nonneg hq0] at e1
  have e2 : |q - g| ≤ 7 / 2 ^ 53 * g := by
    rw [abs_le] at *
    norm_num at *
    constructor <;> linarith
  have hqg := abs_le.1 e2
  have hqp : 0.99 * g ≤ q := by norm_num at *; linarith
  have hqp' : q ≤ 1.01 * g := by norm_num at *; linarith
  have hqpos : 0 < q := by norm_num at *; linarith
  have hinv : |1 / q| ≤ 2 ^ 13 := by
    rw [abs_of_pos (by positivity), div_le_iff₀ hqpos]
    norm_num at *
    linarith
  have hκ := Flo.div_is flo_lit_one hq hqpos.ne' (hinv.trans (by norm_num))
  have e3 := round_rel (1 / q)
  rw [abs_of_pos (by positivity : 0 < 1 / q)] at e3
  generalize roundBits 53 (1 / q) = κ at *
  have e4 : |κ * q - 1| ≤ 2 / 2 ^ 53 := by
    have : κ * q - 1 = (κ - 1 / q) * q := by field_simp
    rw [this, abs_mul, abs_of_pos hqpos]
    have h1 := mul_le_mul_of_nonneg_right e3 hqpos.le
    rw [add_mul, div_mul_eq_mul_div, one_div_mul_cancel hqpos.ne'] at h1
    refine h1.trans ?_
    norm_num at *
    linarith
  have h4 := abs_le.1 e4
  have hκpos : 0 < κ := by
    by_contra hle
    have : κ * q ≤ 0 := mul_nonpos_of_nonpos_of_nonneg (by linarith) hqpos.le
    norm_num at h4
    linarith
  have hκg : κ * g ≤ 1.02 := by
    have h1 : κ * (0.99 * g) ≤ κ * q := mul_le_mul_of_nonneg_left hqp hκpos.le
    norm_num at *
    linarith
  have e5 : |κ * g - 1| ≤ 1 / 2 ^ 48 := by
    have h1 : |κ * (g - q)| ≤ 7 / 2 ^ 53 * 1.02 := by
      rw [abs_mul, abs_of_pos hκpos, abs_sub_comm]
      refine (mul_le_mul_of_nonneg_left e2 hκpos.le).trans ?_
      have := mul_le_mul_of_nonneg_left hκg (by norm_num : (0 : ℝ) ≤ 7 / 2 ^ 53)
      linarith
    have : κ * g - 1 = (κ * q - 1) + κ * (g - q) := by ring
    rw [this]
    refine (abs_add_le _ _).trans ((add_le_add e4 h1).trans (by norm_num))
  have comp : ∀ {a : Flo} {x : ℝ}, a.Is x → x ^ 2 ≤ g ^ 2 →
      ∃ y, (a * (lit 1 / GoFloat.sqrt (v.x * v.x + v.y * v.y + v.z * v.z))).Is y ∧ |y - κ * x| ≤ 1 / 2 ^ 50 := by
    intro a x ha hx
    have hxg : |x| ≤ g := abs_le_of_sq_le_sq hx hgp.le
    have hk : |x * κ| ≤ 1.02 := by
      rw [abs_mul, abs_of_pos hκpos, mul_comm]
      exact (mul_le_mul_of_nonneg_left hxg hκpos.le).trans hκg
    refine ⟨_, Flo.mul_is ha hκ (hk.trans (by norm_num)), ?_⟩
    rw [mul_comm κ]
    exact err_le (round_rel _) hk (by norm_num)
  have x2 := sq_nonneg w.x
  have y2 := sq_nonneg w.y
  have z2 := sq_nonneg w.z
  obtain ⟨nx, hx, ex⟩ := comp h.1 (by linarith)
  obtain ⟨ny, hy, ey⟩ := comp h.2.1 (by linarith)
  obtain ⟨nz, hz, ez⟩ := comp h.2.2 (by linarith)
  exact ⟨⟨nx, ny, nz⟩, κ, ⟨hx, hy, hz⟩, hκpos, e5, ex, ey, ez⟩

end BR
