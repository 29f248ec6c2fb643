import Verif.Model.Sequence
import Verif.Lemmas.Rotation

/-!
C46: hemisphere samples are unit vectors on the normal's side, disk samples lie in the disk, for every
pair in the unit square.
-/

namespace BR

private theorem disk_radius (u v : ℝ) (hv : 0 ≤ v) :
    (uniformDisk u v).1 ^ 2 + (uniformDisk u v).2 ^ 2 = v := by
  simp only [uniformDisk, lit_real, pi_real, sqrt_real, sin_real, cos_real]
  push_cast
  have h1 := Real.sq_sqrt hv
  have h2 := Real.sin_sq_add_cos_sq (2 * Real.pi * u)
  linear_combination (Real.sqrt v) ^ 2 * h2 + h1

/-- Disk samples lie in the unit disk: the squared distance to the centre is `v`, and the polar angle is
`2πu`, so `(u,v)` uniform in the square is uniform in the disk. -/
theorem C46_disk (u v : ℝ) (hv : 0 ≤ v) (hv1 : v ≤ 1) :
    (uniformDisk u v).1 ^ 2 + (uniformDisk u v).2 ^ 2 ≤ 1 ∧
    (uniformDisk u v).1 ^ 2 + (uniformDisk u v).2 ^ 2 = v ∧
    uniformDisk u v = (Real.sqrt v * Real.cos (2 * Real.pi * u), Real.sqrt v * Real.sin (2 * Real.pi * u)) := by
  have h := disk_radius u v hv
  refine ⟨by rw [h]; exact hv1, h, ?_⟩
  simp [uniformDisk]

/-- Every point of the unit disk is a sample for some pair of the unit square. -/
theorem C46_disk_onto (x y : ℝ) (h : x ^ 2 + y ^ 2 ≤ 1) :
    ∃ u v : ℝ, 0 ≤ u ∧ u < 1 ∧ 0 ≤ v ∧ v ≤ 1 ∧ uniformDisk u v = (x, y) := by
  by_cases h0 : x ^ 2 + y ^ 2 = 0
  · have hx : x = 0 := by nlinarith [sq_nonneg x, sq_nonneg y]
    have hy : y = 0 := by nlinarith [sq_nonneg x, sq_nonneg y]
    exact ⟨0, 0, le_rfl, by norm_num, le_rfl, by norm_num, by simp [uniformDisk, hx, hy]⟩
  · have hpos : 0 < x ^ 2 + y ^ 2 := lt_of_le_of_ne (by positivity) (Ne.symm h0)
    set ρ := Real.sqrt (x ^ 2 + y ^ 2) with hρ
    have hρ0 : 0 < ρ := Real.sqrt_pos.2 hpos
    have hρ2 : ρ ^ 2 = x ^ 2 + y ^ 2 := Real.sq_sqrt hpos.le
    set z : ℂ := ⟨x, y⟩ with hz
    have hnz : ‖z‖ = ρ := by
      rw [Complex.norm_def, Complex.normSq_apply, hρ]; congr 1; simp only [hz]; ring
    have hz0 : z ≠ 0 := by
      intro hc
      rw [hc, norm_zero] at hnz
      linarith
    have hc := Complex.cos_arg hz0
    have hs := Complex.sin_arg z
    set θ := z.arg
    have hpi := Real.pi_pos
    -- u = frac (θ / 2π)
    set u := Int.fract (θ / (2 * Real.pi)) with hu
    have hang : 2 * Real.pi * u = θ - ⌊θ / (2 * Real.pi)⌋ * (2 * Real.pi) := by
      rw [hu, Int.fract]
      field_simp
    refine ⟨u, x ^ 2 + y ^ 2, Int.fract_nonneg _, Int.fract_lt_one _, hpos.le, h, ?_⟩
    rw [(C46_disk u _ hpos.le h).2.2, hang, Real.cos_sub_int_mul_two_pi, Real.sin_sub_int_mul_two_pi,
      hc, hs, hnz, ← hρ]
    have : ρ ≠ 0 := hρ0.ne'
    ext
    · simp only [hz]; field_simp
    · simp only [hz]; field_simp

/-- With an orthogonal pair of unit vectors `e`, `n`, the vector `x e + y (e × n) + z n`. -/
private theorem frame (e n : Vec ℝ) (x y z : ℝ) (he : e.dot e = 1) (hn : n.dot n = 1) (hen : e.dot n = 0) :
    ((⟨e, e.cross n, n⟩ : Matrix ℝ).mulVec ⟨x, y, z⟩).len2 = x ^ 2 + y ^ 2 + z ^ 2 ∧
    ((⟨e, e.cross n, n⟩ : Matrix ℝ).mulVec ⟨x, y, z⟩).dot n = z := by
  have hcc : (e.cross n).dot (e.cross n) = 1 := by
    have : (e.cross n).dot (e.cross n) = e.dot e * n.dot n - (e.dot n) ^ 2 := by
      simp only [geo]; ring
    rw [this, he, hn, hen]; norm_num
  have h1 : (e.cross n).dot n = 0 := by simp only [geo]; ring
  have h2 : (e.cross n).dot e = 0 := by simp only [geo]; ring
  have ex : ∀ w : Vec ℝ, ((⟨e, e.cross n, n⟩ : Matrix ℝ).mulVec ⟨x, y, z⟩).dot w
      = x * e.dot w + y * (e.cross n).dot w + z * n.dot w := by
    intro w; simp only [geo]; ring
  have hne : n.dot e = 0 := by rw [← hen]; simp only [geo]; ring
  have hd : ((⟨e, e.cross n, n⟩ : Matrix ℝ).mulVec ⟨x, y, z⟩).dot n = z := by
    rw [ex, hen, h1, hn]; ring
  refine ⟨?_, hd⟩
  have hl : ((⟨e, e.cross n, n⟩ : Matrix ℝ).mulVec ⟨x, y, z⟩).len2
      = x * ((⟨e, e.cross n, n⟩ : Matrix ℝ).mulVec ⟨x, y, z⟩).dot e
        + y * ((⟨e, e.cross n, n⟩ : Matrix ℝ).mulVec ⟨x, y, z⟩).dot (e.cross n)
        + z * ((⟨e, e.cross n, n⟩ : Matrix ℝ).mulVec ⟨x, y, z⟩).dot n := by
    simp only [geo]; ring
  have h3 : n.dot (e.cross n) = 0 := by simp only [geo]; ring
  have h4 : e.dot (e.cross n) = 0 := by simp only [geo]; ring
  rw [hl, ex e, ex (e.cross n), hd, he, h2, hne, h4, hcc, h3]
  ring

/-- The vector from which the first basis vector is made is not zero, and perpendicular to `n`. -/
theorem cosineAxis_spec (n : Vec ℝ) (hn : n.dot n = 1) :
    (n.set (cosineSphereAxis n) (lit 1)).cross n ≠ Vec.zero ∧
    ((n.set (cosineSphereAxis n) (lit 1)).cross n).dot n = 0 := by
  have hperp : ∀ t : Vec ℝ, (t.cross n).dot n = 0 := by intro t; simp only [geo]; ring
  refine ⟨?_, hperp _⟩
  have hsq : ∀ a b : ℝ, |a| ≤ |b| → a ^ 2 ≤ b ^ 2 := fun a b h => sq_le_sq.2 h
  have key' : ∀ a b c : ℝ, a ^ 2 + b ^ 2 + c ^ 2 = 1 → |a| ≤ |b| → |a| ≤ |c| →
      a ≠ 1 ∧ (b ≠ 0 ∨ c ≠ 0) := by
    intro a b c h h1 h2
    have := hsq _ _ h1
    have := hsq _ _ h2
    constructor
    · rintro rfl; nlinarith
    · by_contra hc
      push Not at hc
      obtain ⟨rfl, rfl⟩ := hc
      nlinarith
  have hn' : n.x ^ 2 + n.y ^ 2 + n.z ^ 2 = 1 := by simp only [geo] at hn; linarith
  simp only [cosineSphereAxis, abs_real, lt_real, decide_eq_true_eq]
  split_ifs with h1 h2 h2
  · -- z is least
    obtain ⟨ha, hb⟩ := key' n.z n.x n.y (by linarith) (h2.trans h1).le h2.le
    intro hz
    simp only [Vec.set, geo, lit_real, Vec.zero] at hz
    push_cast at hz
    have e1 : n.y * (n.z - 1) = 0 := by linarith [hz.1]
    have e2 : n.x * (n.z - 1) = 0 := by linarith [hz.2.1]
    rcases hb with hb | hb
    · exact absurd e2 (mul_ne_zero hb (sub_ne_zero.2 ha))
    · exact absurd e1 (mul_ne_zero hb (sub_ne_zero.2 ha))
  · obtain ⟨ha, hb⟩ := key' n.y n.x n.z (by linarith) h1.le (not_lt.1 h2)
    intro hz
    simp only [Vec.set, geo, lit_real, Vec.zero] at hz
    push_cast at hz
    have e1 : n.z * (n.y - 1) = 0 := by linarith [hz.1]
    have e2 : n.x * (n.y - 1) = 0 := by linarith [hz.2.2]
    rcases hb with hb | hb
    · exact absurd e2 (mul_ne_zero hb (sub_ne_zero.2 ha))
    · exact absurd e1 (mul_ne_zero hb (sub_ne_zero.2 ha))
  · obtain ⟨ha, hb⟩ := key' n.z n.x n.y (by linarith) h2.le (h2.le.trans (not_lt.1 h1))
    intro hz
    simp only [Vec.set, geo, lit_real, Vec.zero] at hz
    push_cast at hz
    have e1 : n.y * (n.z - 1) = 0 := by linarith [hz.1]
    have e2 : n.x * (n.z - 1) = 0 := by linarith [hz.2.1]
    rcases hb with hb | hb
    · exact absurd e2 (mul_ne_zero hb (sub_ne_zero.2 ha))
    · exact absurd e1 (mul_ne_zero hb (sub_ne_zero.2 ha))
  · obtain ⟨ha, hb⟩ := key' n.x n.y n.z (by linarith) (not_lt.1 h1) (not_lt.1 h2)
    intro hz
    simp only [Vec.set, geo, lit_real, Vec.zero] at hz
    push_cast at hz
    have e1 : n.z * (n.x - 1) = 0 := by linarith [hz.2.1]
    have e2 : n.y * (n.x - 1) = 0 := by linarith [hz.2.2]
    rcases hb with hb | hb
    · exact absurd e2 (mul_ne_zero hb (sub_ne_zero.2 ha))
    · exact absurd e1 (mul_ne_zero hb (sub_ne_zero.2 ha))

/-- Hemisphere samples are unit vectors on the side of the normal; the cosine with the normal is
`√(1-v)`. -/
theorem C46_hemisphere (u v : ℝ) (hv : 0 ≤ v) (hv1 : v ≤ 1) (n : Vec ℝ) (hn : n.len2 = 1) :
    (cosineSphere u v n).len = 1 ∧ 0 ≤ (cosineSphere u v n).dot n ∧
    (cosineSphere u v n).dot n = Real.sqrt (1 - v) := by
  have hn' : n.dot n = 1 := hn
  obtain ⟨hne, hperp⟩ := cosineAxis_spec n hn'
  obtain ⟨k, -, hk, hu⟩ := Vec.normalized_spec hne
  have hen : (((n.set (cosineSphereAxis n) (lit 1)).cross n).normalized).dot n = 0 := by
    rw [hk]
    have : ∀ a : Vec ℝ, (a.mul k).dot n = k * a.dot n := by intro a; simp only [geo]; ring
    rw [this, hperp, mul_zero]
  have hd := disk_radius u v hv
  have hf := frame _ n (uniformDisk u v).1 (uniformDisk u v).2
    (Real.sqrt (1 - ((uniformDisk u v).1 * (uniformDisk u v).1 + (uniformDisk u v).2 * (uniformDisk u v).2)))
    hu hn' hen
  have hv' : (uniformDisk u v).1 * (uniformDisk u v).1 + (uniformDisk u v).2 * (uniformDisk u v).2 = v := by
    linarith
  have e : cosineSphere u v n = (⟨((n.set (cosineSphereAxis n) (lit 1)).cross n).normalized,
      ((n.set (cosineSphereAxis n) (lit 1)).cross n).normalized.cross n, n⟩ : Matrix ℝ).mulVec
      ⟨(uniformDisk u v).1, (uniformDisk u v).2, Real.sqrt (1 - ((uniformDisk u v).1 * (uniformDisk u v).1
        + (uniformDisk u v).2 * (uniformDisk u v).2))⟩ := by
    simp [cosineSphere]
  rw [e]
  have hl : ∀ w : Vec ℝ, w.len = Real.sqrt w.len2 := fun _ => rfl
  rw [hl, hf.1, hf.2, hv', hd, Real.sq_sqrt (by linarith)]
  refine ⟨?_, Real.sqrt_nonneg _, rfl⟩
  rw [show v + (1 - v) = 1 by ring, Real.sqrt_one]

/-- A slanted unit normal. -/
example : (⟨3 / 5, 0, 4 / 5⟩ : Vec ℝ).len2 = 1 := by norm_num [Vec.len2]

end BR
