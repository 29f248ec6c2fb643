import Verif.Model.TestObjects
import Verif.Spec.Ball
import Verif.Props.C86_BallHit
import Verif.Num.Real

/-! C110: the simple ball that the tests are built from. In exact arithmetic. -/

namespace BR
set_option linter.unusedSectionVars false

variable {M : Type} {m : Option M} {diam : ℝ} {o v d : Vec ℝ}

/-- The part of `testSphere` after the check of the ray. -/
noncomputable def sphereCase (m : Option M) (diam : ℝ) (o v d : Vec ℝ) (β D : ℝ) : HitRecord ℝ M :=
  if D < 0 then HitRecord.miss
  else
    let t := if -β - Real.sqrt D < 0 then -β + Real.sqrt D else -β - Real.sqrt D
    if 0 < t then ⟨t, (along v d t).sub o, (along v d t).sub o, m⟩ else HitRecord.miss

theorem testSphere_eq (hc : |1 - Real.sqrt (d.x * d.x + d.y * d.y + d.z * d.z)| ≤ 1 / 1024) :
    testSphere m diam o ⟨v, d⟩ = .ok (sphereCase m diam o v d ((v.x - o.x) * d.x + (v.y - o.y) * d.y + (v.z - o.z) * d.z)
      (((v.x - o.x) * d.x + (v.y - o.y) * d.y + (v.z - o.z) * d.z) ^ 2 -
        ((v.x - o.x) ^ 2 + (v.y - o.y) ^ 2 + (v.z - o.z) ^ 2 - (diam / 2) ^ 2))) := by
  have hck : checkRay (⟨v, d⟩ : Ray ℝ) = .ok () := by
    unfold checkRay
    rw [if_neg]
    show ¬decide (((1 / 1024 : ℚ) : ℝ) < |((1 : ℚ) : ℝ) - Real.sqrt (d.x * d.x + d.y * d.y + d.z * d.z)|) = true
    rw [decide_eq_true_eq, not_lt]
    push_cast
    exact hc
  unfold testSphere
  rw [hck, ok_bind]
  have lt0 : ∀ x : ℝ, (x <. ((0 : ℚ) : ℝ)) = decide (x < 0) := by
    intro x
    show decide (x < ((0 : ℚ) : ℝ)) = _
    simp
  have gt0 : ∀ x : ℝ, (x >. ((0 : ℚ) : ℝ)) = decide (0 < x) := by
    intro x
    show decide (((0 : ℚ) : ℝ) < x) = _
    simp
  simp only [Vec.sub, Vec.dot, Vec.len2, Ray.at, Vec.madd, lit_real, Rat.cast_ofNat, lt0, gt0, decide_eq_true_eq, sphereCase, along]
  have e : ∀ β D : ℝ, GoFloat.sqrt D = Real.sqrt D := fun _ _ => rfl
  simp only [e 0, ← pow_two]
  generalize (v.x - o.x) * d.x + (v.y - o.y) * d.y + (v.z - o.z) * d.z = β
  generalize β ^ 2 - ((v.x - o.x) ^ 2 + (v.y - o.y) ^ 2 + (v.z - o.z) ^ 2 - (diam / 2) ^ 2) = D
  by_cases hD : D < 0
  · rw [if_pos hD, if_pos hD]
    rfl
  · rw [if_neg hD, if_neg hD]
    generalize (if -β - Real.sqrt D < 0 then -β + Real.sqrt D else -β - Real.sqrt D) = t
    by_cases ht : 0 < t
    · rw [if_pos ht, if_pos ht]
      rfl
    · rw [if_neg ht, if_neg ht]
      rfl

/-- **What the simple ball reports**: for a ray with a direction of length one that does not start on the ball, the first point of the
ball ahead, if there is one; and nothing otherwise. -/
theorem C110_ball_partial (hd : d.x ^ 2 + d.y ^ 2 + d.z ^ 2 = 1) (hoff : apart v o ≠ |diam / 2|) :
    ∃ hit, testSphere m diam o ⟨v, d⟩ = .ok hit ∧
      ((0 < hit.t ∧ hit.mat = m ∧ apart (along v d hit.t) o = |diam / 2| ∧ (∀ T, 0 < T → T < hit.t → apart (along v d T) o ≠ |diam / 2|) ∧
          hit.normal = (along v d hit.t).sub o) ∨
        (hit = HitRecord.miss ∧ ∀ T, 0 < T → apart (along v d T) o ≠ |diam / 2|)) := by
  refine ⟨_, testSphere_eq ?_, ?_⟩
  · rw [← pow_two, ← pow_two, ← pow_two, hd, Real.sqrt_one]
    norm_num
  have on : ∀ p : Vec ℝ, apart p o = |diam / 2| ↔ (p.x - o.x) ^ 2 + (p.y - o.y) ^ 2 + (p.z - o.z) ^ 2 - (diam / 2) ^ 2 = 0 := by
    intro p
    rw [← sq_eq_sq₀ (a := apart p o) (Real.sqrt_nonneg _) (abs_nonneg _), apart_sq, sq_abs, sub_eq_zero]
  have hγ : (v.x - o.x) ^ 2 + (v.y - o.y) ^ 2 + (v.z - o.z) ^ 2 - (diam / 2) ^ 2 ≠ 0 := fun h => hoff ((on v).2 h)
  have onT : ∀ T, apart (along v d T) o = |diam / 2| ↔ (T + ((v.x - o.x) * d.x + (v.y - o.y) * d.y + (v.z - o.z) * d.z)) ^ 2 =
      ((v.x - o.x) * d.x + (v.y - o.y) * d.y + (v.z - o.z) * d.z) ^ 2 -
        ((v.x - o.x) ^ 2 + (v.y - o.y) ^ 2 + (v.z - o.z) ^ 2 - (diam / 2) ^ 2) := by
    intro T
    rw [on, ← sub_eq_zero (b := _ - _)]
    have : ((along v d T).x - o.x) ^ 2 + ((along v d T).y - o.y) ^ 2 + ((along v d T).z - o.z) ^ 2 - (diam / 2) ^ 2 =
        (T + ((v.x - o.x) * d.x + (v.y - o.y) * d.y + (v.z - o.z) * d.z)) ^ 2 - (((v.x - o.x) * d.x + (v.y - o.y) * d.y + (v.z - o.z) * d.z) ^ 2 -
        ((v.x - o.x) ^ 2 + (v.y - o.y) ^ 2 + (v.z - o.z) ^ 2 - (diam / 2) ^ 2)) := by
      simp only [along]
      linear_combination T ^ 2 * hd
    rw [this]
  generalize hβ : (v.x - o.x) * d.x + (v.y - o.y) * d.y + (v.z - o.z) * d.z = β at *
  generalize (v.x - o.x) ^ 2 + (v.y - o.y) ^ 2 + (v.z - o.z) ^ 2 - (diam / 2) ^ 2 = γ at *
  unfold sphereCase
  split
  · rename_i hD
    refine .inr ⟨rfl, fun T _ h => ?_⟩
    have := (onT T).1 h
    linarith [sq_nonneg (T + β)]
  · rename_i hD
    have hs := Real.sq_sqrt (not_lt.1 hD)
    have hs0 := Real.sqrt_nonneg (β ^ 2 - γ)
    generalize Real.sqrt (β ^ 2 - γ) = s at *
    have roots : ∀ T, apart (along v d T) o = |diam / 2| ↔ T = -β + s ∨ T = -β - s := by
      intro T
      rw [onT, ← hs, sq_eq_sq_iff_eq_or_eq_neg]
      constructor
      · rintro (h | h)
        · exact .inl (by linarith)
        · exact .inr (by linarith)
      · rintro (rfl | rfl)
        · exact .inl (by ring)
        · exact .inr (by ring)
    have hprod : (-β - s) * (-β + s) ≠ 0 := by
      rw [show (-β - s) * (-β + s) = γ by linear_combination -hs]
      exact hγ
    obtain ⟨n1, n2⟩ := mul_ne_zero_iff.1 hprod
    dsimp only
    by_cases h1 : -β - s < 0
    · rw [if_pos h1]
      by_cases h2 : 0 < -β + s
      · rw [if_pos h2]
        refine .inl ⟨h2, rfl, (roots _).2 (.inl rfl), fun T T0 hT h => ?_, rfl⟩
        dsimp only at hT
        rcases (roots T).1 h with h | h <;> linarith
      · rw [if_neg h2]
        refine .inr ⟨rfl, fun T T0 h => ?_⟩
        rcases (roots T).1 h with h | h <;> linarith
    · rw [if_neg h1]
      have h2 : 0 < -β - s := lt_of_le_of_ne (not_lt.1 h1) n1.symm
      rw [if_pos h2]
      refine .inl ⟨h2, rfl, (roots _).2 (.inr rfl), fun T T0 hT h => ?_, rfl⟩
      dsimp only at hT
      rcases (roots T).1 h with h | h <;> linarith

/-- **Rays that are not of length one, by more than 1/1024, are refused.** -/
theorem C110_refused (h : 1 / 1024 < |1 - Real.sqrt (d.x * d.x + d.y * d.y + d.z * d.z)|) :
    testSphere m diam o ⟨v, d⟩ = .error (.msg "BUG: unnormalized ray dir") := by
  have hck : checkRay (⟨v, d⟩ : Ray ℝ) = .error (.msg "BUG: unnormalized ray dir") := by
    unfold checkRay
    rw [if_pos]
    show decide (((1 / 1024 : ℚ) : ℝ) < |((1 : ℚ) : ℝ) - Real.sqrt (d.x * d.x + d.y * d.y + d.z * d.z)|) = true
    rw [decide_eq_true_eq]
    push_cast
    exact h
  unfold testSphere
  rw [hck, error_bind]

/-- **Normals do not have length one** (a violation): theirs is the radius. On a ball of diameter 4 a ray straight at it finds the normal
`(0, 0, -2)`. -/
theorem C110_violated_normal : ∃ hit : HitRecord ℝ Unit, testSphere (some ()) 4 ⟨0, 0, 0⟩ ⟨⟨0, 0, -3⟩, ⟨0, 0, 1⟩⟩ = .ok hit ∧ hit.t = 1 ∧
    hit.normal = ⟨0, 0, -2⟩ := by
  refine ⟨_, testSphere_eq (by norm_num), ?_⟩
  have e : Real.sqrt 4 = 2 := by rw [show (4 : ℝ) = 2 ^ 2 by norm_num, Real.sqrt_sq (by norm_num)]
  norm_num [sphereCase, e, along, Vec.sub]

/-- **A ray that starts on the ball and goes in does not find the far side** (a violation). -/
theorem C110_violated_start : testSphere (some ()) (2 : ℝ) ⟨0, 0, 0⟩ ⟨⟨0, 0, -1⟩, ⟨0, 0, 1⟩⟩ = .ok HitRecord.miss ∧
    apart (along ⟨0, 0, -1⟩ ⟨0, 0, 1⟩ 2) ⟨0, 0, 0⟩ = 1 := by
  constructor
  · rw [testSphere_eq (by norm_num)]
    norm_num [sphereCase]
  · norm_num [apart, along]

/-- **Rays that are accepted though not quite of length one find points off the ball** (a violation). -/
theorem C110_violated_length : ∃ hit : HitRecord ℝ Unit, testSphere (some ()) 2 ⟨0, 0, 0⟩ ⟨⟨0, 0, -3⟩, ⟨0, 0, 2049 / 2048⟩⟩ = .ok hit ∧ 0 < hit.t ∧
    apart (along ⟨0, 0, -3⟩ ⟨0, 0, 2049 / 2048⟩ hit.t) ⟨0, 0, 0⟩ ≠ 1 := by
  refine ⟨_, testSphere_eq (by
    simp only [mul_zero, zero_add]
    rw [Real.sqrt_mul_self (by norm_num), abs_le]
    norm_num), ?_⟩
  have hD : (0 : ℝ) ≤ (-3 * (2049 / 2048)) ^ 2 - 8 := by norm_num
  have hs := Real.sq_sqrt hD
  have hs0 := Real.sqrt_nonneg ((-3 * (2049 / 2048)) ^ 2 - 8 : ℝ)
  have e1 : ((0 : ℝ) - 0) * 0 + (0 - 0) * 0 + (-3 - 0) * (2049 / 2048) = -3 * (2049 / 2048) := by ring
  have e2 : (-3 * (2049 / 2048) : ℝ) ^ 2 - ((0 - 0) ^ 2 + (0 - 0) ^ 2 + (-3 - 0) ^ 2 - (2 / 2) ^ 2) = (-3 * (2049 / 2048)) ^ 2 - 8 := by norm_num
  dsimp only
  rw [e1, e2]
  unfold sphereCase
  rw [if_neg (not_lt.2 hD)]
  generalize Real.sqrt ((-3 * (2049 / 2048)) ^ 2 - 8 : ℝ) = s at *
  have s1 : s < 2 := by
    by_contra hlt
    norm_num at hs
    nlinarith
  have t0 : 0 < -(-3 * (2049 / 2048)) - s := by norm_num; linarith
  dsimp only
  rw [if_neg (not_lt.2 t0.le), if_pos t0]
  refine ⟨t0, ?_⟩
  intro h
  have h2 := apart_sq (along ⟨0, 0, -3⟩ ⟨0, 0, 2049 / 2048⟩ (-(-3 * (2049 / 2048)) - s)) ⟨0, 0, 0⟩
  dsimp only at h
  rw [h] at h2
  simp only [along] at h2
  norm_num at h2 hs
  nlinarith

/-- **The light of the simple lamp** comes from a point just outside of its own ball (of radius 1/10), on the way to the lit point. -/
theorem C110_lamp {pos dst : Vec ℝ} (h : 0 < apart pos dst) : apart (testLampFrom pos dst) pos = 101 / 1000 ∧
    testLampFrom pos dst = along pos (dst.sub pos) (101 / 1000 / apart pos dst) := by
  have hs := apart_sq pos dst
  have e : testLampFrom pos dst = along pos (dst.sub pos) (101 / 1000 / apart pos dst) := by
    have hl : GoFloat.sqrt ((pos.x - dst.x) * (pos.x - dst.x) + (pos.y - dst.y) * (pos.y - dst.y) + (pos.z - dst.z) * (pos.z - dst.z)) = apart pos dst := by
      simp only [apart, pow_two]
      rfl
    simp only [testLampFrom, Vec.madd, Vec.sub, Vec.normalized, hl, along, lit_real]
    generalize apart pos dst = L at *
    push_cast
    ext <;> dsimp only <;> field_simp <;> ring
  refine ⟨?_, e⟩
  rw [e]
  refine (sq_eq_sq₀ (a := apart _ _) (Real.sqrt_nonneg _) (by norm_num)).1 ?_
  rw [apart_sq]
  simp only [along, Vec.sub]
  generalize apart pos dst = L at *
  have : ∀ k : ℝ, (pos.x + k * (dst.x - pos.x) - pos.x) ^ 2 + (pos.y + k * (dst.y - pos.y) - pos.y) ^ 2 + (pos.z + k * (dst.z - pos.z) - pos.z) ^ 2 = k ^ 2 * L ^ 2 := by
    intro k
    rw [hs]
    ring
  rw [this, ← mul_pow, div_mul_cancel₀ _ h.ne']

/-- Light for the point `(0, 0, 0)` from a lamp at `(0, 0, 2)`. -/
example : testLampFrom (⟨0, 0, 2⟩ : Vec ℝ) ⟨0, 0, 0⟩ = ⟨0, 0, 1899 / 1000⟩ := by
  have h : apart ⟨0, 0, 2⟩ ⟨0, 0, 0⟩ = 2 := by
    norm_num [apart]
    rw [show (4 : ℝ) = 2 ^ 2 by norm_num, Real.sqrt_sq (by norm_num)]
  rw [(C110_lamp (by rw [h]; norm_num)).2, h]
  norm_num [along, Vec.sub]

/-- A ray straight at a ball of diameter 2. -/
example : ∃ hit : HitRecord ℝ Unit, testSphere (some ()) 2 ⟨0, 0, 0⟩ ⟨⟨0, 0, -3⟩, ⟨0, 0, 1⟩⟩ = .ok hit ∧ hit.t = 2 := by
  refine ⟨_, testSphere_eq (by norm_num), ?_⟩
  norm_num [sphereCase]

end BR
