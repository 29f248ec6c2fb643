import Verif.Lemmas.Spread

/-! An area of a horizontal plane, seen from a point below: the solid angle weighted with the cosine. -/

namespace BR

open MeasureTheory Set

variable {a b n T : Vec ℝ} {y : ℝ}

/-- The ray from `p` in the direction `d` meets the area `A` of the horizontal plane at the height `y`. -/
def MeetsArea (A : Set (ℝ × ℝ)) (y : ℝ) (p d : Vec ℝ) : Prop :=
  ∃ t, 0 < t ∧ p.y + t * d.y = y ∧ (p.x + t * d.x, p.z + t * d.z) ∈ A

/-- From `T` to the point `q` of the plane at the height `y`. -/
def toward (T : Vec ℝ) (y : ℝ) (q : ℝ × ℝ) : Vec ℝ := ⟨q.1 - T.x, y - T.y, q.2 - T.z⟩

/-- Its length. -/
noncomputable def dist2 (T : Vec ℝ) (y : ℝ) (q : ℝ × ℝ) : ℝ := (q.1 - T.x) ^ 2 + (y - T.y) ^ 2 + (q.2 - T.z) ^ 2

/-- The points of the plane above the horizon of a surface at `T` with normal `n`. -/
def above (n T : Vec ℝ) (y : ℝ) : Set (ℝ × ℝ) := {q | 0 < (toward T y q).dot n}

/-- Where a point of the plane is seen: the foot of its direction in the disk around `T`. -/
noncomputable def foot (a b T : Vec ℝ) (y : ℝ) (q : ℝ × ℝ) : ℝ × ℝ :=
  ((toward T y q).dot a / Real.sqrt (dist2 T y q), (toward T y q).dot b / Real.sqrt (dist2 T y q))

theorem dist2_pos (h : T.y < y) (q : ℝ × ℝ) : 0 < dist2 T y q := by
  unfold dist2
  have : 0 < (y - T.y) ^ 2 := by have : 0 < y - T.y := by linarith
                                 positivity
  positivity

theorem dist2_frame (hF : IsFrame a b n) (q : ℝ × ℝ) :
    dist2 T y q = (toward T y q).dot a ^ 2 + (toward T y q).dot b ^ 2 + (toward T y q).dot n ^ 2 := by
  have e : dist2 T y q = (toward T y q).dot (toward T y q) := by
    simp only [dist2, toward, geo]; ring
  rw [e]
  conv_lhs => rw [hF.complete (toward T y q)]
  rw [hF.dot_comb]
  ring

/-- The direction above the foot of a visible point is the direction of the point. -/
theorem lift_foot (hF : IsFrame a b n) (h : T.y < y) {q : ℝ × ℝ} (hq : q ∈ above n T y) :
    lift a b n (foot a b T y q) = (toward T y q).mul (1 / Real.sqrt (dist2 T y q)) := by
  have hd := dist2_pos h q
  have hs := Real.sqrt_pos.2 hd
  have hq' : 0 < (toward T y q).dot n := hq
  have hr : Real.sqrt (dist2 T y q) ^ 2 = dist2 T y q := Real.sq_sqrt hd.le
  have e : 1 - ((foot a b T y q).1 ^ 2 + (foot a b T y q).2 ^ 2) =
      ((toward T y q).dot n / Real.sqrt (dist2 T y q)) ^ 2 := by
    simp only [foot, div_pow, hr]
    field_simp
    rw [dist2_frame hF]; ring
  unfold lift
  rw [e, Real.sqrt_sq (by positivity)]
  conv_rhs => rw [hF.complete (toward T y q)]
  simp only [foot, geo]
  refine ⟨?_, ?_, ?_⟩ <;> ring

theorem foot_disk (hF : IsFrame a b n) (h : T.y < y) {q : ℝ × ℝ} (hq : q ∈ above n T y) :
    foot a b T y q ∈ unitDisk := by
  have hd := dist2_pos h q
  have hq' : 0 < (toward T y q).dot n := hq
  change (foot a b T y q).1 ^ 2 + (foot a b T y q).2 ^ 2 < 1
  simp only [foot, div_pow, Real.sq_sqrt hd.le]
  rw [← add_div, div_lt_one hd, dist2_frame hF]
  nlinarith

theorem lift_dot_n (hF : IsFrame a b n) (q : ℝ × ℝ) :
    (lift a b n q).dot n = Real.sqrt (1 - (q.1 ^ 2 + q.2 ^ 2)) := by
  have : (lift a b n q).dot n = q.1 * a.dot n + q.2 * b.dot n + Real.sqrt (1 - (q.1 ^ 2 + q.2 ^ 2)) * n.dot n := by
    unfold lift
    generalize Real.sqrt (1 - (q.1 ^ 2 + q.2 ^ 2)) = z
    simp only [geo]; ring
  rw [this, hF.an, hF.bn, hF.nn]; ring

theorem foot_injOn (hF : IsFrame a b n) (h : T.y < y) : InjOn (foot a b T y) (above n T y) := by
  intro p hp q hq e
  have h1 := lift_foot hF h hp
  rw [e, lift_foot hF h hq] at h1
  simp only [toward, geo] at h1
  obtain ⟨hx, hy, hz⟩ := h1
  have hh : 0 < y - T.y := by linarith
  have hr := mul_right_cancel₀ hh.ne' hy
  have hp0 : 0 < 1 / Real.sqrt (dist2 T y p) := by have := Real.sqrt_pos.2 (dist2_pos h p); positivity
  rw [hr] at hx hz
  have hx' := mul_left_cancel₀ hp0.ne' hx
  have hz' := mul_left_cancel₀ hp0.ne' hz
  ext <;> linarith

/-- The feet of an area: the directions that meet it. -/
theorem foot_image (hF : IsFrame a b n) (h : T.y < y) (A : Set (ℝ × ℝ)) :
    foot a b T y '' (above n T y ∩ A) = {q | q ∈ unitDisk ∧ MeetsArea A y T (lift a b n q)} := by
  have hh : 0 < y - T.y := by linarith
  apply Subset.antisymm
  · rintro _ ⟨q, ⟨hq, hA⟩, rfl⟩
    refine ⟨foot_disk hF h hq, Real.sqrt (dist2 T y q), Real.sqrt_pos.2 (dist2_pos h q), ?_, ?_⟩
    · have := Real.sqrt_pos.2 (dist2_pos h q)
      rw [lift_foot hF h hq]
      simp only [toward, Vec.mul]
      field_simp
      ring
    · have := Real.sqrt_pos.2 (dist2_pos h q)
      rw [lift_foot hF h hq]
      simp only [toward, Vec.mul]
      convert hA using 1
      ext <;> simp only <;> field_simp <;> ring
  · rintro q ⟨hq, t, ht, hy, hA⟩
    refine ⟨(T.x + t * (lift a b n q).x, T.z + t * (lift a b n q).z), ⟨?_, hA⟩, ?_⟩
    all_goals
      have hto : toward T y (T.x + t * (lift a b n q).x, T.z + t * (lift a b n q).z) = (lift a b n q).mul t := by
        simp only [toward, geo]
        refine ⟨?_, ?_, ?_⟩ <;> linarith
    · change 0 < (toward T y _).dot n
      rw [hto]
      have e : ((lift a b n q).mul t).dot n = t * (lift a b n q).dot n := by simp only [geo]; ring
      rw [e, lift_dot_n hF]
      have hq' : q.1 ^ 2 + q.2 ^ 2 < 1 := hq
      exact mul_pos ht (Real.sqrt_pos.2 (by linarith))
    · have hq' : q.1 ^ 2 + q.2 ^ 2 < 1 := hq
      have hd : dist2 T y (T.x + t * (lift a b n q).x, T.z + t * (lift a b n q).z) = t ^ 2 := by
        rw [dist2_frame hF, hto]
        have ea : ((lift a b n q).mul t).dot a = t * q.1 := by
          have : ((lift a b n q).mul t).dot a = t * (q.1 * a.dot a + q.2 * a.dot b +
              Real.sqrt (1 - (q.1 ^ 2 + q.2 ^ 2)) * a.dot n) := by
            unfold lift
            generalize Real.sqrt (1 - (q.1 ^ 2 + q.2 ^ 2)) = z
            simp only [geo]; ring
          rw [this, hF.aa, hF.ab, hF.an]; ring
        have eb : ((lift a b n q).mul t).dot b = t * q.2 := by
          have : ((lift a b n q).mul t).dot b = t * (q.1 * a.dot b + q.2 * b.dot b +
              Real.sqrt (1 - (q.1 ^ 2 + q.2 ^ 2)) * b.dot n) := by
            unfold lift
            generalize Real.sqrt (1 - (q.1 ^ 2 + q.2 ^ 2)) = z
            simp only [geo]; ring
          rw [this, hF.bb, hF.ab, hF.bn]; ring
        have en : ((lift a b n q).mul t).dot n = t * (lift a b n q).dot n := by simp only [geo]; ring
        rw [ea, eb, en, lift_dot_n hF, mul_pow, mul_pow, mul_pow, Real.sq_sqrt (by linarith)]
        ring
      have ea : ((lift a b n q).mul t).dot a = t * q.1 := by
        have : ((lift a b n q).mul t).dot a = t * (q.1 * a.dot a + q.2 * a.dot b +
            Real.sqrt (1 - (q.1 ^ 2 + q.2 ^ 2)) * a.dot n) := by
          unfold lift
          generalize Real.sqrt (1 - (q.1 ^ 2 + q.2 ^ 2)) = z
          simp only [geo]; ring
        rw [this, hF.aa, hF.ab, hF.an]; ring
      have eb : ((lift a b n q).mul t).dot b = t * q.2 := by
        have : ((lift a b n q).mul t).dot b = t * (q.1 * a.dot b + q.2 * b.dot b +
            Real.sqrt (1 - (q.1 ^ 2 + q.2 ^ 2)) * b.dot n) := by
          unfold lift
          generalize Real.sqrt (1 - (q.1 ^ 2 + q.2 ^ 2)) = z
          simp only [geo]; ring
        rw [this, hF.bb, hF.ab, hF.bn]; ring
      unfold foot
      rw [hto, hd, Real.sqrt_sq ht.le, ea, eb]
      ext <;> simp only <;> field_simp

/-- The derivative of `foot`. -/
noncomputable def footDeriv (a b T : Vec ℝ) (y : ℝ) (q : ℝ × ℝ) : ℝ × ℝ →L[ℝ] ℝ × ℝ :=
  let r := Real.sqrt (dist2 T y q)
  let d := toward T y q
  (_root_.Matrix.toLin (.finTwoProd ℝ) (.finTwoProd ℝ)
    !![a.x / r - d.dot a * d.x / r ^ 3, a.z / r - d.dot a * d.z / r ^ 3;
       b.x / r - d.dot b * d.x / r ^ 3, b.z / r - d.dot b * d.z / r ^ 3]).toContinuousLinearMap

theorem foot_hasFDerivAt (h : T.y < y) (q : ℝ × ℝ) : HasFDerivAt (foot a b T y) (footDeriv a b T y q) q := by
  have hd := dist2_pos h q
  have hs := Real.sqrt_pos.2 hd
  have hr : Real.sqrt (dist2 T y q) ^ 2 = dist2 T y q := Real.sq_sqrt hd.le
  have e1 : HasFDerivAt (fun q : ℝ × ℝ => q.1 - T.x) (ContinuousLinearMap.fst ℝ ℝ ℝ) q :=
    hasFDerivAt_fst.sub_const T.x
  have e2 : HasFDerivAt (fun q : ℝ × ℝ => q.2 - T.z) (ContinuousLinearMap.snd ℝ ℝ ℝ) q :=
    hasFDerivAt_snd.sub_const T.z
  have hdist : HasFDerivAt (dist2 T y)
      ((2 * (q.1 - T.x)) • ContinuousLinearMap.fst ℝ ℝ ℝ + (2 * (q.2 - T.z)) • ContinuousLinearMap.snd ℝ ℝ ℝ) q := by
    have := ((e1.pow 2).add_const ((y - T.y) ^ 2)).add (e2.pow 2)
    convert! this using 1
    ext <;> simp
  have hsq := (Real.hasDerivAt_sqrt hd.ne').comp_hasFDerivAt q hdist
  have hdot : ∀ c : Vec ℝ, HasFDerivAt (fun q => (toward T y q).dot c)
      (c.x • ContinuousLinearMap.fst ℝ ℝ ℝ + c.z • ContinuousLinearMap.snd ℝ ℝ ℝ) q := by
    intro c
    have := ((e1.const_mul c.x).add_const ((y - T.y) * c.y)).add (e2.const_mul c.z)
    convert! this using 1
    funext q
    simp only [toward, geo]; simp; ring
  have hinv := (hasDerivAt_inv hs.ne').comp_hasFDerivAt q hsq
  have hq : ∀ c : Vec ℝ, HasFDerivAt (fun q => (toward T y q).dot c / Real.sqrt (dist2 T y q))
      ((c.x / Real.sqrt (dist2 T y q) - (toward T y q).dot c * (toward T y q).x / Real.sqrt (dist2 T y q) ^ 3) •
        ContinuousLinearMap.fst ℝ ℝ ℝ +
       (c.z / Real.sqrt (dist2 T y q) - (toward T y q).dot c * (toward T y q).z / Real.sqrt (dist2 T y q) ^ 3) •
        ContinuousLinearMap.snd ℝ ℝ ℝ) q := by
    intro c
    have := (hdot c).mul hinv
    convert! this using 1
    ext <;> simp [toward] <;> field_simp <;> ring
  unfold footDeriv
  rw [_root_.Matrix.toLin_finTwoProd_toContinuousLinearMap]
  exact (hq a).prodMk (hq b)

theorem footDeriv_det (hF : IsFrame a b n) (h : T.y < y) {q : ℝ × ℝ} (hq : q ∈ above n T y) :
    |(footDeriv a b T y q).det| = (y - T.y) * (toward T y q).dot n / dist2 T y q ^ 2 := by
  have hd := dist2_pos h q
  have hs := Real.sqrt_pos.2 hd
  have hr : Real.sqrt (dist2 T y q) ^ 2 = dist2 T y q := Real.sq_sqrt hd.le
  have hq' : 0 < (toward T y q).dot n := hq
  -- the cross product of `a` and `b` is `± n`
  have hs2 : (a.cross b).dot n ^ 2 = 1 := by
    have e : (a.cross b).dot n ^ 2 = (a.cross b).dot (a.cross b) := by
      have h1 := hF.complete (a.cross b)
      have ha : (a.cross b).dot a = 0 := by simp only [geo]; ring
      have hb : (a.cross b).dot b = 0 := by simp only [geo]; ring
      rw [ha, hb] at h1
      conv_rhs => rw [h1]
      rw [hF.dot_comb]; ring
    rw [e]
    have : (a.cross b).dot (a.cross b) = a.dot a * b.dot b - a.dot b ^ 2 := by simp only [geo]; ring
    rw [this, hF.aa, hF.bb, hF.ab]; norm_num
  have hc : a.cross b = n.mul ((a.cross b).dot n) := by
    have h1 := hF.complete (a.cross b)
    have ha : (a.cross b).dot a = 0 := by simp only [geo]; ring
    have hb : (a.cross b).dot b = 0 := by simp only [geo]; ring
    rw [ha, hb] at h1
    conv_lhs => rw [h1]
    simp only [geo]
    refine ⟨?_, ?_, ?_⟩ <;> ring
  set s := (a.cross b).dot n with hsdef
  have habs : |s| = 1 := by rwa [← sq_eq_sq₀ (abs_nonneg _) zero_le_one, sq_abs, one_pow]
  have hdet : (footDeriv a b T y q).det = -s * ((y - T.y) * (toward T y q).dot n / dist2 T y q ^ 2) := by
    unfold footDeriv
    simp only [LinearMap.det_toContinuousLinearMap, LinearMap.det_toLin, _root_.Matrix.det_fin_two_of]
    set d := toward T y q with hdd
    have hdy : y - T.y = d.y := rfl
    have hrr : Real.sqrt (dist2 T y q) ^ 2 = d.x ^ 2 + d.y ^ 2 + d.z ^ 2 := hr
    rw [hdy]
    generalize Real.sqrt (dist2 T y q) = r at *
    rw [← hr]
    simp only [geo] at hc
    obtain ⟨hcx, hcy, hcz⟩ := hc
    have hr0 : r ≠ 0 := hs.ne'
    field_simp
    simp only [geo]
    linear_combination (r ^ 2 * (-d.y * d.x)) * hcx + (r ^ 2 * (-d.y * d.y)) * hcy + (r ^ 2 * (-d.y * d.z)) * hcz
      - (r ^ 2 * (a.z * b.x - a.x * b.z)) * hrr
  rw [hdet, abs_mul, abs_neg, habs, one_mul, abs_of_pos]
  have : 0 < y - T.y := by linarith
  positivity

theorem measurableSet_above : MeasurableSet (above n T y) := by
  refine (isOpen_lt continuous_const ?_).measurableSet
  simp only [toward, Vec.dot]
  fun_prop

/-- The directions that meet an area are a measurable set. -/
theorem measurableSet_meets (h : T.y < y) {A : Set (ℝ × ℝ)} (hA : MeasurableSet A) (d : ℝ × ℝ → Vec ℝ)
    (h1 : Measurable fun p => (d p).x) (h2 : Measurable fun p => (d p).y) (h3 : Measurable fun p => (d p).z) :
    MeasurableSet {p | MeetsArea A y T (d p)} := by
  have hh : 0 < y - T.y := by linarith
  have e : {p | MeetsArea A y T (d p)} = {p | 0 < (d p).y} ∩
      (fun p => (T.x + (y - T.y) / (d p).y * (d p).x, T.z + (y - T.y) / (d p).y * (d p).z)) ⁻¹' A := by
    ext p
    constructor
    · rintro ⟨t, ht, hy, hA⟩
      have hp : 0 < (d p).y := by
        by_contra hc
        have := mul_nonpos_of_nonneg_of_nonpos ht.le (not_lt.1 hc)
        linarith
      have : (y - T.y) / (d p).y = t := by rw [div_eq_iff hp.ne']; linarith
      refine ⟨hp, ?_⟩
      simp only [mem_preimage, this]
      exact hA
    · rintro ⟨hp, hA⟩
      have hp' : 0 < (d p).y := hp
      refine ⟨(y - T.y) / (d p).y, by positivity, ?_, hA⟩
      field_simp
      ring
  rw [e]
  refine (measurableSet_lt measurable_const h2).inter (Measurable.prodMk ?_ ?_ hA)
  · exact ((measurable_const.div h2).mul h1).const_add _
  · exact ((measurable_const.div h2).mul h3).const_add _

/-- The chance that a diffuse ray meets an area of the plane. -/
theorem chance_meets (hn : n.dot n = 1) (h : T.y < y) {A : Set (ℝ × ℝ)} (hA : MeasurableSet A) :
    chance (fun p => MeetsArea A y T (cosineSphere p.1 p.2 n)) =
      (ENNReal.ofReal Real.pi)⁻¹ * ∫⁻ q in A, ENNReal.ofReal
        (max 0 ((y - T.y) * (toward T y q).dot n / dist2 T y q ^ 2)) := by
  obtain ⟨a, b, hF, hc⟩ := cosineSphere_lift n hn
  -- the set of directions is measurable
  have hml : Measurable (fun q : ℝ × ℝ => (lift a b n q).x) ∧ Measurable (fun q : ℝ × ℝ => (lift a b n q).y) ∧
      Measurable (fun q : ℝ × ℝ => (lift a b n q).z) := by
    simp only [lift, Vec.add, Vec.mul]
    refine ⟨?_, ?_, ?_⟩ <;> fun_prop
  have hD : MeasurableSet {q | MeetsArea A y T (lift a b n q)} :=
    measurableSet_meets h hA _ hml.1 hml.2.1 hml.2.2
  have hdm : Measurable diskMap := by
    rw [show diskMap = fun p : ℝ × ℝ => _ from funext diskMap_eq]
    fun_prop
  have hE : MeasurableSet {p : ℝ × ℝ | MeetsArea A y T (cosineSphere p.1 p.2 n)} := by
    simp only [hc]
    exact hdm hD
  have h0 : chance (fun p => MeetsArea A y T (cosineSphere p.1 p.2 n)) =
      ∫⁻ p in unitSq, {d | MeetsArea A y T d}.indicator 1 (cosineSphere p.1 p.2 n) := by
    rw [chance, ← lintegral_indicator measurableSet_unitSq]
    have : {p : ℝ × ℝ | p ∈ unitSq ∧ MeetsArea A y T (cosineSphere p.1 p.2 n)} =
        unitSq ∩ {p | MeetsArea A y T (cosineSphere p.1 p.2 n)} := rfl
    rw [this, ← lintegral_indicator_one (measurableSet_unitSq.inter hE)]
    refine lintegral_congr fun p => ?_
    rw [← indicator_indicator]
    rfl
  rw [h0, lintegral_cosineSphere hF]
  congr 1
  have h1 : ∫⁻ q in unitDisk, {d | MeetsArea A y T d}.indicator (1 : Vec ℝ → ENNReal) (lift a b n q) =
      volume {q | q ∈ unitDisk ∧ MeetsArea A y T (lift a b n q)} := by
    have : {q | q ∈ unitDisk ∧ MeetsArea A y T (lift a b n q)} =
        unitDisk ∩ {q | MeetsArea A y T (lift a b n q)} := rfl
    rw [this, ← lintegral_indicator_one (measurableSet_unitDisk.inter hD), ← lintegral_indicator measurableSet_unitDisk]
    refine lintegral_congr fun p => ?_
    rw [← indicator_indicator]
    rfl
  rw [h1, ← foot_image hF h, ← lintegral_abs_det_fderiv_eq_addHaar_image volume (measurableSet_above.inter hA)
    (fun q _ => (foot_hasFDerivAt h q).hasFDerivWithinAt) ((foot_injOn hF h).mono inter_subset_left),
    ← lintegral_indicator (measurableSet_above.inter hA), ← lintegral_indicator hA]
  refine lintegral_congr fun q => ?_
  rw [inter_comm, ← indicator_indicator]
  by_cases hq : q ∈ A
  · rw [indicator_of_mem hq, indicator_of_mem hq]
    have hh : 0 < y - T.y := by linarith
    have hd := dist2_pos h q
    by_cases hab : q ∈ above n T y
    · have hab' : 0 < (toward T y q).dot n := hab
      rw [indicator_of_mem hab, footDeriv_det hF h hab, max_eq_right (by positivity)]
    · have hab' : (toward T y q).dot n ≤ 0 := not_lt.1 hab
      rw [indicator_of_notMem hab, max_eq_left, ENNReal.ofReal_zero]
      exact div_nonpos_of_nonpos_of_nonneg (mul_nonpos_of_nonneg_of_nonpos hh.le hab') (by positivity)
  · rw [indicator_of_notMem hq, indicator_of_notMem hq]

end BR
