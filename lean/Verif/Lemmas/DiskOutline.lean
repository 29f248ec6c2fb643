import Verif.Lemmas.Penumbra

/-! The outline of a disk. -/

namespace BR

open MeasureTheory Filter Topology Set

/-- Directions that matte surfaces never choose, whatever their normal, have no solid angle. -/
theorem noArea_of_chance {Z : Set (Vec ℝ)} (hm : MeasurableSet Z)
    (h : ∀ n : Vec ℝ, n.dot n = 1 → chance (fun p => cosineSphere p.1 p.2 n ∈ Z) = 0) : NoArea Z := by
  intro a b n hF
  have e : ∫⁻ p in unitSq, Z.indicator 1 (cosineSphere p.1 p.2 n) = ∫⁻ t in hemisphere,
      ENNReal.ofReal (Real.cos t.1 / Real.pi) * ENNReal.ofReal (Real.sin t.1) * Z.indicator 1 (direction a b n t.1 t.2) :=
    C76_hemisphere a b n hF (Z.indicator 1)
  have h1 : ∫⁻ p in unitSq, Z.indicator (1 : Vec ℝ → ENNReal) (cosineSphere p.1 p.2 n) = 0 := by
    rw [lintegral_congr_ae (g := fun _ => 0), lintegral_zero]
    have : ∀ᵐ p ∂(volume.restrict unitSq), cosineSphere p.1 p.2 n ∉ Z := by
      rw [ae_restrict_iff' measurableSet_unitSq, ae_iff]
      refine measure_mono_null ?_ (h n hF.nn)
      intro t ht
      simp only [mem_ofPred_eq, not_forall, not_not] at ht
      exact ⟨ht.1, ht.2⟩
    filter_upwards [this] with q hq
    rw [indicator_of_notMem hq]
  rw [h1] at e
  have hM : Measurable fun t : ℝ × ℝ => ENNReal.ofReal (Real.cos t.1 / Real.pi) * ENNReal.ofReal (Real.sin t.1) *
      Z.indicator (1 : Vec ℝ → ENNReal) (direction a b n t.1 t.2) := by
    have hd : Measurable fun t : ℝ × ℝ => Z.indicator (1 : Vec ℝ → ENNReal) (direction a b n t.1 t.2) :=
      (measurable_one.indicator hm).comp (continuous_direction a b n).measurable
    refine Measurable.mul ?_ hd
    refine Measurable.mul (f := fun t : ℝ × ℝ => ENNReal.ofReal (Real.cos t.1 / Real.pi))
      (g := fun t : ℝ × ℝ => ENNReal.ofReal (Real.sin t.1)) ?_ ?_
    · exact ENNReal.measurable_ofReal.comp (by fun_prop)
    · exact ENNReal.measurable_ofReal.comp (by fun_prop)
  have e' := (lintegral_eq_zero_iff hM).1 e.symm
  rw [Filter.EventuallyEq, ae_restrict_iff' measurableSet_hemisphere, ae_iff] at e'
  refine measure_mono_null ?_ e'
  rintro t ⟨ht, hz⟩
  simp only [mem_ofPred_eq, Classical.not_imp]
  refine ⟨ht, ?_⟩
  have hp := Real.pi_pos
  have hc : 0 < Real.cos t.1 := Real.cos_pos_of_mem_Ioo ⟨by linarith [ht.1.1], ht.1.2⟩
  have hs : 0 < Real.sin t.1 := Real.sin_pos_of_pos_of_lt_pi ht.1.1 (by linarith [ht.1.2])
  rw [indicator_of_mem hz]
  have h2 : 0 < Real.cos t.1 / Real.pi := by positivity
  simp [h2, hs, not_le]

/-- A circle has no area. -/
theorem circle_null (a b r : ℝ) : volume {q : ℝ × ℝ | (q.1 - a) ^ 2 + (q.2 - b) ^ 2 = r} = 0 := by
  have hm : MeasurableSet {q : ℝ × ℝ | (q.1 - a) ^ 2 + (q.2 - b) ^ 2 = r} :=
    (isClosed_eq (by fun_prop) continuous_const).measurableSet
  rw [Measure.volume_eq_prod, Measure.measure_prod_null hm]
  refine Eventually.of_forall fun x => ?_
  refine Set.Finite.measure_zero (Set.Finite.subset
    (Set.toFinite {b + Real.sqrt (r - (x - a) ^ 2), b - Real.sqrt (r - (x - a) ^ 2)}) ?_) _
  intro y hy
  have hy : (x - a) ^ 2 + (y - b) ^ 2 = r := hy
  have e : r - (x - a) ^ 2 = (y - b) ^ 2 := by linarith
  rw [e, Real.sqrt_sq_eq_abs]
  rcases abs_cases (y - b) with ⟨h, -⟩ | ⟨h, -⟩
  · left; rw [h]; ring
  · right; simp only [mem_singleton_iff]; rw [h]; ring

/-- The directions from `p` in which a disk above it is seen are bounded by an outline. -/
theorem disk_outline {p C : Vec ℝ} {D : ℝ} (hp : p.y < C.y) :
    MeasurableSet {ω | MeetsArea (diskArea D C) C.y p ω} ∧ NoArea (frontier {ω | MeetsArea (diskArea D C) C.y p ω}) := by
  set h := C.y - p.y with hh
  have h0 : 0 < h := by linarith
  let G : Vec ℝ → ℝ := fun ω => ((p.x - C.x) * ω.y + h * ω.x) ^ 2 + ((p.z - C.z) * ω.y + h * ω.z) ^ 2 - (D / 2) ^ 2 * ω.y ^ 2
  have hG : Continuous G := by
    have hx := Vec.continuous_x
    have hy := Vec.continuous_y
    have hz := Vec.continuous_z
    fun_prop
  -- the ray meets the plane of the disk at `t = h / ω.y`
  have meets : ∀ (A : Set (ℝ × ℝ)) (ω : Vec ℝ), MeetsArea A C.y p ω ↔ 0 < ω.y ∧ (p.x + h / ω.y * ω.x, p.z + h / ω.y * ω.z) ∈ A := by
    intro A ω
    constructor
    · rintro ⟨t, ht, hy, hA⟩
      have hty : t * ω.y = h := by linarith
      have hωy : 0 < ω.y := by
        by_contra hn
        have := mul_nonpos_of_nonneg_of_nonpos ht.le (not_lt.1 hn)
        linarith
      refine ⟨hωy, ?_⟩
      have : h / ω.y = t := by rw [← hty]; field_simp
      rw [this]
      exact hA
    · rintro ⟨hωy, hA⟩
      refine ⟨h / ω.y, by positivity, ?_, hA⟩
      have : h / ω.y * ω.y = h := by field_simp
      rw [this, hh]; ring
  have sq : ∀ ω : Vec ℝ, 0 < ω.y → (p.x + h / ω.y * ω.x - C.x) ^ 2 + (p.z + h / ω.y * ω.z - C.z) ^ 2 =
      (D / 2) ^ 2 + G ω / ω.y ^ 2 := by
    intro ω hy
    simp only [G]
    field_simp
    ring
  have eS : {ω | MeetsArea (diskArea D C) C.y p ω} = {ω | 0 < ω.y} ∩ {ω | G ω < 0} := by
    ext ω
    simp only [mem_ofPred_eq, mem_inter_iff, meets, diskArea]
    refine and_congr_right fun hy => ?_
    rw [sq ω hy]
    have : 0 < ω.y ^ 2 := by positivity
    constructor
    · intro h
      have : G ω / ω.y ^ 2 < 0 := by linarith
      rcases div_neg_iff.1 this with ⟨-, h⟩ | ⟨h, -⟩
      · linarith
      · exact h
    · intro h
      have := div_neg_of_neg_of_pos h this
      linarith
  have hS : IsOpen {ω | MeetsArea (diskArea D C) C.y p ω} := by
    rw [eS]
    exact (isOpen_lt continuous_const Vec.continuous_y).inter (isOpen_lt hG continuous_const)
  refine ⟨hS.measurableSet, ?_⟩
  let K : Set (ℝ × ℝ) := {q | (q.1 - C.x) ^ 2 + (q.2 - C.z) ^ 2 = (D / 2) ^ 2}
  have hK : MeasurableSet K := (isClosed_eq (by fun_prop) continuous_const).measurableSet
  have eK : {ω | MeetsArea K C.y p ω} = {ω | 0 < ω.y} ∩ {ω | G ω = 0} := by
    ext ω
    simp only [mem_ofPred_eq, mem_inter_iff, meets, K]
    refine and_congr_right fun hy => ?_
    rw [sq ω hy]
    have : ω.y ^ 2 ≠ 0 := by positivity
    constructor
    · intro h
      have : G ω / ω.y ^ 2 = 0 := by linarith
      exact (div_eq_zero_iff.1 this).resolve_right ‹_›
    · intro h
      rw [h]; simp
  have hcirc : NoArea {ω | MeetsArea K C.y p ω} := by
    refine noArea_of_chance ?_ fun n hn => ?_
    · rw [eK]
      exact (isOpen_lt continuous_const Vec.continuous_y).measurableSet.inter (isClosed_eq hG continuous_const).measurableSet
    · have := chance_meets hn hp hK
      rw [Measure.restrict_eq_zero.2 (circle_null _ _ _), lintegral_zero_measure, mul_zero] at this
      exact this
  have hflat : NoArea {ω : Vec ℝ | (⟨0, 1, 0⟩ : Vec ℝ).dot ω = 0} := noArea_plane (by simp [Vec.ext_iff]) 0
  refine (hflat.union hcirc).mono fun ω _ hω => ?_
  obtain ⟨k1, k2⟩ := frontier_off (U := {ω | MeetsArea (diskArea D C) C.y p ω}) (V := {ω : Vec ℝ | ω.y < 0} ∪ {ω | 0 < G ω}) hS
    (fun _ h => h) ((isOpen_lt Vec.continuous_y continuous_const).union (isOpen_lt continuous_const hG)) (by
      rw [eS]
      rintro ω (h1 | h1) ⟨h2, h3⟩
      · exact lt_asymm (show ω.y < 0 from h1) h2
      · exact lt_asymm (show 0 < G ω from h1) h3) hω
  rw [eS] at k1
  simp only [mem_union, mem_inter_iff, mem_ofPred_eq, not_or, not_and, not_lt] at k1 k2
  rcases k2.1.eq_or_lt with h | h
  · left
    show (⟨0, 1, 0⟩ : Vec ℝ).dot ω = 0
    simp [Vec.dot, ← h]
  · right
    rw [eK]
    exact ⟨h, le_antisymm k2.2 (k1 h)⟩

end BR
