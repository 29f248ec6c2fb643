import Verif.Spec.SkyLight
import Verif.Props.C78_Converge
import Verif.Props.C46_Sampling
import Mathlib.MeasureTheory.Measure.Prod
import Mathlib.MeasureTheory.Integral.Prod

/-! Light from all sides: topology of directions, sets of no solid angle, and means over the hemisphere. -/

namespace BR

open MeasureTheory Filter Topology Set

/-! ### Vectors as a space -/

theorem continuous_coords : Continuous Vec.coords := continuous_induced_dom

theorem Vec.continuous_x : Continuous (Vec.x : Vec ℝ → ℝ) := continuous_fst.comp continuous_coords
theorem Vec.continuous_y : Continuous (Vec.y : Vec ℝ → ℝ) := (continuous_fst.comp continuous_snd).comp continuous_coords
theorem Vec.continuous_z : Continuous (Vec.z : Vec ℝ → ℝ) := (continuous_snd.comp continuous_snd).comp continuous_coords

instance : BorelSpace (Vec ℝ) := ⟨by
  show MeasurableSpace.comap Vec.coords _ = @borel _ (TopologicalSpace.induced Vec.coords _)
  rw [borel_comap, BorelSpace.measurable_eq (α := ℝ × ℝ × ℝ)]⟩

theorem continuous_vec {X : Type} [TopologicalSpace X] {g : X → Vec ℝ} (hx : Continuous fun p => (g p).x)
    (hy : Continuous fun p => (g p).y) (hz : Continuous fun p => (g p).z) : Continuous g :=
  continuous_induced_rng.2 (hx.prodMk (hy.prodMk hz))

theorem continuous_dot (c : Vec ℝ) : Continuous fun ω : Vec ℝ => c.dot ω := by
  simp only [Vec.dot]
  exact ((continuous_const.mul Vec.continuous_x).add (continuous_const.mul Vec.continuous_y)).add
    (continuous_const.mul Vec.continuous_z)

theorem continuous_dot_self : Continuous fun ω : Vec ℝ => ω.dot ω := by
  simp only [Vec.dot]
  exact ((Vec.continuous_x.mul Vec.continuous_x).add (Vec.continuous_y.mul Vec.continuous_y)).add
    (Vec.continuous_z.mul Vec.continuous_z)

theorem continuous_lift (a b n : Vec ℝ) : Continuous (lift a b n) := by
  refine continuous_vec ?_ ?_ ?_ <;> · simp only [lift, geo]; fun_prop

theorem continuous_direction (a b n : Vec ℝ) : Continuous fun t : ℝ × ℝ => direction a b n t.1 t.2 := by
  refine continuous_vec ?_ ?_ ?_ <;> · simp only [direction, geo]; fun_prop

theorem continuous_cosineSphere {n : Vec ℝ} (hn : n.dot n = 1) : Continuous fun p : ℝ × ℝ => cosineSphere p.1 p.2 n := by
  obtain ⟨a, b, -, h⟩ := cosineSphere_lift n hn
  simp only [h]
  have : (fun p : ℝ × ℝ => lift a b n (uniformDisk p.1 p.2)) = fun p =>
      lift a b n (Real.sqrt p.2 * Real.cos (2 * Real.pi * p.1), Real.sqrt p.2 * Real.sin (2 * Real.pi * p.1)) :=
    funext fun p => congrArg _ (diskMap_eq p)
  rw [this]
  exact (continuous_lift a b n).comp (by fun_prop)

theorem cosineSphere_unit {n : Vec ℝ} (hn : n.dot n = 1) {p : ℝ × ℝ} (hp : p ∈ unitSq) :
    (cosineSphere p.1 p.2 n).dot (cosineSphere p.1 p.2 n) = 1 := by
  have h1 : Real.sqrt ((cosineSphere p.1 p.2 n).dot (cosineSphere p.1 p.2 n)) = 1 :=
    (C46_hemisphere p.1 p.2 hp.2.1 hp.2.2.le n hn).1
  rwa [Real.sqrt_eq_one] at h1

theorem direction_unit {a b n : Vec ℝ} (hF : IsFrame a b n) (θ φ : ℝ) :
    (direction a b n θ φ).dot (direction a b n θ φ) = 1 := by
  unfold direction
  rw [hF.dot_comb]
  linear_combination Real.sin θ ^ 2 * Real.sin_sq_add_cos_sq φ + Real.sin_sq_add_cos_sq θ

/-! ### Sets of no solid angle -/

theorem measurableSet_hemisphere : MeasurableSet hemisphere := measurableSet_Ioo.prod measurableSet_Ioo

theorem NoArea.mono {Z Z' : Set (Vec ℝ)} (h : NoArea Z') (hs : ∀ ω : Vec ℝ, ω.dot ω = 1 → ω ∈ Z → ω ∈ Z') : NoArea Z := by
  intro a b n hF
  exact measure_mono_null (fun t (ht : t ∈ hemisphere ∧ _) => (⟨ht.1, hs _ (direction_unit hF _ _) ht.2⟩ : t ∈ hemisphere ∧ _)) (h a b n hF)

theorem NoArea.union {Z Z' : Set (Vec ℝ)} (h : NoArea Z) (h' : NoArea Z') : NoArea (Z ∪ Z') := by
  intro a b n hF
  refine measure_mono_null ?_ (measure_union_null (h a b n hF) (h' a b n hF))
  rintro t ⟨h1, h2 | h2⟩
  · exact .inl ⟨h1, h2⟩
  · exact .inr ⟨h1, h2⟩

theorem noArea_empty : NoArea ∅ := by
  intro a b n _
  simp

private theorem weighted (a b n : Vec ℝ) (hF : IsFrame a b n) (Z : Set (Vec ℝ)) :
    ∫⁻ p in unitSq, Z.indicator 1 (cosineSphere p.1 p.2 n) = ∫⁻ t in hemisphere,
      ENNReal.ofReal (Real.cos t.1 / Real.pi) * ENNReal.ofReal (Real.sin t.1) * Z.indicator 1 (direction a b n t.1 t.2) :=
  C76_hemisphere a b n hF (Z.indicator 1)

theorem chance_of_noArea {Z : Set (Vec ℝ)} (hm : MeasurableSet Z) (h : NoArea Z) {n : Vec ℝ} (hn : n.dot n = 1) :
    ∀ᵐ p ∂(volume.restrict unitSq), cosineSphere p.1 p.2 n ∉ Z := by
  obtain ⟨a, b, hF, -⟩ := cosineSphere_lift n hn
  have e := weighted a b n hF Z
  have h0 : ∀ᵐ t ∂(volume.restrict hemisphere), direction a b n t.1 t.2 ∉ Z := by
    rw [ae_restrict_iff' measurableSet_hemisphere, ae_iff]
    refine measure_mono_null ?_ (h a b n hF)
    intro t ht
    simp only [mem_ofPred_eq, not_forall, not_not] at ht
    exact ⟨ht.1, ht.2⟩
  have ez : ∫⁻ t in hemisphere, ENNReal.ofReal (Real.cos t.1 / Real.pi) * ENNReal.ofReal (Real.sin t.1) *
      Z.indicator 1 (direction a b n t.1 t.2) = 0 := by
    rw [lintegral_congr_ae (g := fun _ => 0), lintegral_zero]
    filter_upwards [h0] with t ht
    rw [indicator_of_notMem ht, mul_zero]
  rw [ez] at e
  have hM : Measurable fun p : ℝ × ℝ => Z.indicator (1 : Vec ℝ → ENNReal) (cosineSphere p.1 p.2 n) :=
    (measurable_one.indicator hm).comp (continuous_cosineSphere hn).measurable
  rw [lintegral_eq_zero_iff hM] at e
  filter_upwards [e] with p hp hz
  rw [indicator_of_mem hz] at hp
  simp at hp

theorem noArea_of_disk {Z : Set (Vec ℝ)} (hm : MeasurableSet Z)
    (h : ∀ n : Vec ℝ, n.dot n = 1 → ∃ a b, IsFrame a b n ∧ volume {q ∈ unitDisk | lift a b n q ∈ Z} = 0) : NoArea Z := by
  intro a b n hF
  obtain ⟨a', b', hF', h0⟩ := h n hF.nn
  have e := weighted a b n hF Z
  rw [lintegral_cosineSphere hF' (Z.indicator 1)] at e
  have h1 : ∫⁻ q in unitDisk, Z.indicator (1 : Vec ℝ → ENNReal) (lift a' b' n q) = 0 := by
    rw [lintegral_congr_ae (g := fun _ => 0), lintegral_zero]
    have : ∀ᵐ q ∂(volume.restrict unitDisk), lift a' b' n q ∉ Z := by
      rw [ae_restrict_iff' measurableSet_unitDisk, ae_iff]
      refine measure_mono_null ?_ h0
      intro t ht
      simp only [mem_ofPred_eq, not_forall, not_not] at ht
      exact ⟨ht.1, ht.2⟩
    filter_upwards [this] with q hq
    rw [indicator_of_notMem hq]
  rw [h1, mul_zero] at e
  have hM : Measurable fun t : ℝ × ℝ => ENNReal.ofReal (Real.cos t.1 / Real.pi) * ENNReal.ofReal (Real.sin t.1) *
      Z.indicator (1 : Vec ℝ → ENNReal) (direction a b n t.1 t.2) := by
    have hd : Measurable fun t : ℝ × ℝ => Z.indicator (1 : Vec ℝ → ENNReal) (direction a b n t.1 t.2) :=
      (measurable_one.indicator hm).comp (continuous_direction a b n).measurable
    refine Measurable.mul ?_ hd
    refine Measurable.mul (f := fun t : ℝ × ℝ => ENNReal.ofReal (Real.cos t.1 / Real.pi))
      (g := fun t : ℝ × ℝ => ENNReal.ofReal (Real.sin t.1)) ?_ ?_
    · exact ENNReal.measurable_ofReal.comp (by fun_prop)
    · exact ENNReal.measurable_ofReal.comp (by fun_prop)
  have e' := (lintegral_eq_zero_iff hM).1 e.symm
  rw [Filter.EventuallyEq, ae_restrict_iff' measurableSet_hemisphere, ae_iff] at e'
  refine measure_mono_null ?_ e'
  rintro t ⟨ht, hz⟩
  simp only [mem_ofPred_eq, Classical.not_imp]
  refine ⟨ht, ?_⟩
  have hp := Real.pi_pos
  have hc : 0 < Real.cos t.1 := Real.cos_pos_of_mem_Ioo ⟨by linarith [ht.1.1], ht.1.2⟩
  have hs : 0 < Real.sin t.1 := Real.sin_pos_of_pos_of_lt_pi ht.1.1 (by linarith [ht.1.2])
  rw [indicator_of_mem hz]
  have h2 : 0 < Real.cos t.1 / Real.pi := by positivity
  simp [h2, hs, not_le]

private theorem quadratic_finite {a b c : ℝ} (ha : a ≠ 0) : {x : ℝ | a * x ^ 2 + b * x + c = 0}.Finite := by
  refine Set.Finite.subset (Set.toFinite {(-b + Real.sqrt (b ^ 2 - 4 * a * c)) / (2 * a),
    (-b - Real.sqrt (b ^ 2 - 4 * a * c)) / (2 * a)}) ?_
  intro x hx
  have hx : a * x ^ 2 + b * x + c = 0 := hx
  have e : b ^ 2 - 4 * a * c = (2 * a * x + b) ^ 2 := by linear_combination (-4 * a) * hx
  rw [e, Real.sqrt_sq_eq_abs]
  rcases abs_cases (2 * a * x + b) with ⟨h, -⟩ | ⟨h, -⟩
  · left; rw [h]; field_simp; ring
  · right; simp only [mem_singleton_iff]; rw [h]; field_simp; ring

/-- Directions at a given angle to a line make up no solid angle. -/
theorem noArea_plane {c : Vec ℝ} (hc : c ≠ ⟨0, 0, 0⟩) (K : ℝ) : NoArea {ω | c.dot ω = K} := by
  have hmZ : MeasurableSet {ω : Vec ℝ | c.dot ω = K} := (isClosed_eq (continuous_dot c) continuous_const).measurableSet
  refine noArea_of_disk hmZ fun n hn => ?_
  obtain ⟨a, b, hF, -⟩ := cosineSphere_lift n hn
  refine ⟨a, b, hF, ?_⟩
  have hcomp := hF.complete c
  have hdot : ∀ q : ℝ × ℝ, c.dot (lift a b n q) =
      c.dot a * q.1 + c.dot b * q.2 + c.dot n * Real.sqrt (1 - (q.1 ^ 2 + q.2 ^ 2)) := by
    intro q; simp only [lift, geo]; ring
  have hmeas : MeasurableSet {q ∈ unitDisk | lift a b n q ∈ {ω | c.dot ω = K}} :=
    measurableSet_unitDisk.inter (hmZ.preimage (continuous_lift a b n).measurable)
  rw [Measure.volume_eq_prod, Measure.measure_prod_null hmeas]
  by_cases hbn : c.dot b = 0 ∧ c.dot n = 0
  · have ha : c.dot a ≠ 0 := by
      intro ha
      rw [ha, hbn.1, hbn.2] at hcomp
      refine hc (hcomp.trans ?_)
      simp only [geo]; simp
    have : ∀ᵐ x : ℝ, x ≠ K / c.dot a := by
      rw [ae_iff]; simp
    filter_upwards [this] with x hx
    refine measure_mono_null (t := ∅) ?_ measure_empty
    rintro y ⟨-, hy⟩
    have hy : c.dot (lift a b n (x, y)) = K := hy
    rw [hdot, hbn.1, hbn.2] at hy
    refine (hx ?_).elim
    field_simp
    simpa [mul_comm] using hy
  · have hlead : c.dot b ^ 2 + c.dot n ^ 2 ≠ 0 := by
      intro h
      refine hbn ⟨?_, ?_⟩ <;> nlinarith [sq_nonneg (c.dot b), sq_nonneg (c.dot n)]
    refine Eventually.of_forall fun x => ?_
    refine Set.Finite.measure_zero (Set.Finite.subset (quadratic_finite (b := 2 * c.dot b * (c.dot a * x - K))
      (c := (c.dot a * x - K) ^ 2 - c.dot n ^ 2 * (1 - x ^ 2)) hlead) ?_) _
    rintro y ⟨hd, hy⟩
    have hd : x ^ 2 + y ^ 2 < 1 := hd
    have hy : c.dot (lift a b n (x, y)) = K := hy
    rw [hdot] at hy
    have hs := Real.sq_sqrt (show 0 ≤ 1 - (x ^ 2 + y ^ 2) by linarith)
    simp only [mem_ofPred_eq] at hy ⊢
    generalize Real.sqrt (1 - (x ^ 2 + y ^ 2)) = s at hy hs
    have e : c.dot n * s = -(c.dot a * x + c.dot b * y - K) := by linarith
    have e2 : (c.dot n * s) ^ 2 = (c.dot a * x + c.dot b * y - K) ^ 2 := by rw [e]; ring
    linear_combination -e2 + c.dot n ^ 2 * hs

/-! ### Means -/

theorem MildLight.tame {f : Vec ℝ → ℝ} (h : MildLight f) {n : Vec ℝ} (hn : n.dot n = 1) :
    Tame unitSq fun p => f (cosineSphere p.1 p.2 n) := by
  obtain ⟨K, hK⟩ := h.bounded
  obtain ⟨Z, hZ, h0, hc⟩ := h.edges
  refine ⟨h.measurable.comp (continuous_cosineSphere hn).measurable, ⟨K, fun p hp => hK _ (cosineSphere_unit hn hp)⟩, ?_⟩
  filter_upwards [chance_of_noArea hZ h0 hn] with p hp
  exact ContinuousAt.comp (f := fun p : ℝ × ℝ => cosineSphere p.1 p.2 n) (hc _ hp) (continuous_cosineSphere hn).continuousAt

private theorem hemisphere_finite : IsFiniteMeasure (volume.restrict hemisphere) := by
  refine ⟨?_⟩
  rw [Measure.restrict_apply MeasurableSet.univ, univ_inter, hemisphere, Measure.volume_eq_prod, Measure.prod_prod]
  simp [ENNReal.mul_lt_top]

theorem MildLight.mean {f : Vec ℝ → ℝ} (h : MildLight f) {a b n : Vec ℝ} (hF : IsFrame a b n) :
    ∫ p in unitSq, f (cosineSphere p.1 p.2 n) = cosineMean a b n f := by
  have hp := Real.pi_pos
  obtain ⟨K, hK⟩ := h.bounded
  have i1 : Integrable (fun p : ℝ × ℝ => f (cosineSphere p.1 p.2 n)) (volume.restrict unitSq) := (h.tame hF.nn).integrable
  have i2 : Integrable (fun t : ℝ × ℝ => Real.cos t.1 / Real.pi * Real.sin t.1 * f (direction a b n t.1 t.2))
      (volume.restrict hemisphere) := by
    have := hemisphere_finite
    have hK0 : 0 ≤ K := (abs_nonneg _).trans (hK _ (direction_unit hF 0 0))
    refine Integrable.of_bound (C := 1 / Real.pi * 1 * K) (Measurable.aestronglyMeasurable ?_) (Eventually.of_forall fun t => ?_)
    · exact Measurable.mul (by fun_prop) (h.measurable.comp (continuous_direction a b n).measurable)
    · rw [Real.norm_eq_abs, abs_mul, abs_mul, abs_div, abs_of_pos hp]
      have h1 := Real.abs_cos_le_one t.1
      have h2 := Real.abs_sin_le_one t.1
      have h3 := hK _ (direction_unit hF t.1 t.2)
      gcongr
  have sgn : ∀ g : Vec ℝ → ℝ, ∫⁻ p in unitSq, ENNReal.ofReal (g (cosineSphere p.1 p.2 n)) =
      ∫⁻ t in hemisphere, ENNReal.ofReal (Real.cos t.1 / Real.pi * Real.sin t.1 * g (direction a b n t.1 t.2)) := by
    intro g
    refine (C76_hemisphere a b n hF fun ω => ENNReal.ofReal (g ω)).trans ?_
    refine setLIntegral_congr_fun measurableSet_hemisphere fun t ht => ?_
    have hc : 0 < Real.cos t.1 := Real.cos_pos_of_mem_Ioo ⟨by linarith [ht.1.1], ht.1.2⟩
    have hs : 0 < Real.sin t.1 := Real.sin_pos_of_pos_of_lt_pi ht.1.1 (by linarith [ht.1.2])
    rw [← ENNReal.ofReal_mul (by positivity), ← ENNReal.ofReal_mul (by positivity)]
  rw [cosineMean, integral_eq_lintegral_pos_part_sub_lintegral_neg_part i1,
    integral_eq_lintegral_pos_part_sub_lintegral_neg_part i2, sgn f]
  have := sgn fun ω => -f ω
  simp only [mul_neg] at this
  rw [this]

instance : IsProbabilityMeasure (volume.restrict unitSq) := by
  rw [← unif_prod]; infer_instance

theorem first_preserving : MeasurePreserving (Prod.fst : (ℝ × ℝ) × (ℝ × ℝ) → ℝ × ℝ) (volume.restrict (unitSq ×ˢ unitSq))
    (volume.restrict unitSq) := by
  have e : (volume.restrict unitSq).prod (volume.restrict unitSq) = volume.restrict (unitSq ×ˢ unitSq) := by
    rw [Measure.prod_restrict]; rfl
  rw [← e]
  exact measurePreserving_fst

/-- A quantity that depends on the first pair only. -/
theorem Tame.first {g : ℝ × ℝ → ℝ} (h : Tame unitSq g) : Tame (unitSq ×ˢ unitSq) fun p => g p.1 := by
  obtain ⟨C, hC⟩ := h.bounded
  refine ⟨h.measurable.comp measurable_fst, ⟨C, fun p hp => hC _ hp.1⟩, ?_⟩
  filter_upwards [first_preserving.quasiMeasurePreserving.ae h.continuous] with p hp
  exact ContinuousAt.comp (f := Prod.fst) hp continuousAt_fst

theorem integral_first {g : ℝ × ℝ → ℝ} (h : Measurable g) :
    ∫ p in unitSq ×ˢ unitSq, g p.1 = ∫ p in unitSq, g p := by
  rw [← first_preserving.map_eq, integral_map measurable_fst.aemeasurable h.aestronglyMeasurable]

end BR
