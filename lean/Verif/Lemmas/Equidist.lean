import Verif.Lemmas.Residue
import Mathlib.MeasureTheory.Measure.Portmanteau
import Mathlib.MeasureTheory.Measure.Lebesgue.Basic
import Mathlib.MeasureTheory.Integral.Bochner.Set
import Mathlib.MeasureTheory.Constructions.Pi
import Mathlib.MeasureTheory.Function.Floor
import Mathlib.Topology.Algebra.Order.Floor

/-! Equidistribution of the points made of radical inverses in bases without common factors, also when moved modulo one:
means over the points tend to integrals. -/

namespace BR

open MeasureTheory Filter Topology Set

section general
variable {Ω Ω' : Type} [MeasurableSpace Ω] [MeasurableSpace Ω']

/-- The distribution of the first `N + 1` points of a sequence. -/
noncomputable def empirical (x : ℕ → Ω) (N : ℕ) : ProbabilityMeasure Ω :=
  ⟨((N + 1 : ℕ) : ENNReal)⁻¹ • ∑ n ∈ Finset.range (N + 1), Measure.dirac (x n), by
    constructor
    rw [Measure.smul_apply, Measure.finsetSum_apply]
    simp only [measure_univ, Finset.sum_const, Finset.card_range, smul_eq_mul, nsmul_eq_mul, mul_one]
    exact ENNReal.inv_mul_cancel (by simp) (ENNReal.natCast_ne_top _)⟩

theorem empirical_integral (x : ℕ → Ω) (N : ℕ) {f : Ω → ℝ} (hf : Measurable f) :
    ∫ ω, f ω ∂(empirical x N : Measure Ω) = (∑ n ∈ Finset.range (N + 1), f (x n)) / (N + 1 : ℕ) := by
  have hi : ∀ n ∈ Finset.range (N + 1), Integrable f (Measure.dirac (x n)) := fun n _ =>
    integrable_dirac' hf.stronglyMeasurable (by simp)
  have e : (empirical x N : Measure Ω) =
    ((N + 1 : ℕ) : ENNReal)⁻¹ • ∑ n ∈ Finset.range (N + 1), Measure.dirac (x n) := rfl
  rw [e, integral_smul_measure, integral_finsetSum_measure hi]
  simp only [integral_dirac' _ _ hf.stronglyMeasurable, ENNReal.toReal_inv, ENNReal.toReal_natCast, smul_eq_mul]
  rw [div_eq_inv_mul]

theorem empirical_apply (x : ℕ → Ω) (N : ℕ) (s : Set Ω) [DecidablePred fun n => x n ∈ s] (hs : MeasurableSet s) :
    ((empirical x N s : NNReal) : ℝ) = (Nat.count (fun n => x n ∈ s) (N + 1) : ℝ) / (N + 1 : ℕ) := by
  have h := empirical_integral x N (f := s.indicator fun _ => 1) (measurable_const.indicator hs)
  rw [integral_indicator_const _ hs, smul_eq_mul, mul_one] at h
  have e : ((empirical x N s : NNReal) : ℝ) = (empirical x N : Measure Ω).real s := rfl
  rw [e, h, Nat.count_eq_card_filter_range, Finset.card_filter]
  push_cast
  congr 1
  refine Finset.sum_congr rfl fun n _ => ?_
  by_cases hn : x n ∈ s <;> simp [hn]

/-- Weak convergence is kept by maps that are continuous almost everywhere. -/
theorem tendsto_map_ae [TopologicalSpace Ω] [OpensMeasurableSpace Ω] [HasOuterApproxClosed Ω] [TopologicalSpace Ω']
    [OpensMeasurableSpace Ω'] {μs : ℕ → ProbabilityMeasure Ω} {μ : ProbabilityMeasure Ω} (hμ : Tendsto μs atTop (𝓝 μ))
    {h : Ω → Ω'} (hh : Measurable h) (hc : ∀ᵐ ω ∂(μ : Measure Ω), ContinuousAt h ω) :
    Tendsto (fun N => (μs N).map hh.aemeasurable) atTop (𝓝 (μ.map hh.aemeasurable)) := by
  refine tendsto_of_forall_isOpen_le_liminf' fun G hG => ?_
  simp only [ProbabilityMeasure.toMeasure_map]
  rw [Measure.map_apply hh hG.measurableSet]
  have h1 : (μ : Measure Ω) (h ⁻¹' G) ≤ (μ : Measure Ω) (interior (h ⁻¹' G)) := by
    refine measure_mono_ae ?_
    filter_upwards [hc] with ω hω hG'
    exact mem_interior_iff_mem_nhds.2 (hω (hG.mem_nhds hG'))
  refine h1.trans ((ProbabilityMeasure.le_liminf_measure_open_of_tendsto hμ isOpen_interior).trans ?_)
  refine liminf_le_liminf (.of_forall fun N => ?_)
  rw [Measure.map_apply hh hG.measurableSet]
  exact measure_mono interior_subset

/-- Means of bounded functions that are continuous almost everywhere. -/
theorem tendsto_integral_ae [TopologicalSpace Ω] [OpensMeasurableSpace Ω] [HasOuterApproxClosed Ω]
    {μs : ℕ → ProbabilityMeasure Ω} {μ : ProbabilityMeasure Ω} (hμ : Tendsto μs atTop (𝓝 μ)) {f : Ω → ℝ}
    (hf : Measurable f) (hc : ∀ᵐ ω ∂(μ : Measure Ω), ContinuousAt f ω) (C : ℝ) (hC : ∀ ω, |f ω| ≤ C) :
    Tendsto (fun N => ∫ ω, f ω ∂(μs N : Measure Ω)) atTop (𝓝 (∫ ω, f ω ∂(μ : Measure Ω))) := by
  have hb : ∀ y : ℝ, ‖max (-|C|) (min |C| y)‖ ≤ |C| := by
    intro y
    have := abs_nonneg C
    rw [Real.norm_eq_abs]
    exact abs_le.2 ⟨le_max_left _ _, max_le (by linarith) (min_le_left _ _)⟩
  have h := ProbabilityMeasure.tendsto_iff_forall_integral_tendsto.1 (tendsto_map_ae hμ hf hc)
    (BoundedContinuousFunction.ofNormedAddCommGroup (fun y : ℝ => max (-|C|) (min |C| y)) (by fun_prop) |C| hb)
  have e : ∀ ν : ProbabilityMeasure Ω, ∫ y, max (-|C|) (min |C| y) ∂((ν.map hf.aemeasurable : ProbabilityMeasure ℝ) : Measure ℝ) =
      ∫ ω, f ω ∂(ν : Measure Ω) := by
    intro ν
    rw [ProbabilityMeasure.toMeasure_map, integral_map hf.aemeasurable (by fun_prop)]
    refine integral_congr_ae (.of_forall fun ω => ?_)
    have := abs_le.1 ((hC ω).trans (le_abs_self C))
    simp only
    rw [min_eq_right this.2, max_eq_right this.1]
  simp only [BoundedContinuousFunction.coe_ofNormedAddCommGroup, e] at h
  exact h

end general

section halton
variable {ι : Type} [Fintype ι]

/-- The points of the Halton sequence with the given bases. -/
noncomputable def haltonPoint (b : ι → ℕ) (n : ℕ) : ι → ℝ := fun i => radInv (b i) (n + 1)

/-- The uniform distribution on the unit interval. -/
noncomputable def unif : Measure ℝ := volume.restrict (Ico 0 1)

instance : IsProbabilityMeasure unif := ⟨by simp [unif]⟩

/-- The uniform distribution on the unit cube. -/
noncomputable def unifCube (ι : Type) [Fintype ι] : ProbabilityMeasure (ι → ℝ) :=
  ⟨Measure.pi fun _ => unif, inferInstance⟩

/-- The boxes whose corners are on the grid of the given bases, of step `1 / b i ^ k`. -/
def gridBox (b : ι → ℕ) (k : ℕ) (α β : ι → ℤ) : Set (ι → ℝ) :=
  univ.pi fun i => Ico ((α i : ℝ) / b i ^ k) ((β i : ℝ) / b i ^ k)

theorem measurableSet_gridBox (b : ι → ℕ) (k : ℕ) (α β : ι → ℤ) : MeasurableSet (gridBox b k α β) :=
  MeasurableSet.univ_pi fun _ => measurableSet_Ico

omit [Fintype ι] in
theorem gridBox_refine {b : ι → ℕ} (hb : ∀ i, 2 ≤ b i) (k l : ℕ) (α β : ι → ℤ) :
    gridBox b k α β = gridBox b (k + l) (fun i => α i * (b i) ^ l) fun i => β i * (b i) ^ l := by
  unfold gridBox
  congr! 3 with i
  all_goals
    have : (b i : ℝ) ≠ 0 := by have := hb i; positivity
    push_cast
    field_simp
    try ring

omit [Fintype ι] in
theorem isPiSystem_gridBox {b : ι → ℕ} (hb : ∀ i, 2 ≤ b i) :
    IsPiSystem {s | ∃ k α β, s = gridBox b k α β} := by
  rintro _ ⟨k, α, β, rfl⟩ _ ⟨l, α', β', rfl⟩ -
  refine ⟨k + l, fun i => max (α i * (b i) ^ l) (α' i * (b i) ^ k), fun i => min (β i * (b i) ^ l) (β' i * (b i) ^ k), ?_⟩
  rw [gridBox_refine hb k l, gridBox_refine hb l k, Nat.add_comm l k]
  unfold gridBox
  rw [← pi_inter_distrib]
  congr! 2 with i
  have hp : (0 : ℝ) < (b i : ℝ) ^ (k + l) := by have := hb i; positivity
  rw [Ico_inter_Ico, max_div_div_right hp.le, min_div_div_right hp.le]
  push_cast
  rfl

theorem gridBox_small {b : ι → ℕ} (hb : ∀ i, 2 ≤ b i) (u : Set (ι → ℝ)) (hu : IsOpen u) (x : ι → ℝ) (hx : x ∈ u) :
    ∃ s ∈ {s | ∃ k α β, s = gridBox b k α β}, s ∈ 𝓝 x ∧ s ⊆ u := by
  obtain ⟨ε, hε, hball⟩ := Metric.isOpen_iff.1 hu x hx
  obtain ⟨k, hk⟩ := pow_unbounded_of_one_lt (1 / ε) (by norm_num : (1 : ℝ) < 2)
  have hp : ∀ i, (0 : ℝ) < (b i : ℝ) ^ k := fun i => by have := hb i; positivity
  have hbk : ∀ i, 1 / ε < (b i : ℝ) ^ k := fun i =>
    hk.trans_le (pow_le_pow_left₀ (by norm_num) (by exact_mod_cast hb i) k)
  refine ⟨_, ⟨k, fun i => ⌈x i * b i ^ k⌉ - 1, fun i => ⌊x i * b i ^ k⌋ + 1, rfl⟩, ?_, ?_⟩
  · refine set_pi_mem_nhds finite_univ fun i _ => Ico_mem_nhds ?_ ?_
    · rw [div_lt_iff₀ (hp i)]
      push_cast
      linarith [Int.ceil_lt_add_one (x i * b i ^ k)]
    · rw [lt_div_iff₀ (hp i)]
      push_cast
      exact Int.lt_floor_add_one _
  · refine fun y hy => hball ?_
    rw [Metric.mem_ball, dist_pi_lt_iff hε]
    intro i
    obtain ⟨h1, h2⟩ := hy i (mem_univ i)
    rw [div_le_iff₀ (hp i)] at h1
    rw [lt_div_iff₀ (hp i)] at h2
    push_cast at h1 h2
    have h3 := Int.le_ceil (x i * b i ^ k)
    have h4 := Int.floor_le (x i * b i ^ k)
    have h5 := (div_lt_iff₀ hε).1 (hbk i)
    rw [Real.dist_eq, abs_lt]
    have h6 := hp i
    constructor <;> nlinarith

theorem unif_gridBox {b : ι → ℕ} (hb : ∀ i, 2 ≤ b i) (k : ℕ) (α β : ι → ℤ) :
    ((unifCube ι (gridBox b k α β) : NNReal) : ℝ) = ∏ i, ((residues (b i) k (α i) (β i)).card : ℝ) / ((b i ^ k : ℕ) : ℝ) := by
  have e : ((unifCube ι (gridBox b k α β) : NNReal) : ℝ) =
    (Measure.pi fun _ : ι => unif).real (gridBox b k α β) := rfl
  rw [e, Measure.real, gridBox, Measure.pi_pi, ENNReal.toReal_prod]
  refine Finset.prod_congr rfl fun i _ => ?_
  have hp : (0 : ℝ) < (b i : ℝ) ^ k := by have := hb i; positivity
  have h01 : Ico (0 : ℝ) 1 = Ico ((0 : ℝ) / b i ^ k) ((b i : ℝ) ^ k / b i ^ k) := by
    rw [zero_div, div_self hp.ne']
  rw [unif, Measure.restrict_apply measurableSet_Ico, h01, Ico_inter_Ico, max_div_div_right hp.le, min_div_div_right hp.le,
    Real.volume_Ico, ← sub_div, ENNReal.toReal_ofReal', eq_div_iff (by push_cast; exact hp.ne')]
  have hc := card_residues (hb i) k (α i) (β i)
  have hc' : ((residues (b i) k (α i) (β i)).card : ℝ) = max 0 (min (β i : ℝ) ((b i : ℝ) ^ k) - max (α i : ℝ) 0) := by
    exact_mod_cast congrArg (fun z : ℤ => (z : ℝ)) hc
  rw [hc', max_comm 0]
  push_cast
  rw [max_mul_of_nonneg _ _ hp.le, zero_mul, div_mul_cancel₀ _ hp.ne']

/-- The points tend to the uniform distribution. -/
theorem tendsto_halton {b : ι → ℕ} (hb : ∀ i, 2 ≤ b i) (hco : Pairwise fun i j => Nat.Coprime (b i) (b j)) :
    Tendsto (empirical (haltonPoint b)) atTop (𝓝 (unifCube ι)) := by
  classical
  refine (isPiSystem_gridBox hb).tendsto_probabilityMeasure_of_tendsto_of_mem ?_ (gridBox_small hb) ?_
  · rintro _ ⟨k, α, β, rfl⟩
    exact measurableSet_gridBox b k α β
  · rintro _ ⟨k, α, β, rfl⟩
    rw [← NNReal.tendsto_coe, unif_gridBox hb]
    have h := (tendsto_residues (fun i => b i ^ k) (fun i => by have := hb i; positivity)
      (fun i j hij => (hco hij).pow k k) (fun i => residues (b i) k (α i) (β i)) fun i => residues_lt).comp (tendsto_add_atTop_nat 1)
    refine h.congr fun N => ?_
    rw [empirical_apply _ _ _ (measurableSet_gridBox b k α β)]
    simp only [Function.comp_apply]
    congr! 3 with n
    simp only [mem_residues (hb _), gridBox, Set.mem_pi, mem_univ, true_implies, mem_Ico, haltonPoint]

/-- A point moved by `s`, modulo one. -/
noncomputable def shiftPoint (s : ι → ℝ) (x : ι → ℝ) : ι → ℝ := fun i => Int.fract (x i + s i)

theorem fract_preserving (s : ℝ) : MeasurePreserving (fun x => Int.fract (x + s)) unif unif := by
  have hm : Measurable fun x : ℝ => Int.fract (x + s) := measurable_fract.comp (measurable_add_const s)
  refine ⟨hm, ?_⟩
  ext E hE
  have h0 := Int.fract_nonneg s
  have h1 := Int.fract_lt_one s
  have hs : ∀ x : ℝ, Int.fract (x + s) = Int.fract (x + Int.fract s) := fun x => by
    have : x + s = x + Int.fract s + (⌊s⌋ : ℝ) := by have := Int.fract_add_floor s; linarith
    rw [this, Int.fract_add_intCast]
  have hset : (fun x => Int.fract (x + s)) ⁻¹' E ∩ Ico 0 1 =
      (fun x => x + Int.fract s) ⁻¹' (E ∩ Ico (Int.fract s) 1) ∪ (fun x => x + (Int.fract s - 1)) ⁻¹' (E ∩ Ico 0 (Int.fract s)) := by
    generalize hσ : Int.fract s = σ at *
    ext x
    simp only [mem_inter_iff, mem_preimage, mem_Ico, mem_union, hs]
    by_cases hx : x + σ < 1
    · constructor
      · rintro ⟨h2, h3, h4⟩
        rw [Int.fract_eq_self.2 ⟨by linarith, hx⟩] at h2
        exact .inl ⟨h2, by linarith, hx⟩
      · rintro (⟨h2, h3, h4⟩ | ⟨h2, h3, h4⟩)
        · rw [Int.fract_eq_self.2 ⟨by linarith, hx⟩]
          exact ⟨h2, by linarith, by linarith⟩
        · linarith
    · have e : x < 1 → Int.fract (x + σ) = x + (σ - 1) := fun hx1 => by
        rw [Int.fract_eq_iff]
        exact ⟨by linarith, by linarith, 1, by push_cast; ring⟩
      constructor
      · rintro ⟨h2, h3, h4⟩
        rw [e h4] at h2
        exact .inr ⟨h2, by linarith, by linarith⟩
      · rintro (⟨h2, h3, h4⟩ | ⟨h2, h3, h4⟩)
        · linarith
        · rw [e (by linarith)]
          exact ⟨h2, by linarith, by linarith⟩
  rw [Measure.map_apply hm hE, unif, Measure.restrict_apply (hm hE), Measure.restrict_apply hE, hset]
  rw [measure_union _ ((measurable_add_const _) (hE.inter measurableSet_Ico)), measure_preimage_add_right,
    measure_preimage_add_right, ← measure_union _ (hE.inter measurableSet_Ico), ← inter_union_distrib_left, union_comm,
    Ico_union_Ico_eq_Ico h0 h1.le]
  · refine (disjoint_left.2 fun x hx hx' => ?_)
    exact absurd hx'.2.2 (not_lt.2 hx.2.1)
  · refine disjoint_left.2 fun x hx hx' => ?_
    have h2 := hx.2.2
    have h3 := hx'.2.1
    simp only at h2 h3
    linarith

theorem shift_preserving (s : ι → ℝ) :
    MeasurePreserving (shiftPoint s) (Measure.pi fun _ => unif) (Measure.pi fun _ : ι => unif) :=
  measurePreserving_pi _ _ fun i => fract_preserving (s i)

theorem shift_continuous (s : ι → ℝ) :
    ∀ᵐ x ∂(Measure.pi fun _ : ι => unif), ContinuousAt (shiftPoint s) x := by
  have h : ∀ i : ι, ∀ᵐ x ∂(Measure.pi fun _ : ι => unif), Int.fract (x i + s i) ≠ 0 := by
    intro i
    have h1 : ∀ᵐ y ∂unif, y ≠ 0 := by
      refine (measure_eq_zero_iff_ae_notMem (s := {0})).1 ?_
      exact le_antisymm ((Measure.restrict_apply_le _ _).trans (by simp)) (zero_le)
    exact (((measurePreserving_eval (fun _ : ι => unif) i).quasiMeasurePreserving).ae
      ((fract_preserving (s i)).quasiMeasurePreserving.ae h1))
  filter_upwards [ae_all_iff.2 h] with x hx
  refine continuousAt_pi.2 fun i => ?_
  have h2 : ContinuousAt (fun x : ι → ℝ => x i + s i) x :=
    ((continuous_apply i).add continuous_const).continuousAt
  have h3 : ContinuousAt (Int.fract : ℝ → ℝ) (x i + s i) := by
    refine continuousAt_fract fun e => hx i ?_
    exact Int.fract_eq_zero_iff.2 ⟨_, e.symm⟩
  exact ContinuousAt.comp (f := fun x : ι → ℝ => x i + s i) h3 h2

/-- Means over the moved points tend to integrals. -/
theorem tendsto_mean {b : ι → ℕ} (hb : ∀ i, 2 ≤ b i) (hco : Pairwise fun i j => Nat.Coprime (b i) (b j)) (s : ι → ℝ)
    (f : (ι → ℝ) → ℝ) (hf : Measurable f) (C : ℝ) (hC : ∀ x, (∀ i, x i ∈ Ico (0 : ℝ) 1) → |f x| ≤ C)
    (hc : ∀ᵐ x ∂(Measure.pi fun _ : ι => unif), ContinuousAt f x) :
    Tendsto (fun N : ℕ => (∑ n ∈ Finset.range N, f (shiftPoint s (haltonPoint b n))) / N) atTop
      (𝓝 (∫ x, f x ∂(Measure.pi fun _ : ι => unif))) := by
  have hg : Measurable (fun x => f (shiftPoint s x)) := hf.comp (shift_preserving s).measurable
  have h := tendsto_integral_ae (tendsto_halton hb hco) hg ?_ C ?_
  · have e : ∫ x, f (shiftPoint s x) ∂(unifCube ι : Measure (ι → ℝ)) = ∫ x, f x ∂(Measure.pi fun _ : ι => unif) := by
      rw [← (shift_preserving s).map_eq, integral_map (shift_preserving s).measurable.aemeasurable hf.aestronglyMeasurable]
      rfl
    rw [e] at h
    simp only [empirical_integral _ _ hg] at h
    exact (tendsto_add_atTop_iff_nat 1).1 h
  · have h1 := (shift_preserving s).quasiMeasurePreserving.ae hc
    change ∀ᵐ x ∂(Measure.pi fun _ : ι => unif), _
    filter_upwards [h1, shift_continuous s] with x hx1 hx2
    exact ContinuousAt.comp (f := shiftPoint s) hx1 hx2
  · intro x
    exact hC _ fun i => ⟨Int.fract_nonneg _, Int.fract_lt_one _⟩

end halton

end BR
