import Verif.Props.C77_Shine
import Verif.Lemmas.Passes

/-! The light of a lamp depends on the random pair in a tame way. -/

namespace BR

open MeasureTheory Filter Topology Set

theorem continuousAt_indicator_off {X : Type} [TopologicalSpace X] {s : Set X} {f : X → ℝ} {x : X} (hx : x ∉ frontier s)
    (hf : ContinuousAt f x) : ContinuousAt (s.indicator f) x := by
  by_cases h : x ∈ s
  · have h1 : s ∈ 𝓝 x := by
      by_contra hc
      exact hx ⟨subset_closure h, fun hi => hc (mem_interior_iff_mem_nhds.1 hi)⟩
    exact hf.congr (eventually_of_mem h1 fun y hy => (indicator_of_mem hy f).symm)
  · have h1 : sᶜ ∈ 𝓝 x := by
      by_contra hc
      refine hx ⟨?_, fun hi => h (interior_subset hi)⟩
      rw [mem_closure_iff_nhds]
      intro t ht
      by_contra he
      rw [not_nonempty_iff_eq_empty] at he
      exact hc (mem_of_superset ht fun y hy hs => by have : y ∈ t ∩ s := ⟨hy, hs⟩; rw [he] at this; exact this)
    exact (continuousAt_const (y := (0 : ℝ))).congr (eventually_of_mem h1 fun y hy => (indicator_of_notMem hy f).symm)

/-- A property whose border has no measure is tame. -/
theorem tame_indicator {E : Set (ℝ × ℝ)} (hE : MeasurableSet E) (h0 : volume (unitSq ∩ frontier E) = 0) :
    Tame unitSq (E.indicator fun _ => 1) := by
  refine ⟨measurable_const.indicator hE, ⟨1, fun p _ => ?_⟩, ?_⟩
  · by_cases hp : p ∈ E <;> simp [hp]
  · have : ∀ᵐ p ∂(volume.restrict unitSq), p ∉ frontier E := by
      rw [← measure_eq_zero_iff_ae_notMem, Measure.restrict_apply isClosed_frontier.measurableSet, inter_comm]
      exact h0
    filter_upwards [this] with p hp
    exact continuousAt_indicator_off hp continuousAt_const

variable {T n : Vec ℝ} {y : ℝ}

theorem continuous_share (area : ℝ) (hT : T.y < y) : Continuous (sampleShare area T n y) := by
  unfold sampleShare
  refine continuous_const.mul (continuous_const.mul (continuous_const.max ?_))
  refine Continuous.div ?_ ?_ fun q => (pow_pos (dist2_pos hT q) 2).ne'
  · simp only [toward, Vec.dot]; fun_prop
  · unfold dist2; fun_prop

theorem share_le {area : ℝ} (ha : 0 < area) (hT : T.y < y) (hn : n.len2 = 1) (q : ℝ × ℝ) :
    sampleShare area T n y q ≤ area * (1 / Real.pi * (1 / (y - T.y) ^ 2)) := by
  have hpi := Real.pi_pos
  have hD := dist2_pos hT q
  have hH : 0 < y - T.y := by linarith
  have hDH : (y - T.y) ^ 2 ≤ dist2 T y q := by unfold dist2; nlinarith [sq_nonneg (q.1 - T.x), sq_nonneg (q.2 - T.z)]
  have hm : (toward T y q).dot n ^ 2 ≤ dist2 T y q := by
    have h1 : n.x ^ 2 + n.y ^ 2 + n.z ^ 2 = 1 := by rw [← hn]; simp only [Vec.len2]; ring
    simp only [toward, Vec.dot, dist2]
    nlinarith [sq_nonneg ((q.1 - T.x) * n.y - (y - T.y) * n.x), sq_nonneg ((q.1 - T.x) * n.z - (q.2 - T.z) * n.x),
      sq_nonneg ((y - T.y) * n.z - (q.2 - T.z) * n.y)]
  unfold sampleShare
  refine mul_le_mul_of_nonneg_left (mul_le_mul_of_nonneg_left (max_le (by positivity) ?_) (by positivity)) ha.le
  rw [div_le_div_iff₀ (by positivity) (by positivity)]
  generalize (toward T y q).dot n = m at *
  generalize dist2 T y q = D at *
  generalize y - T.y = H at *
  have h1 : H * m ≤ D := by nlinarith [sq_nonneg (H - m)]
  nlinarith [mul_le_mul_of_nonneg_right h1 (sq_nonneg H), mul_le_mul_of_nonneg_left hDH hD.le]

theorem tame_share {area : ℝ} (ha : 0 < area) (hn : n.len2 = 1) (hT : T.y < y) (A : Set (ℝ × ℝ))
    (V : Set (ℝ × ℝ)) (hV : MeasurableSet V) (pos : ℝ × ℝ → ℝ × ℝ) (hp : Continuous pos)
    (hpos : ∀ g : ℝ × ℝ → ENNReal, ∫⁻ p in unitSq, g (pos p) = (ENNReal.ofReal area)⁻¹ * ∫⁻ q in A, g q)
    (h0 : volume (A ∩ frontier V) = 0) :
    Tame unitSq fun uv => V.indicator (sampleShare area T n y) (pos uv) := by
  refine ⟨((continuous_share area hT).measurable.indicator hV).comp hp.measurable,
    ⟨area * (1 / Real.pi * (1 / (y - T.y) ^ 2)), fun uv _ => ?_⟩, ?_⟩
  · rw [abs_of_nonneg (indicator_nonneg (fun q _ => share_nonneg ha q) _)]
    exact (indicator_le_self' (fun q _ => share_nonneg ha q) _).trans (share_le ha hT hn _)
  · have hF : MeasurableSet (frontier V) := isClosed_frontier.measurableSet
    have h1 := hpos ((frontier V).indicator 1)
    rw [lintegral_indicator_one hF, Measure.restrict_apply hF, inter_comm, h0, mul_zero] at h1
    have hm : Measurable fun uv => (frontier V).indicator (1 : ℝ × ℝ → ENNReal) (pos uv) :=
      (measurable_one.indicator hF).comp hp.measurable
    filter_upwards [(lintegral_eq_zero_iff hm).1 h1] with uv huv
    have huv' : pos uv ∉ frontier V := by
      intro hc
      simp [hc] at huv
    exact ContinuousAt.comp (f := pos) (continuousAt_indicator_off huv' (continuous_share area hT).continuousAt) hp.continuousAt

end BR
