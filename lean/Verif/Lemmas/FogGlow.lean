import Verif.Lemmas.TameShare
import Mathlib.MeasureTheory.Function.JacobianOneDim
import Mathlib.Analysis.SpecialFunctions.ExpDeriv

/-! The distances drawn by the fog, as a change of variables. -/

namespace BR

open MeasureTheory Filter Topology Set

/-- The part of the light that a fog of density `D` scatters on a length `L`. -/
noncomputable def fogPart (D L : ℝ) : ℝ := 1 - Real.exp (-D * L)

/-- The distance drawn for the random number `u`. -/
noncomputable def fogTau (D L u : ℝ) : ℝ := -1 / D * Real.log (1 - u * fogPart D L)

/-- The random number for which the distance `t` is drawn. -/
noncomputable def fogPhi (D L t : ℝ) : ℝ := fogPart D t / fogPart D L

variable {D L : ℝ}

theorem fogPart_pos (hD : 0 < D) (hL : 0 < L) : 0 < fogPart D L := by
  have : Real.exp (-D * L) < 1 := by rw [Real.exp_lt_one_iff]; nlinarith
  unfold fogPart; linarith

theorem fogPart_lt : fogPart D L < 1 := by
  have := Real.exp_pos (-D * L)
  unfold fogPart; linarith

theorem randExp_real (u : ℝ) : randExpInterval u D L = (fogTau D L u, fogPart D L) := by
  simp only [randExpInterval, fogTau, fogPart, lit_real, exp_real, log_real]
  push_cast
  rw [div_div_eq_mul_div, div_one, one_div_one_div]

theorem fogTau_phi (hD : 0 < D) (hL : 0 < L) (t : ℝ) : fogTau D L (fogPhi D L t) = t := by
  have h := fogPart_pos hD hL
  rw [fogTau, fogPhi, div_mul_cancel₀ _ h.ne', fogPart, sub_sub_cancel, Real.log_exp]
  field_simp

theorem fogPhi_tau (hD : 0 < D) (hL : 0 < L) {u : ℝ} (hu : u < 1) : fogPhi D L (fogTau D L u) = u := by
  have h := fogPart_pos hD hL
  have h1 := fogPart_lt (D := D) (L := L)
  have hp : 0 < 1 - u * fogPart D L := by nlinarith
  rw [fogPhi, div_eq_iff h.ne', fogPart, fogTau]
  have e : -D * (-1 / D * Real.log (1 - u * fogPart D L)) = Real.log (1 - u * fogPart D L) := by field_simp
  rw [e, Real.exp_log hp, sub_sub_cancel]

theorem fogPhi_mem (hD : 0 < D) (hL : 0 < L) {t : ℝ} (ht : t ∈ Ico 0 L) : fogPhi D L t ∈ Ico (0 : ℝ) 1 := by
  have h := fogPart_pos hD hL
  constructor
  · refine div_nonneg ?_ h.le
    have : Real.exp (-D * t) ≤ 1 := by rw [Real.exp_le_one_iff]; nlinarith [ht.1]
    unfold fogPart; linarith
  · rw [fogPhi, div_lt_one h]
    have : Real.exp (-D * L) < Real.exp (-D * t) := by rw [Real.exp_lt_exp]; nlinarith [ht.2]
    unfold fogPart; linarith

theorem fogTau_mem (hD : 0 < D) (hL : 0 < L) {u : ℝ} (hu : u ∈ Ico (0 : ℝ) 1) : fogTau D L u ∈ Ico 0 L := by
  have h := fogPart_pos hD hL
  have h1 := fogPart_lt (D := D) (L := L)
  have hp : 0 < 1 - u * fogPart D L := by nlinarith [hu.1, hu.2]
  have e : fogTau D L u = -Real.log (1 - u * fogPart D L) / D := by unfold fogTau; ring
  constructor
  · rw [e]
    refine div_nonneg (neg_nonneg.2 (Real.log_nonpos hp.le ?_)) hD.le
    nlinarith [hu.1]
  · rw [e, div_lt_iff₀ hD, neg_lt, Real.lt_log_iff_exp_lt hp]
    have : Real.exp (-(L * D)) = 1 - fogPart D L := by unfold fogPart; rw [sub_sub_cancel]; ring_nf
    rw [this]
    nlinarith [hu.2]

theorem image_fogPhi (hD : 0 < D) (hL : 0 < L) : fogPhi D L '' Ico 0 L = Ico 0 1 := by
  ext u
  constructor
  · rintro ⟨t, ht, rfl⟩; exact fogPhi_mem hD hL ht
  · intro hu; exact ⟨_, fogTau_mem hD hL hu, fogPhi_tau hD hL hu.2⟩

theorem hasDerivAt_fogPhi (t : ℝ) : HasDerivAt (fogPhi D L) (D * Real.exp (-D * t) / fogPart D L) t := by
  have h1 : HasDerivAt (fun t : ℝ => -D * t) (-D) t := by simpa using (hasDerivAt_id t).const_mul (-D)
  have h2 : HasDerivAt (fun t : ℝ => 1 - Real.exp (-D * t)) (-(Real.exp (-D * t) * -D)) t := h1.exp.const_sub 1
  have h3 := h2.div_const (fogPart D L)
  have e : -(Real.exp (-D * t) * -D) / fogPart D L = D * Real.exp (-D * t) / fogPart D L := by ring
  rw [e] at h3
  exact h3

/-- What is scattered, averaged over the random number, is the integral over the distance. -/
theorem integral_fogTau (hD : 0 < D) (hL : 0 < L) (g : ℝ → ℝ) :
    ∫ u in Ico 0 1, fogPart D L * g (fogTau D L u) = ∫ t in Ico 0 L, D * Real.exp (-D * t) * g t := by
  have h := fogPart_pos hD hL
  rw [← image_fogPhi hD hL, integral_image_eq_integral_abs_deriv_smul measurableSet_Ico
    (fun t _ => (hasDerivAt_fogPhi t).hasDerivWithinAt)
    (fun a _ b _ e => by rw [← fogTau_phi hD hL a, ← fogTau_phi hD hL b, e])]
  refine integral_congr_ae (.of_forall fun t => ?_)
  dsimp only
  rw [fogTau_phi hD hL, abs_of_pos (div_pos (mul_pos hD (Real.exp_pos _)) h), smul_eq_mul]
  field_simp

theorem integral_fst (g : ℝ → ℝ) : ∫ uv in unitSq, g uv.1 = ∫ u in Ico (0 : ℝ) 1, g u := by
  rw [unitSq, Measure.volume_eq_prod, ← Measure.prod_restrict]
  have h := integral_prod_mul (μ := volume.restrict (Ico (0 : ℝ) 1)) (ν := volume.restrict (Ico (0 : ℝ) 1)) g fun _ => 1
  simpa using h

theorem continuousAt_fogTau (hD : 0 < D) (hL : 0 < L) {u : ℝ} (hu : u ∈ Ico (0 : ℝ) 1) : ContinuousAt (fogTau D L) u := by
  have h := fogPart_pos hD hL
  have h1 := fogPart_lt (D := D) (L := L)
  have hp : 1 - u * fogPart D L ≠ 0 := by nlinarith [hu.1, hu.2]
  exact continuousAt_const.mul (ContinuousAt.log (by fun_prop) hp)

theorem measurable_fogTau : Measurable (fogTau D L) := by
  unfold fogTau; fun_prop

theorem tame_fogTau (hD : 0 < D) (hL : 0 < L) {g : ℝ → ℝ} (hg : Tame (Ico 0 L) g) :
    Tame unitSq fun uv : ℝ × ℝ => fogPart D L * g (fogTau D L uv.1) := by
  obtain ⟨hm, ⟨C, hC⟩, hc⟩ := hg
  refine ⟨(hm.comp (measurable_fogTau.comp measurable_fst)).const_mul _, ⟨C, ?_⟩, ?_⟩
  · rintro ⟨u, v⟩ ⟨hu, -⟩
    rw [abs_mul, abs_of_pos (fogPart_pos hD hL)]
    have := hC _ (fogTau_mem hD hL hu)
    nlinarith [abs_nonneg (g (fogTau D L u)), fogPart_lt (D := D) (L := L), fogPart_pos hD hL]
  · have h0 : volume {t | t ∈ Ico 0 L ∧ ¬ ContinuousAt g t} = 0 := by
      rw [ae_restrict_iff' measurableSet_Ico, ae_iff] at hc
      simpa only [Classical.not_imp] using hc
    have h1 : volume (fogPhi D L '' {t | t ∈ Ico 0 L ∧ ¬ ContinuousAt g t}) = 0 :=
      addHaar_image_eq_zero_of_differentiableOn_of_addHaar_eq_zero volume
        (fun t _ => (hasDerivAt_fogPhi t).differentiableAt.differentiableWithinAt) h0
    have h2 : ∀ᵐ p : ℝ × ℝ ∂volume, p.1 ∉ fogPhi D L '' {t | t ∈ Ico 0 L ∧ ¬ ContinuousAt g t} := by
      rw [Measure.volume_eq_prod]
      exact Measure.quasiMeasurePreserving_fst.ae (measure_eq_zero_iff_ae_notMem.1 h1)
    have hQ : MeasurableSet unitSq := measurableSet_Ico.prod measurableSet_Ico
    rw [ae_restrict_iff' hQ]
    filter_upwards [h2] with p hp hq
    have hcont : ContinuousAt g (fogTau D L p.1) := by
      by_contra hn
      exact hp ⟨_, ⟨fogTau_mem hD hL hq.1, hn⟩, fogPhi_tau hD hL hq.1.2⟩
    refine continuousAt_const.mul ?_
    exact ContinuousAt.comp (f := fun p : ℝ × ℝ => fogTau D L p.1) hcont
      (ContinuousAt.comp (f := Prod.fst) (continuousAt_fogTau hD hL hq.1) continuousAt_fst)

end BR
