import Verif.Lemmas.Equidist
import Verif.Lemmas.Spread
import Verif.Spec.Passes
import Verif.Props.C05_Mean
import Verif.Props.C10_Sequence

/-! Means over the passes of a pixel. -/

namespace BR

open MeasureTheory Filter Topology Set

theorem unif_prod : unif.prod unif = volume.restrict unitSq := by
  rw [unif, Measure.prod_restrict, unitSq]; rfl

theorem tendsto_pair {bU bV : ℕ} (hu : 2 ≤ bU) (hv : 2 ≤ bV) (hco : Nat.Coprime bU bV) (dx dy : ℝ) (f : ℝ × ℝ → ℝ)
    (hf : Tame unitSq f) :
    Tendsto (mean fun n => f (Int.fract (radInv bU (n + 1) + dx), Int.fract (radInv bV (n + 1) + dy))) atTop
      (𝓝 (∫ p in unitSq, f p)) := by
  obtain ⟨hm, ⟨C, hC⟩, hc⟩ := hf
  have hmp := measurePreserving_finTwoArrow unif
  have h := tendsto_mean (ι := Fin 2) (b := ![bU, bV]) (by intro i; fin_cases i <;> assumption)
    (by
      intro i j hij
      fin_cases i <;> fin_cases j <;> first | exact absurd rfl hij | exact hco | exact hco.symm)
    ![dx, dy] (fun x => f (MeasurableEquiv.finTwoArrow x)) (hm.comp (MeasurableEquiv.measurable _)) C
    (fun x hx => hC _ ⟨hx 0, hx 1⟩) ?_
  · have e : ∫ x, f (MeasurableEquiv.finTwoArrow x) ∂(Measure.pi fun _ : Fin 2 => unif) = ∫ p in unitSq, f p := by
      rw [hmp.integral_comp' (g := f), unif_prod]
    rw [e] at h
    exact h
  · rw [← unif_prod] at hc
    filter_upwards [hmp.quasiMeasurePreserving.ae hc] with x hx
    have : Continuous fun x : Fin 2 → ℝ => ((x 0, x 1) : ℝ × ℝ) := (continuous_apply 0).prodMk (continuous_apply 1)
    exact ContinuousAt.comp (f := fun x : Fin 2 → ℝ => ((x 0, x 1) : ℝ × ℝ)) hx this.continuousAt

/-- Four coordinates as two pairs. -/
def twoPairs (x : Fin 2 ⊕ Fin 2 → ℝ) : (ℝ × ℝ) × (ℝ × ℝ) := ((x (.inl 0), x (.inl 1)), (x (.inr 0), x (.inr 1)))

theorem twoPairs_preserving : MeasurePreserving twoPairs (Measure.pi fun _ => unif)
    (volume.restrict (unitSq ×ˢ unitSq)) := by
  have h1 := measurePreserving_sumPiEquivProdPi (ι := Fin 2) (ι' := Fin 2) (X := fun _ => ℝ) fun _ => unif
  have h2 := (measurePreserving_finTwoArrow unif).prod (measurePreserving_finTwoArrow unif)
  have h3 := h2.comp h1
  have e : (unif.prod unif).prod (unif.prod unif) = volume.restrict (unitSq ×ˢ unitSq) := by
    rw [unif_prod, Measure.prod_restrict]; rfl
  rw [e] at h3
  exact h3

theorem tendsto_twoPairs (b : Fin 2 ⊕ Fin 2 → ℕ) (hb : ∀ i, 2 ≤ b i) (hco : Pairwise fun i j => Nat.Coprime (b i) (b j))
    (d : Fin 2 ⊕ Fin 2 → ℝ) (f : (ℝ × ℝ) × (ℝ × ℝ) → ℝ) (hf : Tame (unitSq ×ˢ unitSq) f) :
    Tendsto (mean fun n => f (twoPairs (shiftPoint d (haltonPoint b n)))) atTop
      (𝓝 (∫ p in unitSq ×ˢ unitSq, f p)) := by
  obtain ⟨hm, ⟨C, hC⟩, hc⟩ := hf
  have hmp := twoPairs_preserving
  have h := tendsto_mean hb hco d (fun x => f (twoPairs x)) (hm.comp hmp.measurable) C
    (fun x hx => hC _ ⟨⟨hx _, hx _⟩, hx _, hx _⟩) ?_
  · have e : ∫ x, f (twoPairs x) ∂(Measure.pi fun _ => unif) = ∫ p in unitSq ×ˢ unitSq, f p := by
      rw [← hmp.map_eq, integral_map hmp.measurable.aemeasurable hm.aestronglyMeasurable]
    rw [e] at h
    exact h
  · filter_upwards [hmp.quasiMeasurePreserving.ae hc] with x hx
    have : Continuous twoPairs := ((continuous_apply _).prodMk (continuous_apply _)).prodMk
      ((continuous_apply _).prodMk (continuous_apply _))
    exact ContinuousAt.comp (f := twoPairs) hx this.continuousAt

noncomputable def pathBases : Fin 2 ⊕ Fin 2 → ℕ := Sum.elim ![2, 3] ![5, 7]
noncomputable def pathMoves (d : ℝ × ℝ) : Fin 2 ⊕ Fin 2 → ℝ := Sum.elim ![d.1, d.2] ![d.1, d.2]

/-- The pairs that are drawn at the first two depths in pass `n` over a pixel with the shifts `d`. -/
noncomputable def pathPairs (d : ℝ × ℝ) (n : ℕ) : (ℝ × ℝ) × (ℝ × ℝ) :=
  twoPairs (shiftPoint (pathMoves d) (haltonPoint pathBases n))

theorem pathPairs_eq (d : ℝ × ℝ) (n : ℕ) : pathPairs d n =
    ((Int.fract (radInv 2 (n + 1) + d.1), Int.fract (radInv 3 (n + 1) + d.2)),
      (Int.fract (radInv 5 (n + 1) + d.1), Int.fract (radInv 7 (n + 1) + d.2))) := rfl

theorem pathPairs_mem (d : ℝ × ℝ) (n : ℕ) : pathPairs d n ∈ unitSq ×ˢ unitSq := by
  rw [pathPairs_eq]
  exact ⟨⟨⟨Int.fract_nonneg _, Int.fract_lt_one _⟩, Int.fract_nonneg _, Int.fract_lt_one _⟩,
    ⟨Int.fract_nonneg _, Int.fract_lt_one _⟩, Int.fract_nonneg _, Int.fract_lt_one _⟩

theorem tendsto_pathPairs (d : ℝ × ℝ) (f : (ℝ × ℝ) × (ℝ × ℝ) → ℝ) (hf : Tame (unitSq ×ˢ unitSq) f) :
    Tendsto (mean fun n => f (pathPairs d n)) atTop (𝓝 (∫ x in unitSq ×ˢ unitSq, f x)) := by
  refine tendsto_twoPairs pathBases ?_ ?_ _ f hf
  · rintro (i | i) <;> fin_cases i <;> simp [pathBases]
  · rintro (i | i) (j | j) hij <;> fin_cases i <;> fin_cases j <;>
      first | exact absurd rfl hij | (simp only [pathBases]; decide)

end BR
