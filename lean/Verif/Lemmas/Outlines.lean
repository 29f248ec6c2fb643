import Verif.Lemmas.SkyLight
import Verif.Spec.LitMesh

/-! Outlines of bodies: helpers for C97. -/

namespace BR
set_option linter.unusedSectionVars false

open MeasureTheory Filter Topology Set

/-- Where a set or its complement holds nearby there is no outline. -/
theorem frontier_off {S U V : Set (Vec ℝ)} (hU : IsOpen U) (hUS : U ⊆ S) (hV : IsOpen V) (hVS : V ⊆ Sᶜ) {ω : Vec ℝ}
    (h : ω ∈ frontier S) : ω ∉ U ∧ ω ∉ V := by
  refine ⟨fun hu => h.2 (interior_maximal hUS hU hu), fun hv => ?_⟩
  have : ω ∈ interior Sᶜ := interior_maximal hVS hV hv
  rw [interior_compl] at this
  exact this h.1

theorem NoArea.list {Z : List (Set (Vec ℝ))} (h : ∀ z ∈ Z, NoArea z) : NoArea {ω | ∃ z ∈ Z, ω ∈ z} := by
  induction Z with
  | nil => exact noArea_empty.mono fun ω _ h => by obtain ⟨z, hz, -⟩ := h; cases hz
  | cons z Z ih =>
    refine ((h z (.head _)).union (ih fun z' hz' => h z' (.tail _ hz'))).mono ?_
    rintro ω - ⟨z', hz', hω⟩
    rcases List.mem_cons.1 hz' with rfl | hz'
    · exact .inl hω
    · exact .inr ⟨z', hz', hω⟩

/-- A cone bounded by planes. -/
theorem outlined_cone {S : Set (Vec ℝ)} (c : Vec ℝ) (cs : List (Vec ℝ)) (hc : c ≠ ⟨0, 0, 0⟩) (hcs : ∀ x ∈ cs, x ≠ ⟨0, 0, 0⟩)
    (h : ∀ ω, ω ∈ S ↔ 0 < c.dot ω ∧ ∀ x ∈ cs, 0 ≤ x.dot ω) : MeasurableSet S ∧ NoArea (frontier S) := by
  have closed : ∀ cs : List (Vec ℝ), MeasurableSet {ω : Vec ℝ | ∀ x ∈ cs, 0 ≤ x.dot ω} := by
    intro cs
    induction cs with
    | nil => simp
    | cons x cs ih =>
      simp only [List.forall_mem_cons]
      exact (isClosed_le continuous_const (continuous_dot x)).measurableSet.inter ih
  have opened : ∀ cs : List (Vec ℝ), IsOpen {ω : Vec ℝ | ∀ x ∈ cs, 0 < x.dot ω} := by
    intro cs
    induction cs with
    | nil => simp
    | cons x cs ih =>
      simp only [List.forall_mem_cons]
      exact (isOpen_lt continuous_const (continuous_dot x)).inter ih
  have neg : ∀ cs : List (Vec ℝ), IsOpen {ω : Vec ℝ | ∃ x ∈ cs, x.dot ω < 0} := by
    intro cs
    induction cs with
    | nil => simp
    | cons x cs ih =>
      simp only [List.exists_mem_cons_iff]
      exact (isOpen_lt (continuous_dot x) continuous_const).union ih
  have e : S = {ω | 0 < c.dot ω} ∩ {ω | ∀ x ∈ cs, 0 ≤ x.dot ω} := by ext ω; exact h ω
  refine ⟨?_, ?_⟩
  · rw [e]
    exact (isOpen_lt continuous_const (continuous_dot c)).measurableSet.inter (closed cs)
  · refine NoArea.mono (Z' := {ω | ∃ z ∈ (c :: cs).map fun x => {ω : Vec ℝ | x.dot ω = 0}, ω ∈ z}) ?_ ?_
    · refine NoArea.list ?_
      intro z hz
      obtain ⟨x, hx, rfl⟩ := List.mem_map.1 hz
      refine noArea_plane ?_ 0
      rcases List.mem_cons.1 hx with rfl | hx
      · exact hc
      · exact hcs x hx
    · intro ω _ hω
      obtain ⟨h1, h2⟩ := frontier_off (U := {ω | ∀ x ∈ c :: cs, 0 < x.dot ω}) (V := {ω | ∃ x ∈ c :: cs, x.dot ω < 0}) (opened _)
        (fun ω hω => (h ω).2 ⟨hω c (.head _), fun x hx => (hω x (.tail _ hx)).le⟩) (neg _) (by
          rintro ω ⟨x, hx, h0⟩ hS
          obtain ⟨k1, k2⟩ := (h ω).1 hS
          rcases List.mem_cons.1 hx with rfl | hx
          · linarith
          · linarith [k2 x hx]) hω
      simp only [mem_ofPred_eq, not_forall, not_lt, exists_prop] at h1
      obtain ⟨x, hx, hle⟩ := h1
      refine ⟨_, List.mem_map.2 ⟨x, hx, rfl⟩, le_antisymm hle ?_⟩
      by_contra hlt
      exact h2 ⟨x, hx, not_le.1 hlt⟩

/-- The outline of several bodies. -/
theorem outlined_list {bodies : List Body} {p : Vec ℝ} (h : ∀ b ∈ bodies, b.Outlined p) :
    MeasurableSet {ω | ∃ b ∈ bodies, ω ∈ b.from p} ∧ NoArea (frontier {ω | ∃ b ∈ bodies, ω ∈ b.from p}) := by
  induction bodies with
  | nil => simp [noArea_empty]
  | cons b bs ih =>
    obtain ⟨i1, i2⟩ := ih fun b' hb' => h b' (.tail _ hb')
    obtain ⟨h1, h2⟩ := h b (.head _)
    have e : {ω | ∃ b' ∈ b :: bs, ω ∈ b'.from p} = b.from p ∪ {ω | ∃ b ∈ bs, ω ∈ b.from p} := by
      ext ω
      simp
    rw [e]
    refine ⟨h1.union i1, (h2.union i2).mono ?_⟩
    intro ω _ hω
    rcases frontier_union_subset _ _ hω with hω | hω
    · exact .inl hω.1
    · exact .inr hω.2

/-- Continuous light is mild. -/
theorem mildLight_of_continuous {f : Vec ℝ → ℝ} (h : Continuous f) : MildLight f := by
  refine ⟨h.measurable, ?_, ∅, MeasurableSet.empty, noArea_empty, fun ω _ => h.continuousAt⟩
  let g : ℝ × ℝ × ℝ → Vec ℝ := fun q => ⟨q.1, q.2.1, q.2.2⟩
  have hg : Continuous g := continuous_vec continuous_fst (continuous_fst.comp continuous_snd) (continuous_snd.comp continuous_snd)
  obtain ⟨K, hK⟩ := ((isCompact_Icc (a := (-1 : ℝ)) (b := 1)).prod
    (isCompact_Icc.prod isCompact_Icc)).exists_bound_of_continuousOn (h.comp hg).continuousOn
  refine ⟨K, fun ω hω => ?_⟩
  have hω' : ω.x * ω.x + ω.y * ω.y + ω.z * ω.z = 1 := hω
  have one : ∀ a : ℝ, a * a ≤ 1 → a ∈ Icc (-1 : ℝ) 1 := fun a ha => ⟨by nlinarith, by nlinarith⟩
  have := hK (ω.x, ω.y, ω.z) ⟨one _ (by nlinarith [mul_self_nonneg ω.y, mul_self_nonneg ω.z]),
    one _ (by nlinarith [mul_self_nonneg ω.x, mul_self_nonneg ω.z]), one _ (by nlinarith [mul_self_nonneg ω.y, mul_self_nonneg ω.x])⟩
  simpa [g, Real.norm_eq_abs] using this

/-- Light stays mild when bodies with an outline are in the way. -/
theorem MildLight.blocked {f : Vec ℝ → ℝ} (hf : MildLight f) {S : Set (Vec ℝ)} [DecidablePred (· ∈ S)] (hS : MeasurableSet S) (hS' : NoArea (frontier S)) :
    MildLight fun ω => if ω ∈ S then 0 else f ω := by
  obtain ⟨K, hK⟩ := hf.bounded
  obtain ⟨Z, hZ, h0, hc⟩ := hf.edges
  refine ⟨Measurable.ite hS measurable_const hf.measurable, ⟨K, fun ω hω => ?_⟩, Z ∪ frontier S,
    hZ.union isClosed_frontier.measurableSet, h0.union hS', fun ω hω => ?_⟩
  · split_ifs
    · rw [abs_zero]; exact (abs_nonneg _).trans (hK ω hω)
    · exact hK ω hω
  · have hω1 : ω ∉ Z := fun h => hω (.inl h)
    have hω2 : ω ∉ frontier S := fun h => hω (.inr h)
    by_cases hin : ω ∈ interior S
    · refine (continuousAt_const (y := (0 : ℝ))).congr ?_
      filter_upwards [isOpen_interior.mem_nhds hin] with x hx
      rw [if_pos (interior_subset hx)]
    · have hout : ω ∈ interior Sᶜ := by
        rw [interior_compl]
        exact fun h => hω2 ⟨h, hin⟩
      refine (hc ω hω1).congr ?_
      filter_upwards [isOpen_interior.mem_nhds hout] with x hx
      rw [if_neg (interior_subset hx)]

end BR
