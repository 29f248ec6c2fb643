import Verif.Lemmas.Outlines
import Verif.Lemmas.TameShare
import Verif.Props.C95_LitAssembly
import Verif.Spec.Lamps

/-! Shadows on the plane of a lamp. -/

namespace BR

open MeasureTheory Filter Topology Set

/-- Stretching of space. -/
private noncomputable def scaling (c : ℝ) (hc : 0 < c) : Vec ℝ ≃ₜ Vec ℝ where
  toFun v := v.mul c
  invFun v := v.mul c⁻¹
  left_inv v := by simp only [geo]; refine ⟨?_, ?_, ?_⟩ <;> field_simp
  right_inv v := by simp only [geo]; refine ⟨?_, ?_, ?_⟩ <;> field_simp
  continuous_toFun := continuous_vec (Vec.continuous_x.const_mul c) (Vec.continuous_y.const_mul c)
    (Vec.continuous_z.const_mul c)
  continuous_invFun := continuous_vec (Vec.continuous_x.const_mul c⁻¹) (Vec.continuous_y.const_mul c⁻¹)
    (Vec.continuous_z.const_mul c⁻¹)

/-- In which direction a body is does not depend on the length of the vector that gives the direction. -/
theorem from_scale (b : Body) (p ω : Vec ℝ) {c : ℝ} (hc : 0 < c) : ω.mul c ∈ b.from p ↔ ω ∈ b.from p := by
  constructor
  · rintro ⟨T, hT, h⟩
    refine ⟨T * c, by positivity, ?_⟩
    have e : (⟨p, ω⟩ : Ray ℝ).at (T * c) = (⟨p, ω.mul c⟩ : Ray ℝ).at T := by
      simp only [Ray.at, geo]; refine ⟨?_, ?_, ?_⟩ <;> ring
    rw [e]; exact h
  · rintro ⟨T, hT, h⟩
    refine ⟨T / c, by positivity, ?_⟩
    have e : (⟨p, ω.mul c⟩ : Ray ℝ).at (T / c) = (⟨p, ω⟩ : Ray ℝ).at T := by
      simp only [Ray.at, geo]; refine ⟨?_, ?_, ?_⟩ <;> field_simp
    rw [e]; exact h

/-- Directions without solid angle have no area on a plane. -/
theorem plane_null {p : Vec ℝ} {y : ℝ} (hp : p.y < y) {Z : Set (Vec ℝ)} (hZ : MeasurableSet Z) (h0 : NoArea Z)
    (hcone : ∀ ω (c : ℝ), 0 < c → ω.mul c ∈ Z → ω ∈ Z) : volume {q | toward p y q ∈ Z} = 0 := by
  have hcont : Continuous (toward p y) := by
    unfold toward
    exact continuous_vec (by fun_prop) (by fun_prop) (by fun_prop)
  have hA : MeasurableSet {q | toward p y q ∈ Z} := hcont.measurable hZ
  have hn : (⟨0, 1, 0⟩ : Vec ℝ).dot ⟨0, 1, 0⟩ = 1 := by simp [Vec.dot]
  have hc := chance_meets (n := ⟨0, 1, 0⟩) hn hp hA
  have hzero : chance (fun q => MeetsArea {q | toward p y q ∈ Z} y p (cosineSphere q.1 q.2 ⟨0, 1, 0⟩)) = 0 := by
    have := chance_of_noArea hZ h0 hn
    rw [ae_restrict_iff' measurableSet_unitSq, ae_iff] at this
    refine measure_mono_null ?_ this
    rintro q ⟨hq, t, ht, hy, hm⟩
    simp only [mem_ofPred_eq, Classical.not_imp, not_not]
    refine ⟨hq, hcone _ t ht ?_⟩
    have e : toward p y (p.x + t * (cosineSphere q.1 q.2 ⟨0, 1, 0⟩).x, p.z + t * (cosineSphere q.1 q.2 ⟨0, 1, 0⟩).z) =
        (cosineSphere q.1 q.2 ⟨0, 1, 0⟩).mul t := by
      simp only [toward, geo]
      refine ⟨?_, ?_, ?_⟩ <;> linarith
    rw [← e]
    exact hm
  rw [hzero] at hc
  have hi := (mul_eq_zero.1 hc.symm).resolve_left (by simp)
  have hmeas : Measurable fun q : ℝ × ℝ => ENNReal.ofReal (max 0 ((y - p.y) * (toward p y q).dot ⟨0, 1, 0⟩ / dist2 p y q ^ 2)) := by
    simp only [toward, Vec.dot, dist2]
    fun_prop
  rw [lintegral_eq_zero_iff hmeas, EventuallyEq, ae_restrict_iff' hA, ae_iff] at hi
  refine measure_mono_null ?_ hi
  intro q hq
  have hd := dist2_pos hp q
  have hh : 0 < y - p.y := by linarith
  simp only [mem_ofPred_eq, Classical.not_imp]
  refine ⟨hq, ?_⟩
  have : 0 < (y - p.y) * (toward p y q).dot ⟨0, 1, 0⟩ / dist2 p y q ^ 2 := by
    simp only [toward, Vec.dot]
    simp only [mul_zero, mul_one, zero_add, add_zero]
    positivity
  simpa using this

theorem normalized_unitVec (d : Vec ℝ) : d.normalized = unitVec d := by
  simp [unitVec, Vec.normalized, geo, mul_comm]

theorem len_length3 (d : Vec ℝ) : d.len = length3 d := by
  simp [Vec.len, length3, pow_two]

/-- The part of the plane of a lamp that is in the shadow is measurable and its border has no area. -/
theorem shadow_null {bodies : List Body} {p : Vec ℝ} {y : ℝ} (hp : p.y < y) (hout : ∀ b ∈ bodies, b.Outlined p)
    (hside : ∀ b ∈ bodies, (∀ x, b.on x → x.y < y) ∨ ∀ x, b.on x → y ≤ x.y) :
    MeasurableSet {q | InTheWay bodies p (toward p y q).normalized (toward p y q).len} ∧
    volume (frontier {q | InTheWay bodies p (toward p y q).normalized (toward p y q).len}) = 0 := by
  classical
  set low := bodies.filter fun b => decide (∀ x, b.on x → x.y < y) with hlow
  have hmem : ∀ b, b ∈ low ↔ b ∈ bodies ∧ ∀ x, b.on x → x.y < y := by intro b; simp [hlow]
  obtain ⟨h1, h2⟩ := outlined_list (bodies := low) (p := p) fun b hb => hout b ((hmem b).1 hb).1
  set S := {ω | ∃ b ∈ low, ω ∈ b.from p} with hS
  have hcont : Continuous (toward p y) := by
    unfold toward
    exact continuous_vec (by fun_prop) (by fun_prop) (by fun_prop)
  have e : {q | InTheWay bodies p (toward p y q).normalized (toward p y q).len} = toward p y ⁻¹' S := by
    ext q
    have hd2 := dist2_pos hp q
    have hl : 0 < (toward p y q).len := by
      have : (toward p y q).len = Real.sqrt (dist2 p y q) := by
        simp [Vec.len, toward, dist2, pow_two]
      rw [this]; exact Real.sqrt_pos.2 hd2
    set d := toward p y q with hd
    have hdy : d.y = y - p.y := rfl
    have hnorm : d.normalized = d.mul (1 / d.len) := by
      simp only [Vec.normalized, Vec.len, Vec.mul, lit_real, sqrt_real, Vec.ext_iff]
      push_cast
      refine ⟨?_, ?_, ?_⟩ <;> ring
    have hheight : ∀ T, ((⟨p, d.normalized⟩ : Ray ℝ).at T).y = p.y + T * ((y - p.y) / d.len) := by
      intro T
      rw [hnorm]
      simp only [Ray.at, geo]
      rw [hdy]
      ring
    have hh : 0 < y - p.y := by linarith
    constructor
    · rintro ⟨b, hb, T, hT, hlt, hon⟩
      have hb' : b ∈ low := by
        rw [hmem]
        refine ⟨hb, (hside b hb).resolve_right fun hup => ?_⟩
        have := hup _ hon
        rw [hheight] at this
        have h3 : T * ((y - p.y) / d.len) < y - p.y := by
          rw [mul_div_assoc', div_lt_iff₀ hl]
          nlinarith
        linarith
      refine ⟨b, hb', ?_⟩
      rw [← from_scale b p d (c := 1 / d.len) (by positivity), ← hnorm]
      exact ⟨T, hT, hon⟩
    · rintro ⟨b, hb, hfrom⟩
      rw [← from_scale b p d (c := 1 / d.len) (by positivity), ← hnorm] at hfrom
      obtain ⟨T, hT, hon⟩ := hfrom
      obtain ⟨hb, hbelow⟩ := (hmem b).1 hb
      refine ⟨b, hb, T, hT, ?_, hon⟩
      have := hbelow _ hon
      rw [hheight] at this
      have h3 : T * (y - p.y) < (y - p.y) * d.len := by
        rw [← div_lt_iff₀ hl, ← mul_div_assoc']
        linarith
      nlinarith
  rw [e]
  refine ⟨hcont.measurable h1, ?_⟩
  refine measure_mono_null (hcont.frontier_preimage_subset S) ?_
  refine plane_null hp isClosed_frontier.measurableSet h2 ?_
  intro ω c hc hω
  have hinv : (scaling c hc) ⁻¹' S = S := by
    ext v
    simp only [hS, mem_preimage, mem_ofPred_eq]
    refine exists_congr fun b => and_congr_right fun _ => from_scale b p v hc
  have := (scaling c hc).preimage_frontier S
  rw [hinv] at this
  rw [← this]
  exact hω

/-- Where nothing is clear, what gets through is all or nothing. -/
theorem through_opaque {things : List (List Body)} (hno : ∀ b ∈ things.flatten, ∀ p k, b.look p ≠ .clear k) {p d : Vec ℝ} {len : ℝ}
    {c c' : Color ℝ} (h : ThroughAll ⟨p, d⟩ len things c c') :
    (¬ InTheWay things.flatten p d len ∧ c' = c) ∨ (InTheWay things.flatten p d len ∧ c' = ⟨0, 0, 0⟩) := by
  rcases C95_shadow things hno _ _ _ _ h with ⟨h, e⟩ | ⟨⟨b, hb, T, h1, h2, h3⟩, e⟩
  · refine .inl ⟨?_, e⟩
    rintro ⟨b, hb, T, hT, hlt, hon⟩
    exact absurd (h b hb T hT hon) (not_le.2 hlt)
  · exact .inr ⟨⟨b, hb, T, h1, h2, h3⟩, e⟩

end BR
