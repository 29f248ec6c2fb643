import Verif.Lemmas.Spread
import Verif.Props.C50_Lights
import Verif.Model.Camera

/-!
C76: samples are spread fairly. Pairs chosen uniformly from the unit square give points that are uniform on the
disk, on rectangle and disk lamps and on the lens of a camera, and directions that follow the cosine law.
-/

namespace BR

open MeasureTheory Set

private theorem chance_eq (E : ℝ × ℝ → Prop) (hE : MeasurableSet {p | E p}) :
    chance E = ∫⁻ p in unitSq, {p | E p}.indicator 1 p := by
  rw [chance, ← lintegral_indicator measurableSet_unitSq]
  have : {p | p ∈ unitSq ∧ E p} = unitSq ∩ {p | E p} := rfl
  rw [this, ← lintegral_indicator_one (measurableSet_unitSq.inter hE)]
  refine lintegral_congr fun p => ?_
  rw [indicator_indicator]

private theorem measurable_diskMap : Measurable diskMap := by
  rw [show diskMap = fun p : ℝ × ℝ => _ from funext diskMap_eq]
  fun_prop

/-- Disk samples are uniform: the chance to fall into a region is the fraction of the area of the disk that lies in
the region. -/
theorem C76_disk (A : Set (ℝ × ℝ)) (hA : MeasurableSet A) :
    chance (fun p => uniformDisk p.1 p.2 ∈ A) = volume (A ∩ unitDisk) / ENNReal.ofReal Real.pi := by
  rw [chance_eq (fun p => uniformDisk p.1 p.2 ∈ A) (measurable_diskMap hA)]
  have : ∀ p, {p : ℝ × ℝ | uniformDisk p.1 p.2 ∈ A}.indicator (1 : ℝ × ℝ → ENNReal) p
      = A.indicator 1 (uniformDisk p.1 p.2) := fun p => rfl
  simp only [this]
  rw [lintegral_diskMap (A.indicator 1), lintegral_indicator_one hA, Measure.restrict_apply hA, mul_comm]
  rfl

/-- The area of the disk is π, so the chances add up to 1. -/
example : chance (fun p => uniformDisk p.1 p.2 ∈ univ) = 1 := by
  have : {p : ℝ × ℝ | p ∈ unitSq ∧ uniformDisk p.1 p.2 ∈ univ} = Ico 0 1 ×ˢ Ico 0 1 := by
    ext p; simp [unitSq]
  rw [chance, this, Measure.volume_eq_prod, Measure.prod_prod]
  simp

/-- Diffuse directions follow the cosine law: the mean of any quantity `f` of the direction is its integral over the
solid angle of the hemisphere around the normal (`sin θ dθ dφ`), weighted with `cos θ / π`. -/
theorem C76_hemisphere (a b n : Vec ℝ) (hF : IsFrame a b n) (f : Vec ℝ → ENNReal) :
    ∫⁻ p in unitSq, f (cosineSphere p.1 p.2 n) =
      ∫⁻ t in Ioo 0 (Real.pi / 2) ×ˢ Ioo (-Real.pi) Real.pi,
        ENNReal.ofReal (Real.cos t.1 / Real.pi) * ENNReal.ofReal (Real.sin t.1) * f (direction a b n t.1 t.2) := by
  have hp := Real.pi_pos
  rw [lintegral_cosineSphere hF, lintegral_hemisphere,
    ← lintegral_const_mul' _ _ (by simpa using hp)]
  refine setLIntegral_congr_fun (measurableSet_Ioo.prod measurableSet_Ioo) fun t ht => ?_
  have hc : 0 < Real.cos t.1 := Real.cos_pos_of_mem_Ioo ⟨by linarith [ht.1.1], ht.1.2⟩
  have hl : lift a b n (Real.sin t.1 * Real.cos t.2, Real.sin t.1 * Real.sin t.2) = direction a b n t.1 t.2 := by
    unfold lift direction
    rw [show (1 - ((Real.sin t.1 * Real.cos t.2) ^ 2 + (Real.sin t.1 * Real.sin t.2) ^ 2)) = Real.cos t.1 ^ 2 by
      linear_combination (-Real.sin t.1 ^ 2) * Real.sin_sq_add_cos_sq t.2 - Real.sin_sq_add_cos_sq t.1,
      Real.sqrt_sq hc.le]
  rw [hl, ← mul_assoc, ← ENNReal.ofReal_inv_of_pos hp, ← ENNReal.ofReal_mul (by positivity),
    ← ENNReal.ofReal_mul (by positivity)]
  congr 2
  ring

/-- A right-angled frame that is not aligned with the axes. -/
example : IsFrame ⟨3 / 5, 4 / 5, 0⟩ ⟨0, 0, 1⟩ ⟨4 / 5, -3 / 5, 0⟩ := by
  constructor <;> norm_num [Vec.dot]

/-- Half of the directions are within 45 degrees of the normal: the chance to be within the angle `t` is `sin² t`. -/
theorem C76_angle (n : Vec ℝ) (hn : n.len2 = 1) (t : ℝ) (h0 : 0 ≤ t) (h1 : t ≤ Real.pi / 2) :
    chance (fun p => Real.cos t < (cosineSphere p.1 p.2 n).dot n) = ENNReal.ofReal (Real.sin t ^ 2) := by
  have hc : 0 ≤ Real.cos t := Real.cos_nonneg_of_mem_Icc ⟨by linarith [Real.pi_pos], h1⟩
  have : {p : ℝ × ℝ | p ∈ unitSq ∧ Real.cos t < (cosineSphere p.1 p.2 n).dot n} =
      Ico 0 1 ×ˢ Ico 0 (Real.sin t ^ 2) := by
    have hs := Real.sin_sq_add_cos_sq t
    ext ⟨u, v⟩
    constructor
    · rintro ⟨⟨hu, hv⟩, h⟩
      simp only at h hu hv
      rw [(C46_hemisphere u v hv.1 hv.2.le n hn).2.2, Real.lt_sqrt hc] at h
      exact ⟨hu, hv.1, by linarith⟩
    · rintro ⟨hu, hv⟩
      simp only at hu hv
      have hv1 : v < 1 := by nlinarith [hv.2, sq_nonneg (Real.cos t)]
      refine ⟨⟨hu, hv.1, hv1⟩, ?_⟩
      simp only
      rw [(C46_hemisphere u v hv.1 hv1.le n hn).2.2, Real.lt_sqrt hc]
      linarith [hv.2]
  rw [chance, this, Measure.volume_eq_prod, Measure.prod_prod]
  simp

/-- The sample positions on a rectangle lamp are uniform: there is one position for each random pair, `Tiny` above
the lamp, and the chance to fall into a region is the fraction of the area of the lamp that lies in the region. -/
theorem C76_rectangle_light (L : Light ℝ) (b : Color ℝ) (w h : ℝ) (c : Vec ℝ) (hL : IsRectangleLight L b w h c)
    (hw : 0 < w) (hh : 0 < h) : ∃ pos : ℝ × ℝ → Vec ℝ,
    (∀ (S : Type) (rng : Rng ℝ S) (ctx ctx' : Ctx ℝ S) (uv : ℝ × ℝ) (target : Vec ℝ),
      ctx.generate2 rng = .ok (uv, ctx') → ∃ I, L.sample rng target ctx = .ok ((pos uv, I), ctx')) ∧
    (∀ uv, (pos uv).y = c.y + 1 / (1204 * 1024)) ∧
    ∀ A, MeasurableSet A → chance (fun uv => ((pos uv).x, (pos uv).z) ∈ A) =
      volume (A ∩ rectArea w h c) / ENNReal.ofReal (w * h) := by
  obtain ⟨obj, rfl⟩ := hL
  refine ⟨Light.samplePos w h c Light.transfRect, ?_, ?_, ?_⟩
  · intro S rng ctx ctx' uv target hg
    exact ⟨_, by simp only [Light.sample, hg]; rfl⟩
  · intro uv
    simp [Light.samplePos, Vec.add, tiny]; ring
  · intro A hA
    have e : ∀ uv : ℝ × ℝ, ((Light.samplePos w h c Light.transfRect uv).x, (Light.samplePos w h c Light.transfRect uv).z) =
        stretch (c.x - w / 2) (c.z - h / 2) w h uv := by
      intro uv
      simp [Light.samplePos, Light.transfRect, stretch, Vec.add]
      constructor <;> ring
    simp only [e]
    have hm : Measurable (stretch (c.x - w / 2) (c.z - h / 2) w h) := by unfold stretch; fun_prop
    rw [chance_eq (fun uv => stretch (c.x - w / 2) (c.z - h / 2) w h uv ∈ A) (hm hA)]
    have : ∀ p, {p : ℝ × ℝ | stretch (c.x - w / 2) (c.z - h / 2) w h p ∈ A}.indicator (1 : ℝ × ℝ → ENNReal) p
        = A.indicator 1 (stretch (c.x - w / 2) (c.z - h / 2) w h p) := fun p => rfl
    simp only [this]
    rw [← setLIntegral_congr openSq_ae_eq, lintegral_stretch hw hh _ measurableSet_openSq (A.indicator 1),
      stretch_unitSq hw hh, lintegral_indicator_one hA, Measure.restrict_apply hA, mul_comm]
    have hr : Ioo (c.x - w / 2) (c.x - w / 2 + w) ×ˢ Ioo (c.z - h / 2) (c.z - h / 2 + h) = rectArea w h c := by
      ext ⟨x, z⟩
      simp only [rectArea, mem_prod, mem_Ioo, mem_ofPred_eq, abs_lt]
      constructor
      · rintro ⟨⟨h1, h2⟩, h3, h4⟩; refine ⟨⟨?_, ?_⟩, ?_, ?_⟩ <;> linarith
      · rintro ⟨⟨h1, h2⟩, h3, h4⟩; refine ⟨⟨?_, ?_⟩, ?_, ?_⟩ <;> linarith
    rw [hr]
    rfl

/-- The same for disk lamps. -/
theorem C76_disk_light (L : Light ℝ) (b : Color ℝ) (diam : ℝ) (c : Vec ℝ) (hL : IsDiskLight L b diam c)
    (hd : 0 < diam) : ∃ pos : ℝ × ℝ → Vec ℝ,
    (∀ (S : Type) (rng : Rng ℝ S) (ctx ctx' : Ctx ℝ S) (uv : ℝ × ℝ) (target : Vec ℝ),
      ctx.generate2 rng = .ok (uv, ctx') → ∃ I, L.sample rng target ctx = .ok ((pos uv, I), ctx')) ∧
    (∀ uv, (pos uv).y = c.y + 1 / (1204 * 1024)) ∧
    ∀ A, MeasurableSet A → chance (fun uv => ((pos uv).x, (pos uv).z) ∈ A) =
      volume (A ∩ diskArea diam c) / ENNReal.ofReal (Real.pi * (diam / 2) ^ 2) := by
  obtain ⟨obj, rfl⟩ := hL
  refine ⟨Light.samplePos diam diam c uniformDisk, ?_, ?_, ?_⟩
  · intro S rng ctx ctx' uv target hg
    exact ⟨_, by simp only [Light.sample, hg]; rfl⟩
  · intro uv
    simp [Light.samplePos, Vec.add, tiny]; ring
  · intro A hA
    have hr : 0 < diam / 2 := by linarith
    have e : ∀ uv : ℝ × ℝ, ((Light.samplePos diam diam c uniformDisk uv).x, (Light.samplePos diam diam c uniformDisk uv).z) =
        stretch c.x c.z (diam / 2) (diam / 2) (uniformDisk uv.1 uv.2) := by
      intro uv
      simp [Light.samplePos, stretch, Vec.add]
      constructor <;> ring
    simp only [e]
    have hm : Measurable (stretch c.x c.z (diam / 2) (diam / 2)) := by unfold stretch; fun_prop
    have := C76_disk _ (hm hA)
    simp only [mem_preimage] at this
    rw [this]
    have hv : volume (stretch c.x c.z (diam / 2) (diam / 2) ⁻¹' A ∩ unitDisk) =
        ∫⁻ p in unitDisk, A.indicator 1 (stretch c.x c.z (diam / 2) (diam / 2) p) := by
      rw [← Measure.restrict_apply (hm hA), ← lintegral_indicator_one (hm hA)]
      rfl
    rw [hv, lintegral_stretch hr hr _ measurableSet_unitDisk (A.indicator 1), stretch_unitDisk hr,
      lintegral_indicator_one hA, Measure.restrict_apply hA]
    change _ = volume (A ∩ {q | (q.1 - c.x) ^ 2 + (q.2 - c.z) ^ 2 < (diam / 2) ^ 2}) / _
    rw [ENNReal.div_eq_inv_mul, ENNReal.div_eq_inv_mul, ← mul_assoc,
      ← ENNReal.ofReal_inv_of_pos Real.pi_pos, ← ENNReal.ofReal_inv_of_pos (by positivity),
      ← ENNReal.ofReal_inv_of_pos (by positivity), ← ENNReal.ofReal_mul (by positivity)]
    congr 2
    field_simp

/-- The points where rays leave the lens of a camera are uniform on the lens, a disk of radius `aperture`. -/
theorem C76_lens (focalLen focusDist aperture : ℝ) (ha : 0 < aperture) : ∃ pos : ℝ × ℝ → Vec ℝ,
    (∀ (S : Type) (rng : Rng ℝ S) (ctx : Ctx ℝ S) (u v : ℝ),
      ((BaseCam.projective focalLen focusDist aperture).rayFrom rng ctx u v).1.start =
        pos (rng.next2 ctx.seq3).1) ∧
    (∀ uv, (pos uv).z = 0) ∧
    ∀ A, MeasurableSet A → chance (fun uv => ((pos uv).x, (pos uv).y) ∈ A) =
      volume (A ∩ {q | q.1 ^ 2 + q.2 ^ 2 < aperture ^ 2}) / ENNReal.ofReal (Real.pi * aperture ^ 2) := by
  refine ⟨BaseCam.lensPoint aperture, ?_, ?_, ?_⟩
  · intro S rng ctx u v
    simp only [BaseCam.rayFrom, lt_real, lit_real]
    rw [if_pos (by simpa using ha)]
    rfl
  · intro uv
    simp [BaseCam.lensPoint]
  · intro A hA
    have e : ∀ uv : ℝ × ℝ, ((BaseCam.lensPoint aperture uv).x, (BaseCam.lensPoint aperture uv).y) =
        stretch 0 0 aperture aperture (uniformDisk uv.1 uv.2) := by
      intro uv
      simp [BaseCam.lensPoint, stretch]
      constructor <;> ring
    simp only [e]
    have hm : Measurable (stretch 0 0 aperture aperture) := by unfold stretch; fun_prop
    have := C76_disk _ (hm hA)
    simp only [mem_preimage] at this
    rw [this]
    have hv : volume (stretch 0 0 aperture aperture ⁻¹' A ∩ unitDisk) =
        ∫⁻ p in unitDisk, A.indicator 1 (stretch 0 0 aperture aperture p) := by
      rw [← Measure.restrict_apply (hm hA), ← lintegral_indicator_one (hm hA)]
      rfl
    rw [hv, lintegral_stretch ha ha _ measurableSet_unitDisk (A.indicator 1), stretch_unitDisk ha,
      lintegral_indicator_one hA, Measure.restrict_apply hA]
    simp only [sub_zero]
    rw [ENNReal.div_eq_inv_mul, ENNReal.div_eq_inv_mul, ← mul_assoc,
      ← ENNReal.ofReal_inv_of_pos Real.pi_pos, ← ENNReal.ofReal_inv_of_pos (by positivity),
      ← ENNReal.ofReal_inv_of_pos (by positivity), ← ENNReal.ofReal_mul (by positivity)]
    congr 2
    field_simp

/-- A lamp of 4 by 2, and the chance to sample its left half. -/
example (b : Color ℝ) (obj : Obj ℝ (Mat ℝ)) :
    IsRectangleLight (.planar 4 2 ⟨1, 3, 3⟩ (b.mul (4 * 2 * lit 1)) obj Light.transfRect) b 4 2 ⟨1, 3, 3⟩ ∧ (0 : ℝ) < 4 :=
  ⟨⟨obj, rfl⟩, by norm_num⟩

end BR
