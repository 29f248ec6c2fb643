import Mathlib.MeasureTheory.Measure.Haar.Unique
import Verif.Lemmas.Shine
import Verif.Props.C50_Lights
import Verif.Props.C76_Spread
import Verif.Props.C27_Affine
import Verif.Props.C28_Rotation

/-!
C77: lamps shine as they are seen. The light that a matte surface receives from a rectangle or disk lamp is, in the
mean over the random samples, what it would receive if rays were sent in random directions and those that meet the
lamp brought back the brightness of the lamp.
-/

namespace BR

open MeasureTheory Set

/-- The height of the sample positions above a lamp (`Tiny`). -/
noncomputable def lampOffset : ℝ := 1 / (1204 * 1024)

/-- What stops light on its way: objects that are not transparent. All light passes along a ray from `p` of length
`len`, or none. (In the program `occl` is the `Occlude` of the scene.) -/
def Stops (occl : Ray ℝ → ℝ → Color ℝ → GoM (Color ℝ × Ray ℝ)) (p : Vec ℝ) (blocked : Vec ℝ → ℝ → Prop) : Prop :=
  ∀ d len c, ∃ r', (blocked d len → occl ⟨p, d⟩ len c = .ok (⟨0, 0, 0⟩, r')) ∧
    (¬ blocked d len → occl ⟨p, d⟩ len c = .ok (c, r'))

/-- In a scene without objects nothing is stopped. -/
theorem stops_nothing (s : Scene ℝ) (h : s.objects = []) (p : Vec ℝ) : Stops s.occlude p fun _ _ => False := by
  intro d len c
  refine ⟨⟨p, d⟩, False.elim, fun _ => ?_⟩
  rw [Scene.occlude, h, occludeLoop]

/-- In a scene whose objects are not transparent, light is stopped by the objects that the ray meets. -/
theorem stops_opaque (s : Scene ℝ) (p : Vec ℝ) (hit : Obj ℝ (Mat ℝ) → Vec ℝ → HitRecord ℝ (Mat ℝ))
    (h : ∀ o ∈ s.objects, ∀ d, o.intersect ⟨p, d⟩ = .ok (hit o d, ⟨p, d⟩))
    (hop : ∀ o ∈ s.objects, ∀ d, Mat.filter? (hit o d).mat = none) :
    Stops s.occlude p fun d len => ∃ o ∈ s.objects, 0 < (hit o d).t ∧ (hit o d).t < len := by
  intro d len c
  refine ⟨⟨p, d⟩, ?_, ?_⟩ <;> intro hb <;> rw [Scene.occlude] <;> generalize s.objects = os at h hop hb
  · induction os with
    | nil => obtain ⟨o, ho, -⟩ := hb; cases ho
    | cons o os ih =>
      rw [occludeLoop, h o (by simp), ok_bind]
      dsimp only
      by_cases ht : 0 < (hit o d).t ∧ (hit o d).t < len
      · rw [if_pos (by simpa using ht), hop o (by simp)]
        simp [Color.black]
        rfl
      · rw [if_neg (by simpa using ht)]
        refine ih (fun o ho => h o (by simp [ho])) (fun o ho => hop o (by simp [ho])) ?_
        obtain ⟨o', ho', hb'⟩ := hb
        rcases List.mem_cons.1 ho' with rfl | ho'
        · exact absurd hb' ht
        · exact ⟨o', ho', hb'⟩
  · induction os with
    | nil => rfl
    | cons o os ih =>
      rw [occludeLoop, h o (by simp), ok_bind]
      dsimp only
      have ht : ¬ (0 < (hit o d).t ∧ (hit o d).t < len) := fun ht => hb ⟨o, by simp, ht⟩
      rw [if_neg (by simpa using ht)]
      exact ih (fun o ho => h o (by simp [ho])) (fun o ho => hop o (by simp [ho]))
        fun ⟨o', ho', hb'⟩ => hb ⟨o', by simp [ho'], hb'⟩

section
variable {T n : Vec ℝ} {y : ℝ}

private theorem dist2_sub (q : ℝ × ℝ) : (toward T y q).len = Real.sqrt (dist2 T y q) := by
  simp only [Vec.len, toward, sqrt_real, dist2, pow_two]

private theorem dist2_sub' (q : ℝ × ℝ) : (T.sub ⟨q.1, y, q.2⟩).len = Real.sqrt (dist2 T y q) := by
  simp only [Vec.len, Vec.sub, sqrt_real, dist2, pow_two]
  congr 1
  ring

/-- The part of the light of a lamp of the given area that a sample brings. -/
noncomputable def sampleShare (area : ℝ) (T n : Vec ℝ) (y : ℝ) (q : ℝ × ℝ) : ℝ :=
  area * (1 / Real.pi * max 0 ((y - T.y) * (toward T y q).dot n / dist2 T y q ^ 2))

theorem share_nonneg {area : ℝ} (ha : 0 < area) (q : ℝ × ℝ) : 0 ≤ sampleShare area T n y q := by
  have := Real.pi_pos
  unfold sampleShare
  have : 0 ≤ max 0 ((y - T.y) * (toward T y q).dot n / dist2 T y q ^ 2) := le_max_left _ _
  positivity

theorem loop_share {S : Type} (rng : Rng ℝ S) (occl : Ray ℝ → ℝ → Color ℝ → GoM (Color ℝ × Ray ℝ)) (b : Color ℝ) (w h : ℝ) (c : Vec ℝ) (area : ℝ)
    (ha : 0 < area) (obj : Obj ℝ (Mat ℝ)) (ts : ℝ → ℝ → ℝ × ℝ) (hT : T.y < y) (blocked : Vec ℝ → ℝ → Prop)
    (hs : Stops occl T blocked) (ctx ctx' : Ctx ℝ S) (uv : ℝ × ℝ) (hg : ctx.generate2 rng = .ok (uv, ctx'))
    (q : ℝ × ℝ) (hq : Light.samplePos w h c ts uv = ⟨q.1, y, q.2⟩) :
    directLoop rng occl T n [.planar w h c (b.mul area) obj ts] ⟨0, 0, 0⟩ ctx =
      .ok (b.mul ({q : ℝ × ℝ | ¬ blocked (toward T y q).normalized (toward T y q).len}.indicator
        (sampleShare area T n y) q), ctx') := by
  have hd := dist2_pos hT q
  have hr := Real.sqrt_pos.2 hd
  have hrr : Real.sqrt (dist2 T y q) ^ 2 = dist2 T y q := Real.sq_sqrt hd.le
  have hpi := Real.pi_pos
  have hh : 0 < y - T.y := by linarith
  have hne : T ≠ ⟨q.1, y, q.2⟩ := by rintro e; rw [e] at hT; exact lt_irrefl _ hT
  -- the intensity
  have hI : Light.planarIntensity T ⟨q.1, y, q.2⟩ = 1 / Real.pi * ((y - T.y) / Real.sqrt (dist2 T y q) ^ 3) := by
    rw [planar_intensity T _ hne, lambert, dist2_sub']
    dsimp only
    rw [max_eq_right (by positivity)]
    field_simp
  have hsub : (⟨q.1, y, q.2⟩ : Vec ℝ).sub T = toward T y q := rfl
  have hcos : (toward T y q).normalized.dot n = (toward T y q).dot n / Real.sqrt (dist2 T y q) := by
    rw [← dist2_sub]
    simp only [Vec.normalized, Vec.len, Vec.dot, lit_real, sqrt_real]
    push_cast
    ring
  have hshare : ∀ m, (toward T y q).dot n = m → 0 < m → sampleShare area T n y q =
      area * (1 / Real.pi * ((y - T.y) / Real.sqrt (dist2 T y q) ^ 3)) * (m / Real.sqrt (dist2 T y q)) := by
    rintro m rfl hm
    unfold sampleShare
    rw [max_eq_right (by positivity), ← hrr, Real.sqrt_sq hr.le]
    field_simp
  simp only [directLoop, Light.sample, hg, ok_bind, pure_bind', hq, hI, hsub, hcos]
  set k := 1 / Real.pi * ((y - T.y) / Real.sqrt (dist2 T y q) ^ 3) with hk
  have hk0 : 0 < k := by positivity
  by_cases hz : (((b.mul area).mul k).isZero) = true
  · rw [if_pos hz]
    have hb : b = ⟨0, 0, 0⟩ := by
      simp [Color.isZero, Color.mul, ha.ne', hk0.ne'] at hz
      exact Color.ext_iff.2 ⟨hz.1.1, hz.1.2, hz.2⟩
    rw [hb]
    simp [Color.mul]
  · rw [if_neg hz]
    by_cases hc : (toward T y q).dot n ≤ 0
    · rw [if_pos (by simpa using div_nonpos_of_nonpos_of_nonneg hc hr.le)]
      have : sampleShare area T n y q = 0 := by
        unfold sampleShare
        rw [max_eq_left]
        · ring
        · exact div_nonpos_of_nonpos_of_nonneg (mul_nonpos_of_nonneg_of_nonpos hh.le hc) (by positivity)
      have h0 : {q : ℝ × ℝ | ¬ blocked (toward T y q).normalized (toward T y q).len}.indicator
          (sampleShare area T n y) q = 0 := by
        unfold Set.indicator
        split <;> simp [this]
      rw [h0]
      simp [Color.mul]
    · have hc' : 0 < (toward T y q).dot n := not_le.1 hc
      rw [if_neg (by simpa using (div_pos hc' hr))]
      obtain ⟨r', h1, h2⟩ := hs (toward T y q).normalized (toward T y q).len ((b.mul area).mul k)
      by_cases hb : blocked (toward T y q).normalized (toward T y q).len
      · rw [h1 hb, indicator_of_notMem (by simpa using hb)]
        simp [ok_bind, Color.mul, Color.add]
      · rw [h2 hb, indicator_of_mem (by simpa using hb), hshare _ rfl hc']
        simp only [ok_bind, Color.mul, Color.add, Except.ok.injEq, Prod.mk.injEq, Color.mk.injEq, and_true]
        refine ⟨?_, ?_, ?_⟩ <;> ring

theorem sees_iff {d : Vec ℝ} (hd : d.len2 = 1) (blocked : Vec ℝ → ℝ → Prop) (A : Set (ℝ × ℝ)) :
    SeesArea blocked A y T d ↔
      MeetsArea (A ∩ {q : ℝ × ℝ | ¬ blocked (toward T y q).normalized (toward T y q).len}) y T d := by
  constructor <;> rintro ⟨t, ht, hy, h⟩
  all_goals
    have e : toward T y (T.x + t * d.x, T.z + t * d.z) = d.mul t := by
      simp only [toward, geo]
      refine ⟨?_, ?_, ?_⟩ <;> linarith
    have hl : (d.mul t).len = t := by
      have : (d.mul t).len = Real.sqrt (t ^ 2 * d.len2) := by
        simp only [Vec.len, Vec.len2, Vec.mul, sqrt_real]
        congr 1; ring
      rw [this, hd, mul_one, Real.sqrt_sq ht.le]
    have hn : (d.mul t).normalized = d := by
      have : (d.mul t).normalized = (d.mul t).mul (1 / (d.mul t).len) := by
        simp only [Vec.normalized, Vec.len, Vec.mul, lit_real, sqrt_real, Vec.ext_iff]
        push_cast
        refine ⟨?_, ?_, ?_⟩ <;> ring
      rw [this, hl]
      simp only [geo]
      refine ⟨?_, ?_, ?_⟩ <;> field_simp
  · refine ⟨t, ht, hy, h.1, ?_⟩
    change ¬ blocked _ _
    rw [e, hl, hn]; exact h.2
  · refine ⟨t, ht, hy, h.1, ?_⟩
    have h2 : ¬ blocked _ _ := h.2
    rwa [e, hl, hn] at h2

theorem mean_share {area : ℝ} (ha : 0 < area) (hn : n.len2 = 1) (hT : T.y < y) (A : Set (ℝ × ℝ))
    (hA : MeasurableSet A) (blocked : Vec ℝ → ℝ → Prop)
    (hB : MeasurableSet {q : ℝ × ℝ | blocked (toward T y q).normalized (toward T y q).len}) (pos : ℝ × ℝ → ℝ × ℝ)
    (hpos : ∀ g : ℝ × ℝ → ENNReal, ∫⁻ p in unitSq, g (pos p) = (ENNReal.ofReal area)⁻¹ * ∫⁻ q in A, g q) :
    ∫⁻ uv in unitSq, ENNReal.ofReal
        ({q : ℝ × ℝ | ¬ blocked (toward T y q).normalized (toward T y q).len}.indicator (sampleShare area T n y) (pos uv)) =
      chance fun uv => SeesArea blocked A y T (cosineSphere uv.1 uv.2 n) := by
  have hpi := Real.pi_pos
  have e : chance (fun uv => SeesArea blocked A y T (cosineSphere uv.1 uv.2 n)) = chance (fun uv =>
      MeetsArea (A ∩ {q : ℝ × ℝ | ¬ blocked (toward T y q).normalized (toward T y q).len}) y T
        (cosineSphere uv.1 uv.2 n)) := by
    unfold chance
    congr 1
    ext uv
    refine and_congr_right fun huv => sees_iff ?_ blocked A
    have h1 := (C46_hemisphere uv.1 uv.2 huv.2.1 huv.2.2.le n hn).1
    have h2 : Real.sqrt (cosineSphere uv.1 uv.2 n).len2 = 1 := h1
    exact Real.sqrt_eq_one.1 h2
  have hB' : MeasurableSet {q : ℝ × ℝ | ¬ blocked (toward T y q).normalized (toward T y q).len} := hB.compl
  rw [e, chance_meets hn hT (hA.inter hB'),
    hpos fun q => ENNReal.ofReal ({q : ℝ × ℝ | ¬ blocked (toward T y q).normalized (toward T y q).len}.indicator
      (sampleShare area T n y) q),
    ← lintegral_indicator hA, ← lintegral_indicator (hA.inter hB')]
  rw [← lintegral_const_mul' _ _ (by simpa using ha), ← lintegral_const_mul' _ _ (by simpa using hpi)]
  refine lintegral_congr fun q => ?_
  rw [← indicator_indicator]
  by_cases hq : q ∈ A
  · rw [indicator_of_mem hq, indicator_of_mem hq]
    by_cases hb : q ∈ {q : ℝ × ℝ | ¬ blocked (toward T y q).normalized (toward T y q).len}
    · rw [indicator_of_mem hb, indicator_of_mem hb]
      unfold sampleShare
      rw [ENNReal.ofReal_mul ha.le, ← mul_assoc, ENNReal.inv_mul_cancel (by simpa using ha) ENNReal.ofReal_ne_top,
        one_mul, ENNReal.ofReal_mul (by positivity), one_div, ENNReal.ofReal_inv_of_pos hpi]
    · rw [indicator_of_notMem hb, indicator_of_notMem hb]
      simp
  · rw [indicator_of_notMem hq, indicator_of_notMem hq]
    simp

end

/-- Rectangle lamps shine as they are seen. For a point `T` below the lamp, with unit normal `n`: the direct light for
the random pair `uv` is the brightness of the lamp times `share uv`, and the mean of the shares is the chance that a
random diffuse ray from `T` reaches the lamp. -/
theorem C77_rectangle (L : Light ℝ) (b : Color ℝ) (w h : ℝ) (c : Vec ℝ) (hL : IsRectangleLight L b w h c) (hw : 0 < w)
    (hh : 0 < h) (occl : Ray ℝ → ℝ → Color ℝ → GoM (Color ℝ × Ray ℝ)) (T n : Vec ℝ) (hT : T.y < c.y + lampOffset) (hn : n.len2 = 1)
    (blocked : Vec ℝ → ℝ → Prop) (hs : Stops occl T blocked)
    (hB : MeasurableSet {q : ℝ × ℝ | blocked (Vec.normalized ⟨q.1 - T.x, c.y + lampOffset - T.y, q.2 - T.z⟩)
      (Vec.len ⟨q.1 - T.x, c.y + lampOffset - T.y, q.2 - T.z⟩)}) :
    ∃ share : ℝ × ℝ → ℝ, (∀ uv, 0 ≤ share uv) ∧
      (∀ (S : Type) (rng : Rng ℝ S) (ctx ctx' : Ctx ℝ S) (uv : ℝ × ℝ), ctx.generate2 rng = .ok (uv, ctx') →
        directLoop rng occl T n [L] ⟨0, 0, 0⟩ ctx = .ok (b.mul (share uv), ctx')) ∧
      ∫⁻ uv in unitSq, ENNReal.ofReal (share uv) =
        chance fun uv => SeesArea blocked (rectArea w h c) (c.y + lampOffset) T (cosineSphere uv.1 uv.2 n) := by
  obtain ⟨obj, rfl⟩ := hL
  have harea : (0 : ℝ) < w * h * lit 1 := by simp; positivity
  refine ⟨fun uv => {q : ℝ × ℝ | ¬ blocked (toward T (c.y + lampOffset) q).normalized
      (toward T (c.y + lampOffset) q).len}.indicator (sampleShare (w * h * lit 1) T n (c.y + lampOffset))
        (stretch (c.x - w / 2) (c.z - h / 2) w h uv), ?_, ?_, ?_⟩
  · intro uv
    exact indicator_nonneg (fun q _ => share_nonneg harea q) _
  · intro S rng ctx ctx' uv hg
    refine loop_share rng occl b w h c _ harea obj _ hT blocked hs ctx ctx' uv hg _ ?_
    simp [Light.samplePos, Light.transfRect, stretch, Vec.add, lampOffset, tiny]
    refine ⟨?_, ?_, ?_⟩ <;> ring
  · refine mean_share harea hn hT _ ?_ blocked hB _ fun g => ?_
    · have h1 : MeasurableSet {q : ℝ × ℝ | |q.1 - c.x| < w / 2} := (isOpen_lt (by fun_prop) continuous_const).measurableSet
      have h2 : MeasurableSet {q : ℝ × ℝ | |q.2 - c.z| < h / 2} := (isOpen_lt (by fun_prop) continuous_const).measurableSet
      exact h1.inter h2
    · rw [← setLIntegral_congr openSq_ae_eq, lintegral_stretch hw hh _ measurableSet_openSq g, stretch_unitSq hw hh]
      have hr : Ioo (c.x - w / 2) (c.x - w / 2 + w) ×ˢ Ioo (c.z - h / 2) (c.z - h / 2 + h) = rectArea w h c := by
        ext ⟨x, z⟩
        simp only [rectArea, mem_prod, mem_Ioo, mem_ofPred_eq, abs_lt]
        constructor
        · rintro ⟨⟨h1, h2⟩, h3, h4⟩; refine ⟨⟨?_, ?_⟩, ?_, ?_⟩ <;> linarith
        · rintro ⟨⟨h1, h2⟩, h3, h4⟩; refine ⟨⟨?_, ?_⟩, ?_, ?_⟩ <;> linarith
      rw [hr]
      simp

/-- Disk lamps shine as they are seen. -/
theorem C77_disk (L : Light ℝ) (b : Color ℝ) (diam : ℝ) (c : Vec ℝ) (hL : IsDiskLight L b diam c) (hd : 0 < diam)
    (occl : Ray ℝ → ℝ → Color ℝ → GoM (Color ℝ × Ray ℝ)) (T n : Vec ℝ) (hT : T.y < c.y + lampOffset) (hn : n.len2 = 1)
    (blocked : Vec ℝ → ℝ → Prop) (hs : Stops occl T blocked)
    (hB : MeasurableSet {q : ℝ × ℝ | blocked (Vec.normalized ⟨q.1 - T.x, c.y + lampOffset - T.y, q.2 - T.z⟩)
      (Vec.len ⟨q.1 - T.x, c.y + lampOffset - T.y, q.2 - T.z⟩)}) :
    ∃ share : ℝ × ℝ → ℝ, (∀ uv, 0 ≤ share uv) ∧
      (∀ (S : Type) (rng : Rng ℝ S) (ctx ctx' : Ctx ℝ S) (uv : ℝ × ℝ), ctx.generate2 rng = .ok (uv, ctx') →
        directLoop rng occl T n [L] ⟨0, 0, 0⟩ ctx = .ok (b.mul (share uv), ctx')) ∧
      ∫⁻ uv in unitSq, ENNReal.ofReal (share uv) =
        chance fun uv => SeesArea blocked (diskArea diam c) (c.y + lampOffset) T (cosineSphere uv.1 uv.2 n) := by
  obtain ⟨obj, rfl⟩ := hL
  have hpi := Real.pi_pos
  have hr : 0 < diam / 2 := by linarith
  have harea : (0 : ℝ) < diam * diam * (GoFloat.pi / lit 4) := by simp; positivity
  refine ⟨fun uv => {q : ℝ × ℝ | ¬ blocked (toward T (c.y + lampOffset) q).normalized
      (toward T (c.y + lampOffset) q).len}.indicator (sampleShare (diam * diam * (GoFloat.pi / lit 4)) T n (c.y + lampOffset))
        (stretch c.x c.z (diam / 2) (diam / 2) (uniformDisk uv.1 uv.2)), ?_, ?_, ?_⟩
  · intro uv
    exact indicator_nonneg (fun q _ => share_nonneg harea q) _
  · intro S rng ctx ctx' uv hg
    refine loop_share rng occl b diam diam c _ harea obj _ hT blocked hs ctx ctx' uv hg _ ?_
    simp [Light.samplePos, stretch, Vec.add, lampOffset, tiny]
    refine ⟨?_, ?_, ?_⟩ <;> ring
  · refine mean_share harea hn hT _ ?_ blocked hB _ fun g => ?_
    · exact (isOpen_lt (by fun_prop) continuous_const).measurableSet
    · rw [lintegral_diskMap (fun q => g (stretch c.x c.z (diam / 2) (diam / 2) q)),
        lintegral_stretch hr hr _ measurableSet_unitDisk g, stretch_unitDisk hr]
      change _ = _ * ∫⁻ q in {q | (q.1 - c.x) ^ 2 + (q.2 - c.z) ^ 2 < (diam / 2) ^ 2}, g q
      rw [← mul_assoc, ← ENNReal.ofReal_inv_of_pos Real.pi_pos, ← ENNReal.ofReal_inv_of_pos (by positivity),
        ← ENNReal.ofReal_inv_of_pos harea, ← ENNReal.ofReal_mul (by positivity)]
      congr 2
      simp
      field_simp
      norm_num

/-- No lamp gives more light than its brightness: the mean of the shares is at most 1. -/
theorem C77_bounded (E : ℝ × ℝ → Prop) : chance E ≤ 1 := by
  have : volume unitSq = 1 := by
    rw [unitSq, Measure.volume_eq_prod, Measure.prod_prod]; simp
  rw [← this]
  exact measure_mono fun p hp => hp.1

/-! ### The lamp above -/

private theorem meets_cone {R H y : ℝ} (hR : 0 < R) (hH : 0 < H) {T c d : Vec ℝ} (hd : d.len2 = 1) (hx : T.x = c.x)
    (hz : T.z = c.z) (hy : y - T.y = H) :
    SeesArea (fun _ _ => False) (diskArea (2 * R) c) y T d ↔ H / Real.sqrt (R ^ 2 + H ^ 2) < d.dot ⟨0, 1, 0⟩ := by
  have hs : 0 < Real.sqrt (R ^ 2 + H ^ 2) := Real.sqrt_pos.2 (by positivity)
  have hss : Real.sqrt (R ^ 2 + H ^ 2) ^ 2 = R ^ 2 + H ^ 2 := Real.sq_sqrt (by positivity)
  have hdot : d.dot ⟨0, 1, 0⟩ = d.y := by simp [Vec.dot]
  have hd' : d.x ^ 2 + d.y ^ 2 + d.z ^ 2 = 1 := by rw [← hd]; simp only [Vec.len2]; ring
  rw [hdot, div_lt_iff₀ hs]
  constructor
  · rintro ⟨t, ht, h1, h2, -⟩
    have h2' : (T.x + t * d.x - c.x) ^ 2 + (T.z + t * d.z - c.z) ^ 2 < (2 * R / 2) ^ 2 := h2
    rw [hx, hz] at h2'
    have hty : t * d.y = H := by linarith
    have hdy : 0 < d.y := by
      by_contra hc
      have := mul_nonpos_of_nonneg_of_nonpos ht.le (not_lt.1 hc)
      linarith
    have h3 : t ^ 2 * (1 - d.y ^ 2) < R ^ 2 := by nlinarith
    have h4 : H ^ 2 * (1 - d.y ^ 2) < R ^ 2 * d.y ^ 2 := by
      have : H ^ 2 * (1 - d.y ^ 2) = (t ^ 2 * (1 - d.y ^ 2)) * d.y ^ 2 := by rw [← hty]; ring
      rw [this]
      exact mul_lt_mul_of_pos_right h3 (by positivity)
    refine lt_of_pow_lt_pow_left₀ 2 (by positivity) ?_
    rw [mul_pow, hss]
    nlinarith
  · intro h
    have hdy : 0 < d.y := by
      by_contra hc
      have := mul_nonpos_of_nonpos_of_nonneg (not_lt.1 hc) hs.le
      linarith
    have h4 : H ^ 2 < (d.y * Real.sqrt (R ^ 2 + H ^ 2)) ^ 2 := pow_lt_pow_left₀ h hH.le two_ne_zero
    rw [mul_pow, hss] at h4
    refine ⟨H / d.y, by positivity, ?_, ?_, id⟩
    · field_simp; linarith
    · change (T.x + H / d.y * d.x - c.x) ^ 2 + (T.z + H / d.y * d.z - c.z) ^ 2 < (2 * R / 2) ^ 2
      rw [hx, hz]
      have e : (c.x + H / d.y * d.x - c.x) ^ 2 + (c.z + H / d.y * d.z - c.z) ^ 2 = H ^ 2 * (1 - d.y ^ 2) / d.y ^ 2 := by
        rw [← hd']; field_simp; ring
      rw [e, div_lt_iff₀ (by positivity)]
      nlinarith

theorem chance_axis {R H y : ℝ} (hR : 0 < R) (hH : 0 < H) {T c : Vec ℝ} (hx : T.x = c.x)
    (hz : T.z = c.z) (hy : y - T.y = H) :
    chance (fun uv => SeesArea (fun _ _ => False) (diskArea (2 * R) c) y T (cosineSphere uv.1 uv.2 ⟨0, 1, 0⟩)) =
      ENNReal.ofReal (R ^ 2 / (R ^ 2 + H ^ 2)) := by
  have hs : 0 < Real.sqrt (R ^ 2 + H ^ 2) := Real.sqrt_pos.2 (by positivity)
  have hss : Real.sqrt (R ^ 2 + H ^ 2) ^ 2 = R ^ 2 + H ^ 2 := Real.sq_sqrt (by positivity)
  have hn : (⟨0, 1, 0⟩ : Vec ℝ).len2 = 1 := by simp [Vec.len2]
  have h1 : H / Real.sqrt (R ^ 2 + H ^ 2) ≤ 1 := by
    rw [div_le_one hs]
    refine Real.le_sqrt_of_sq_le ?_
    nlinarith [sq_nonneg R]
  have hc : Real.cos (Real.arccos (H / Real.sqrt (R ^ 2 + H ^ 2))) = H / Real.sqrt (R ^ 2 + H ^ 2) :=
    Real.cos_arccos (by have : 0 ≤ H / Real.sqrt (R ^ 2 + H ^ 2) := by positivity
                        linarith) h1
  have e : chance (fun uv => SeesArea (fun _ _ => False) (diskArea (2 * R) c) y T (cosineSphere uv.1 uv.2 ⟨0, 1, 0⟩)) =
      chance (fun uv => Real.cos (Real.arccos (H / Real.sqrt (R ^ 2 + H ^ 2))) <
        (cosineSphere uv.1 uv.2 ⟨0, 1, 0⟩).dot ⟨0, 1, 0⟩) := by
    unfold chance
    congr 1
    ext uv
    rw [hc]
    refine and_congr_right fun huv => meets_cone hR hH ?_ hx hz hy
    have h1 := (C46_hemisphere uv.1 uv.2 huv.2.1 huv.2.2.le _ hn).1
    have h2 : Real.sqrt (cosineSphere uv.1 uv.2 (⟨0, 1, 0⟩ : Vec ℝ)).len2 = 1 := h1
    exact Real.sqrt_eq_one.1 h2
  rw [e, C76_angle _ hn _ (Real.arccos_nonneg _) (by
    rw [Real.arccos_le_pi_div_two]; positivity)]
  congr 1
  have h2 := Real.sin_sq_add_cos_sq (Real.arccos (H / Real.sqrt (R ^ 2 + H ^ 2)))
  rw [hc, div_pow, hss] at h2
  rw [eq_sub_of_add_eq h2]
  field_simp
  ring

private theorem sees_meets (A : Set (ℝ × ℝ)) (y : ℝ) (T d : Vec ℝ) :
    SeesArea (fun _ _ => False) A y T d ↔ MeetsArea A y T d := by
  constructor
  · rintro ⟨t, h1, h2, h3, -⟩; exact ⟨t, h1, h2, h3⟩
  · rintro ⟨t, h1, h2, h3⟩; exact ⟨t, h1, h2, h3, id⟩

/-- Reflection of the plane in the point `(x, z)`. -/
private theorem lintegral_reflect (x z : ℝ) (f : ℝ × ℝ → ENNReal) (A : Set (ℝ × ℝ)) (hA : MeasurableSet A)
    (hsym : ∀ q : ℝ × ℝ, (2 * x - q.1, 2 * z - q.2) ∈ A ↔ q ∈ A) :
    ∫⁻ q in A, f (2 * x - q.1, 2 * z - q.2) = ∫⁻ q in A, f q := by
  rw [← lintegral_indicator hA, ← lintegral_indicator hA]
  rw [← lintegral_sub_left_eq_self (A.indicator f) ((2 * x, 2 * z) : ℝ × ℝ)]
  refine lintegral_congr fun q => ?_
  have e : ((2 * x, 2 * z) : ℝ × ℝ) - q = (2 * x - q.1, 2 * z - q.2) := rfl
  rw [e]
  by_cases hq : q ∈ A
  · rw [indicator_of_mem hq, indicator_of_mem ((hsym q).2 hq)]
  · rw [indicator_of_notMem hq, indicator_of_notMem (fun h => hq ((hsym q).1 h))]

private theorem chance_tilted {R H y : ℝ} (hR : 0 < R) (hH : 0 < H) {T c n : Vec ℝ} (hn : n.len2 = 1) (hx : T.x = c.x)
    (hz : T.z = c.z) (hy : y - T.y = H)
    (hab : ∀ q ∈ diskArea (2 * R) c, 0 ≤ (Vec.dot ⟨q.1 - T.x, y - T.y, q.2 - T.z⟩ n)) :
    chance (fun uv => SeesArea (fun _ _ => False) (diskArea (2 * R) c) y T (cosineSphere uv.1 uv.2 n)) =
      ENNReal.ofReal (n.y * (R ^ 2 / (R ^ 2 + H ^ 2))) := by
  have hA : MeasurableSet (diskArea (2 * R) c) := (isOpen_lt (by fun_prop) continuous_const).measurableSet
  have hT : T.y < y := by linarith
  have hpi := Real.pi_pos
  have hny : 0 ≤ n.y := by
    have h0 : (c.x, c.z) ∈ diskArea (2 * R) c := by
      change (c.x - c.x) ^ 2 + (c.z - c.z) ^ 2 < (2 * R / 2) ^ 2
      have : 0 < (2 * R / 2) ^ 2 := by positivity
      nlinarith
    have := hab _ h0
    simp only [Vec.dot, hx, hz, hy, sub_self, zero_mul, zero_add, add_zero] at this
    by_contra hc
    nlinarith [mul_pos hH (neg_pos.2 (not_le.1 hc))]
  have e1 := chance_axis hR hH hx hz hy
  simp only [sees_meets] at e1 ⊢
  rw [chance_meets (show (⟨0, 1, 0⟩ : Vec ℝ).dot ⟨0, 1, 0⟩ = 1 by simp [Vec.dot]) hT hA] at e1
  rw [chance_meets hn hT hA, ENNReal.ofReal_mul hny, ← e1, ← mul_assoc, mul_comm (ENNReal.ofReal n.y), mul_assoc]
  congr 1
  set f : ℝ × ℝ → ℝ := fun q => (y - T.y) * (toward T y q).dot n / dist2 T y q ^ 2 with hf
  set g : ℝ × ℝ → ℝ := fun q => (y - T.y) * (toward T y q).dot ⟨0, 1, 0⟩ / dist2 T y q ^ 2 with hg
  have hrefl : ∀ q : ℝ × ℝ, (2 * c.x - q.1, 2 * c.z - q.2) ∈ diskArea (2 * R) c ↔ q ∈ diskArea (2 * R) c := by
    intro q
    change (2 * c.x - q.1 - c.x) ^ 2 + (2 * c.z - q.2 - c.z) ^ 2 < _ ↔ (q.1 - c.x) ^ 2 + (q.2 - c.z) ^ 2 < _
    rw [show (2 * c.x - q.1 - c.x) ^ 2 + (2 * c.z - q.2 - c.z) ^ 2 = (q.1 - c.x) ^ 2 + (q.2 - c.z) ^ 2 by ring]
  have hfm : Measurable fun q => ENNReal.ofReal (max 0 (f q)) := by
    simp only [hf, toward, dist2, Vec.dot]
    fun_prop
  have hsum : ∀ q ∈ diskArea (2 * R) c,
      ENNReal.ofReal (max 0 (f q)) + ENNReal.ofReal (max 0 (f (2 * c.x - q.1, 2 * c.z - q.2))) =
        2 * (ENNReal.ofReal n.y * ENNReal.ofReal (max 0 (g q))) := by
    intro q hq
    have hd := dist2_pos hT q
    have hd' : dist2 T y (2 * c.x - q.1, 2 * c.z - q.2) = dist2 T y q := by
      simp only [dist2, hx, hz]; ring
    have hf0 : 0 ≤ f q := div_nonneg (mul_nonneg (by linarith) (hab q hq)) (by positivity)
    have hf1 : 0 ≤ f (2 * c.x - q.1, 2 * c.z - q.2) :=
      div_nonneg (mul_nonneg (by linarith) (hab _ ((hrefl q).2 hq))) (by positivity)
    have hg0 : 0 ≤ g q := by
      simp only [hg, toward, Vec.dot, mul_zero, mul_one, zero_add, add_zero]
      have : 0 ≤ y - T.y := by linarith
      positivity
    rw [max_eq_right hf0, max_eq_right hf1, max_eq_right hg0, ← ENNReal.ofReal_add hf0 hf1, ← ENNReal.ofReal_mul hny,
      show (2 : ENNReal) = ENNReal.ofReal 2 by simp, ← ENNReal.ofReal_mul (by norm_num)]
    congr 1
    simp only [hf, hg, hd', toward, Vec.dot, hx, hz]
    field_simp
    ring
  have h2 : 2 * ∫⁻ q in diskArea (2 * R) c, ENNReal.ofReal (max 0 (f q)) =
      2 * (ENNReal.ofReal n.y * ∫⁻ q in diskArea (2 * R) c, ENNReal.ofReal (max 0 (g q))) := by
    rw [two_mul]
    conv_lhs => rw [← lintegral_reflect c.x c.z (fun q => ENNReal.ofReal (max 0 (f q))) _ hA hrefl]
    conv_lhs => lhs; rw [lintegral_reflect c.x c.z (fun q => ENNReal.ofReal (max 0 (f q))) _ hA hrefl]
    rw [← lintegral_add_left hfm, setLIntegral_congr_fun hA hsum, lintegral_const_mul' _ _ (by simp),
      lintegral_const_mul' _ _ ENNReal.ofReal_ne_top]
  exact (ENNReal.mul_right_inj (by simp) (by simp)).1 h2

/-- The lamp above: a disk lamp of radius `R` at the height `H` straight above a surface gives the share
`cos θ R² / (R² + H²)` of its brightness if it is all above the horizon of the surface, where `cos θ = n.y`. A lamp that
fills the sky gives all its brightness, one far away falls off with the square of the distance. -/
theorem C77_above (L : Light ℝ) (b : Color ℝ) (R H : ℝ) (c : Vec ℝ) (hL : IsDiskLight L b (2 * R) c) (hR : 0 < R)
    (hH : 0 < H) (occl : Ray ℝ → ℝ → Color ℝ → GoM (Color ℝ × Ray ℝ)) (T n : Vec ℝ)
    (hT : T = ⟨c.x, c.y + lampOffset - H, c.z⟩) (hn : n.len2 = 1)
    (hab : ∀ q ∈ diskArea (2 * R) c, 0 ≤ (q.1 - c.x) * n.x + H * n.y + (q.2 - c.z) * n.z)
    (hs : Stops occl T fun _ _ => False) :
    ∃ share : ℝ × ℝ → ℝ, (∀ uv, 0 ≤ share uv) ∧
      (∀ (S : Type) (rng : Rng ℝ S) (ctx ctx' : Ctx ℝ S) (uv : ℝ × ℝ), ctx.generate2 rng = .ok (uv, ctx') →
        directLoop rng occl T n [L] ⟨0, 0, 0⟩ ctx = .ok (b.mul (share uv), ctx')) ∧
      ∫⁻ uv in unitSq, ENNReal.ofReal (share uv) = ENNReal.ofReal (n.y * (R ^ 2 / (R ^ 2 + H ^ 2))) := by
  have hy : c.y + lampOffset - T.y = H := by rw [hT]; simp
  obtain ⟨share, h0, h1, h2⟩ := C77_disk L b (2 * R) c hL (by linarith) occl T n (by linarith) hn _ hs (by simp)
  refine ⟨share, h0, h1, ?_⟩
  rw [h2]
  refine chance_tilted hR hH hn (by rw [hT]) (by rw [hT]) hy fun q hq => ?_
  have := hab q hq
  rw [hy]
  simpa [Vec.dot, hT] using this

/-! ### Moved and turned lamps -/

/-- A motion of space: it keeps lengths and angles. -/
def Rigid (t : Affine ℝ) : Prop := ∀ v w, (t.dir v).dot (t.dir w) = v.dot w

theorem Rigid.det_ne {t : Affine ℝ} (h : Rigid t) : t.A.det ≠ 0 := by
  have e : t.A.det ^ 2 = 1 := by
    have h00 := h ⟨1, 0, 0⟩ ⟨1, 0, 0⟩
    have h11 := h ⟨0, 1, 0⟩ ⟨0, 1, 0⟩
    have h22 := h ⟨0, 0, 1⟩ ⟨0, 0, 1⟩
    have h01 := h ⟨1, 0, 0⟩ ⟨0, 1, 0⟩
    have h02 := h ⟨1, 0, 0⟩ ⟨0, 0, 1⟩
    have h12 := h ⟨0, 1, 0⟩ ⟨0, 0, 1⟩
    simp only [Affine.dir, geo] at h00 h11 h22 h01 h02 h12
    ring_nf at h00 h11 h22 h01 h02 h12
    have gram : t.A.det ^ 2 = t.A.c0.dot t.A.c0 * (t.A.c1.dot t.A.c1 * t.A.c2.dot t.A.c2 - t.A.c1.dot t.A.c2 ^ 2)
        - t.A.c0.dot t.A.c1 * (t.A.c0.dot t.A.c1 * t.A.c2.dot t.A.c2 - t.A.c1.dot t.A.c2 * t.A.c0.dot t.A.c2)
        + t.A.c0.dot t.A.c2 * (t.A.c0.dot t.A.c1 * t.A.c1.dot t.A.c2 - t.A.c1.dot t.A.c1 * t.A.c0.dot t.A.c2) := by
      simp only [Matrix.det, geo]; ring
    have g00 : t.A.c0.dot t.A.c0 = 1 := by simp only [geo]; linarith
    have g11 : t.A.c1.dot t.A.c1 = 1 := by simp only [geo]; linarith
    have g22 : t.A.c2.dot t.A.c2 = 1 := by simp only [geo]; linarith
    have g01 : t.A.c0.dot t.A.c1 = 0 := by simp only [geo]; linarith
    have g02 : t.A.c0.dot t.A.c2 = 0 := by simp only [geo]; linarith
    have g12 : t.A.c1.dot t.A.c2 = 0 := by simp only [geo]; linarith
    rw [gram, g00, g11, g22, g01, g02, g12]; norm_num
  intro h0
  rw [h0] at e
  norm_num at e

private theorem Rigid.len {t : Affine ℝ} (h : Rigid t) (v : Vec ℝ) : (t.dir v).len = v.len := by
  have := h v v
  simp only [Vec.len, sqrt_real]
  congr 1

private theorem dir_mul (t : Affine ℝ) (v : Vec ℝ) (k : ℝ) : t.dir (v.mul k) = (t.dir v).mul k := by
  simp only [Affine.dir, geo]
  refine ⟨?_, ?_, ?_⟩ <;> ring

private theorem normalized_mul (v : Vec ℝ) : v.normalized = v.mul (1 / v.len) := by
  simp only [Vec.normalized, Vec.len, Vec.mul, lit_real, sqrt_real, Vec.ext_iff]
  push_cast
  refine ⟨?_, ?_, ?_⟩ <;> ring

/-- A lamp that is moved and turned shines on a surface that is moved and turned with it as the original lamp on the
original surface. -/
theorem C77_moved {S : Type} (t : Affine ℝ) (ht : Rigid t) (l : Light ℝ) (obj : Obj ℝ (Mat ℝ)) (rng : Rng ℝ S)
    (occl : Ray ℝ → ℝ → Color ℝ → GoM (Color ℝ × Ray ℝ)) (T n : Vec ℝ) (acc : Color ℝ) (ctx : Ctx ℝ S) :
    directLoop rng occl (t.point T) (t.dir n) [.transformed t t.inverse l obj] acc ctx =
      directLoop rng (fun r len c => occl ⟨t.point r.start, t.dir r.dir⟩ len c) T n [l] acc ctx := by
  simp only [directLoop, Light.sample, (C27_inverse_point t ht.det_ne T).1]
  rcases hs : l.sample rng T ctx with e | ⟨⟨p, I⟩, c1⟩
  · rfl
  · simp only [ok_bind, pure_bind']
    rw [← C27_dir, normalized_mul (t.dir _), ht.len, ← dir_mul, ← normalized_mul, ht]

/-! ### The sun -/

/-- The turn that brings the sun to its place (planar.go:46-51). -/
def sunPlace {F : Type} [Add F] [Sub F] [Mul F] [Div F] [Neg F] [GoFloat F] (yaw pitch : F) : Affine F :=
  Affine.composeLR
    [Affine.rotate Vec.zero Vec.ex (lit (-90) * (GoFloat.pi / lit 180)),
     Affine.translate ⟨lit 0, lit 0, -lit (10 ^ 6)⟩,
     Affine.rotate Vec.zero Vec.ex pitch,
     Affine.rotate Vec.zero Vec.ey yaw]

/-- The lights made by `SunLight`, for any `Object()`. -/
def IsSunLight {F : Type} [Add F] [Sub F] [Mul F] [Div F] [Neg F] [GoFloat F] (L : Light F) (b : Color F)
    (angularDiam yaw pitch : F) : Prop :=
  ∃ disk obj, IsDiskLight disk (b.mul (lit 4 / (angularDiam * angularDiam))) (angularDiam * lit (10 ^ 6)) Vec.zero ∧
    L = .transformed (sunPlace yaw pitch) (sunPlace yaw pitch).inverse disk obj

/-- Every light made by `SunLight` is one. -/
theorem C77_sun_constructor {F : Type} [Add F] [Sub F] [Mul F] [Div F] [Neg F] [GoFloat F]
    (Srt : Sorter (Obj F (Mat F))) (b : Color F) (angularDiam yaw pitch : F) (L : Light F)
    (h : Light.sunLight Srt b angularDiam yaw pitch = .ok L) : IsSunLight L b angularDiam yaw pitch := by
  obtain ⟨disk, h1, h2⟩ := bind_eq_ok.1 h
  have hd := (C50_constructors Srt _ (angularDiam * lit (10 ^ 6)) (angularDiam * lit (10 ^ 6)) _ Vec.zero disk).2 h1
  obtain ⟨o, rfl⟩ := hd
  obtain ⟨obj, -, h3⟩ := bind_eq_ok.1 h2
  cases h3
  exact ⟨_, obj, ⟨o, rfl⟩, rfl⟩

/-- The direction in which the sun is seen from the origin. -/
noncomputable def sunDirection (yaw pitch : ℝ) : Vec ℝ := (Affine.yaw yaw).dir ((Affine.pitch pitch).dir ⟨0, 0, -1⟩)

private theorem axes_ne : (Vec.ex : Vec ℝ) ≠ Vec.zero ∧ (Vec.ey : Vec ℝ) ≠ Vec.zero := by
  constructor <;> intro h <;> simp [Vec.ex, Vec.ey, Vec.zero] at h

private theorem sunPlace_dir (yaw pitch : ℝ) (v : Vec ℝ) : (sunPlace yaw pitch).dir v =
    (Affine.yaw yaw).dir ((Affine.pitch pitch).dir
      ((Affine.rotate Vec.zero Vec.ex (lit (-90) * (GoFloat.pi / lit 180) : ℝ)).dir v)) := by
  have hu : (Affine.unit : Affine ℝ).dir v = v := by
    simp only [Affine.unit, Affine.dir, Matrix.unit, geo, Vec.ex, Vec.ey, Vec.ez]; simp
  simp only [sunPlace, Affine.composeLR, List.foldl, C27_before_dir, hu, (C27_translate _ _).2]
  rfl

private theorem sunPlace_point (yaw pitch : ℝ) (v : Vec ℝ) : (sunPlace yaw pitch).point v =
    (Affine.yaw yaw).point ((Affine.pitch pitch).point
      (((Affine.rotate Vec.zero Vec.ex (lit (-90) * (GoFloat.pi / lit 180) : ℝ)).point v).add ⟨0, 0, -10 ^ 6⟩)) := by
  simp only [sunPlace, C27_composeLR, List.foldl, (C27_translate _ _).1]
  simp only [lit_real]
  push_cast
  rfl

private theorem angle90 : (lit (-90) * (GoFloat.pi / lit 180) : ℝ) = -(Real.pi / 2) := by
  simp only [lit_real, pi_real]; push_cast; ring

private theorem quarter (v : Vec ℝ) :
    (Affine.rotate Vec.zero Vec.ex (lit (-90) * (GoFloat.pi / lit 180) : ℝ)).point v = ⟨v.x, v.z, -v.y⟩ ∧
    (Affine.rotate Vec.zero Vec.ex (lit (-90) * (GoFloat.pi / lit 180) : ℝ)).dir v = ⟨v.x, v.z, -v.y⟩ := by
  have hp : ∀ v, (Affine.rotate Vec.zero Vec.ex (lit (-90) * (GoFloat.pi / lit 180) : ℝ)).point v = ⟨v.x, v.z, -v.y⟩ := by
    intro v
    rw [C28_point, normalized_axes.1, angle90]
    simp [rodrigues, geo]
  refine ⟨hp v, ?_⟩
  have h := C27_dir (Affine.rotate Vec.zero Vec.ex (lit (-90) * (GoFloat.pi / lit 180) : ℝ)) v Vec.zero
  have h0 : v.sub Vec.zero = v := by simp [geo]
  rw [h0, hp, hp] at h
  rw [h]
  simp [geo]

private theorem origin_fixed (axis : Vec ℝ) (θ : ℝ) : (Affine.rotate Vec.zero axis θ).point Vec.zero = Vec.zero := by
  rw [C28_point]
  simp [rodrigues, geo]

private theorem sunPlace_rigid (yaw pitch : ℝ) : Rigid (sunPlace yaw pitch) := by
  intro v w
  rw [sunPlace_dir, sunPlace_dir, Affine.yaw, Affine.pitch, C28_dot _ _ axes_ne.2, C28_dot _ _ axes_ne.1,
    C28_dot _ _ axes_ne.1]

/-- The sun. On a surface at the origin with unit normal `n`, with the sun above its horizon, the sun gives in the mean
the brightness `b` asked for, times the cosine of the angle at which it is seen, up to the factor
`1 / (angularDiam² / 4 + (1 + lampOffset / 10⁶)²)`, which is close to 1 for a small sun. -/
theorem C77_sun (L : Light ℝ) (b : Color ℝ) (angularDiam yaw pitch : ℝ) (hL : IsSunLight L b angularDiam yaw pitch)
    (ha : 0 < angularDiam) (occl : Ray ℝ → ℝ → Color ℝ → GoM (Color ℝ × Ray ℝ)) (n : Vec ℝ) (hn : n.len2 = 1)
    (hab : angularDiam / 2 ≤ n.dot (sunDirection yaw pitch)) (hs : Stops occl Vec.zero fun _ _ => False) :
    ∃ share : ℝ × ℝ → ℝ, (∀ uv, 0 ≤ share uv) ∧
      (∀ (S : Type) (rng : Rng ℝ S) (ctx ctx' : Ctx ℝ S) (uv : ℝ × ℝ), ctx.generate2 rng = .ok (uv, ctx') →
        directLoop rng occl Vec.zero n [L] ⟨0, 0, 0⟩ ctx = .ok (b.mul (share uv), ctx')) ∧
      ∫⁻ uv in unitSq, ENNReal.ofReal (share uv) =
        ENNReal.ofReal (n.dot (sunDirection yaw pitch) / (angularDiam ^ 2 / 4 + (1 + lampOffset / 10 ^ 6) ^ 2)) := by
  obtain ⟨disk, obj, hdisk, rfl⟩ := hL
  set t := sunPlace yaw pitch with ht
  have hrig : Rigid t := sunPlace_rigid yaw pitch
  have hoff : 0 < lampOffset := by unfold lampOffset; norm_num
  have hlit : (lit (10 ^ 6) : ℝ) = 10 ^ 6 := by simp only [lit_real]; push_cast; rfl
  -- the surface, seen from the sun
  set n' := t.inverse.dir n with hn'
  have hnn : t.dir n' = n := (C27_inverse_dir t hrig.det_ne n).2
  have hT : t.point ⟨0, -10 ^ 6, 0⟩ = Vec.zero := by
    rw [ht, sunPlace_point, (quarter _).1]
    have : ((⟨0, 0, -(-10 ^ 6)⟩ : Vec ℝ).add ⟨0, 0, -10 ^ 6⟩) = Vec.zero := by
      simp [geo]
    rw [this, Affine.pitch, origin_fixed, Affine.yaw, origin_fixed]
  have hny : n'.y = n.dot (sunDirection yaw pitch) := by
    have h1 : n'.y = n'.dot ⟨0, 1, 0⟩ := by simp [Vec.dot]
    rw [h1, ← hrig, hnn, ht, sunPlace_dir, (quarter _).2]
    rfl
  have hn1 : n'.len2 = 1 := by
    have : n'.len2 = n'.dot n' := rfl
    rw [this, ← hrig, hnn]; exact hn
  rw [hlit] at hdisk
  have hdiam : angularDiam * 10 ^ 6 = 2 * (angularDiam * 10 ^ 6 / 2) := by ring
  rw [hdiam] at hdisk
  obtain ⟨share, h0, h1, h2⟩ := C77_above disk _ (angularDiam * 10 ^ 6 / 2) (10 ^ 6 + lampOffset) Vec.zero hdisk
    (by positivity) (by positivity) (fun r len c => occl ⟨t.point r.start, t.dir r.dir⟩ len c) ⟨0, -10 ^ 6, 0⟩ n'
    (by simp [Vec.zero]) hn1 (by
      intro q hq
      have hq' : (q.1 - (Vec.zero : Vec ℝ).x) ^ 2 + (q.2 - (Vec.zero : Vec ℝ).z) ^ 2 <
        (2 * (angularDiam * 10 ^ 6 / 2) / 2) ^ 2 := hq
      have hz : (Vec.zero : Vec ℝ).x = 0 ∧ (Vec.zero : Vec ℝ).z = 0 := by simp [Vec.zero]
      rw [hz.1, hz.2] at hq' ⊢
      simp only [sub_zero] at hq' ⊢
      have hl : n'.x ^ 2 + n'.y ^ 2 + n'.z ^ 2 = 1 := by rw [← hn1]; simp only [Vec.len2]; ring
      have hcs : (q.1 * n'.x + q.2 * n'.z) ^ 2 ≤ (angularDiam * 10 ^ 6 / 2) ^ 2 := by
        have e : (q.1 * n'.x + q.2 * n'.z) ^ 2 = (q.1 ^ 2 + q.2 ^ 2) * (n'.x ^ 2 + n'.z ^ 2) -
          (q.1 * n'.z - q.2 * n'.x) ^ 2 := by ring
        have h3 : n'.x ^ 2 + n'.z ^ 2 ≤ 1 := by nlinarith [sq_nonneg n'.y]
        have h4 : (q.1 ^ 2 + q.2 ^ 2) * (n'.x ^ 2 + n'.z ^ 2) ≤ (q.1 ^ 2 + q.2 ^ 2) * 1 :=
          mul_le_mul_of_nonneg_left h3 (by positivity)
        have h5 : (2 * (angularDiam * 10 ^ 6 / 2) / 2) ^ 2 = (angularDiam * 10 ^ 6 / 2) ^ 2 := by ring
        nlinarith [sq_nonneg (q.1 * n'.z - q.2 * n'.x)]
      have habs := abs_le_of_sq_le_sq' hcs (by positivity)
      rw [hny]
      have : angularDiam * 10 ^ 6 / 2 ≤ (10 ^ 6 + lampOffset) * n.dot (sunDirection yaw pitch) := by
        have h6 : 0 ≤ n.dot (sunDirection yaw pitch) := by linarith
        nlinarith
      linarith [habs.1]) (by
      intro d len c
      obtain ⟨r', -, h⟩ := hs (t.dir d) len c
      exact ⟨r', False.elim, fun _ => by dsimp only; rw [hT]; exact h id⟩)
  refine ⟨fun uv => 4 / (angularDiam * angularDiam) * share uv, fun uv => ?_, ?_, ?_⟩
  · have := h0 uv; positivity
  · intro S rng ctx ctx' uv hg
    have e := h1 S rng ctx ctx' uv hg
    rw [← C77_moved t hrig disk obj, hT, hnn] at e
    rw [e]
    simp only [Color.mul, lit_real, Except.ok.injEq, Prod.mk.injEq, Color.mk.injEq, and_true]
    push_cast
    refine ⟨?_, ?_, ?_⟩ <;> ring
  · have hk : 0 < 4 / (angularDiam * angularDiam) := by positivity
    have e : ∀ uv, ENNReal.ofReal (4 / (angularDiam * angularDiam) * share uv) =
        ENNReal.ofReal (4 / (angularDiam * angularDiam)) * ENNReal.ofReal (share uv) :=
      fun uv => ENNReal.ofReal_mul hk.le
    simp only [e]
    rw [lintegral_const_mul' _ _ ENNReal.ofReal_ne_top, h2, ← ENNReal.ofReal_mul hk.le, hny]
    congr 1
    field_simp
    ring

/-- For a sun as wide as the real one (0.53 degrees) the factor is within 0.01% of 1. -/
example : (0.9999 : ℝ) < 1 / ((0.00926 : ℝ) ^ 2 / 4 + (1 + lampOffset / 10 ^ 6) ^ 2) := by
  unfold lampOffset; norm_num

/-- The sun in the zenith over level ground is above the horizon. -/
example : (0.00926 : ℝ) / 2 ≤ (⟨0, 1, 0⟩ : Vec ℝ).dot (sunDirection 1 (Real.pi / 2)) := by
  rw [sunDirection, C28_headings.2.2]
  have h := C28_axis Vec.ey axes_ne.2 1
  have hd : (Affine.yaw (1 : ℝ)).dir ⟨0, 1, 0⟩ = ⟨0, 1, 0⟩ := by
    have hp := C28_point Vec.zero Vec.ey 1 ⟨0, 1, 0⟩
    have h1 := C27_dir (Affine.yaw (1 : ℝ)) ⟨0, 1, 0⟩ Vec.zero
    have h0 : (⟨0, 1, 0⟩ : Vec ℝ).sub Vec.zero = ⟨0, 1, 0⟩ := by simp [geo]
    rw [h0, Affine.yaw, origin_fixed, hp, normalized_axes.2.1] at h1
    rw [Affine.yaw, h1]
    simp [rodrigues, geo]
  rw [hd]
  norm_num [Vec.dot]

/-- A lamp, a surface below it that is tilted, and no obstacles. -/
example (b : Color ℝ) (obj : Obj ℝ (Mat ℝ)) (s : Scene ℝ) (h : s.objects = []) :
    IsDiskLight (.planar 4 4 ⟨1, 3, 3⟩ (b.mul (4 * 4 * (GoFloat.pi / lit 4))) obj uniformDisk) b 4 ⟨1, 3, 3⟩ ∧
    (⟨3 / 5, 4 / 5, 0⟩ : Vec ℝ).len2 = 1 ∧ (⟨0, 0, 0⟩ : Vec ℝ).y < 3 + lampOffset ∧
    Stops s.occlude ⟨0, 0, 0⟩ fun _ _ => False :=
  ⟨⟨obj, rfl⟩, by norm_num [Vec.len2], by unfold lampOffset; norm_num, stops_nothing s h _⟩

end BR
