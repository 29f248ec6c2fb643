import Verif.Props.C46_Sampling
import Verif.Model.Scene
import Verif.Lemmas.GoM

/-!
C50: light sample positions lie on the light, intensities are non-negative, inverse square, and zero behind
one-sided lights.
-/

namespace BR

/-- Points of a horizontal `w` by `h` rectangle around `c`. -/
def OnRectangle (w h : ℝ) (c p : Vec ℝ) : Prop :=
  |p.x - c.x| ≤ w / 2 ∧ |p.z - c.z| ≤ h / 2 ∧ p.y = c.y

/-- Points of a horizontal disk around `c`. -/
def OnDisk (diam : ℝ) (c p : Vec ℝ) : Prop :=
  (p.x - c.x) ^ 2 + (p.z - c.z) ^ 2 ≤ (diam / 2) ^ 2 ∧ p.y = c.y

/-- The point directly below `p` by `Tiny`. -/
noncomputable def belowTiny (p : Vec ℝ) : Vec ℝ := ⟨p.x, p.y - 1 / (1204 * 1024), p.z⟩

/-- What a surface element at `p` facing down, of emitted power `pow`, sends to `target`: the cosine law and the
inverse square law. -/
noncomputable def lambert (p target : Vec ℝ) : ℝ :=
  let d := (target.sub p).len
  (1 / Real.pi) * (1 / d ^ 2) * max 0 ((p.y - target.y) / d)

/-- The planar lights of the library, for any `Object()`. -/
def IsRectangleLight {F : Type} [Mul F] [Div F] [Sub F] [GoFloat F] (L : Light F) (b : Color F) (w h : F)
    (c : Vec F) : Prop :=
  ∃ obj, L = .planar w h c (b.mul (w * h * lit 1)) obj Light.transfRect

@[inherit_doc IsRectangleLight]
def IsDiskLight {F : Type} [Mul F] [Div F] [Sub F] [GoFloat F] (L : Light F) (b : Color F) (diam : F)
    (c : Vec F) : Prop :=
  ∃ obj, L = .planar diam diam c (b.mul (diam * diam * (GoFloat.pi / lit 4))) obj uniformDisk

section
variable {F : Type} [Add F] [Sub F] [Mul F] [Div F] [Neg F] [GoFloat F]

/-- The constructors `RectangleLight` and `DiskLight` return such lights, in any arithmetic. -/
theorem C50_constructors (Srt : Sorter (Obj F (Mat F))) (b : Color F) (w h diam : F) (c : Vec F)
    (L : Light F) :
    (Light.rectangleLight Srt b w h c = .ok L → IsRectangleLight L b w h c) ∧
    (Light.diskLight Srt b diam c = .ok L → IsDiskLight L b diam c) := by
  constructor
  · intro e
    obtain ⟨rect, -, e⟩ := bind_eq_ok.1 e
    cases e
    exact ⟨_, rfl⟩
  · intro e
    obtain ⟨rect, -, e⟩ := bind_eq_ok.1 e
    cases e
    exact ⟨_, rfl⟩

end

private theorem len_pos {a : Vec ℝ} (h : a ≠ Vec.zero) : 0 < a.len ∧ a.len ^ 2 = a.len2 := by
  have h0 : 0 < a.len2 := by
    by_contra hc
    apply h
    have : a.x * a.x + a.y * a.y + a.z * a.z ≤ 0 := not_lt.1 hc
    have hx := mul_self_nonneg a.x
    have hy := mul_self_nonneg a.y
    have hz := mul_self_nonneg a.z
    ext
    · simpa [Vec.zero] using mul_self_eq_zero.1 (by linarith : a.x * a.x = 0)
    · simpa [Vec.zero] using mul_self_eq_zero.1 (by linarith : a.y * a.y = 0)
    · simpa [Vec.zero] using mul_self_eq_zero.1 (by linarith : a.z * a.z = 0)
  exact ⟨Real.sqrt_pos.2 h0, Real.sq_sqrt h0.le⟩

private theorem sub_ne {target p : Vec ℝ} (h : target ≠ p) : target.sub p ≠ Vec.zero := by
  intro e
  apply h
  simp only [geo, lit_real] at e
  push_cast at e
  ext <;> linarith [e.1, e.2.1, e.2.2]

theorem planar_intensity (target p : Vec ℝ) (h : target ≠ p) :
    Light.planarIntensity target p = lambert p target := by
  have hne := sub_ne h
  obtain ⟨hl, hl2⟩ := len_pos hne
  have hn : (⟨lit 0, lit (-1), lit 0⟩ : Vec ℝ).dot (target.sub p).normalized = (p.y - target.y) / (target.sub p).len := by
    have hlen : (target.sub p).len = Real.sqrt (target.sub p).len2 := rfl
    rw [hlen]
    simp only [Vec.normalized, Vec.dot, Vec.sub, Vec.len2, lit_real, sqrt_real]
    push_cast
    ring
  simp only [Light.planarIntensity]
  rw [hn]
  simp only [lt_real, lit_real, pi_real, ← hl2, decide_eq_true_eq]
  push_cast
  simp only [lambert]
  generalize (target.sub p).len = d at *
  have hp := Real.pi_pos
  have hk : 0 < 1 / Real.pi / d ^ 2 := by positivity
  split_ifs with hi
  · have : (p.y - target.y) / d < 0 := by
      by_contra hc
      exact absurd hi (not_lt.2 (mul_nonneg hk.le (not_lt.1 hc)))
    rw [max_eq_left this.le, mul_zero]
  · have : 0 ≤ (p.y - target.y) / d := by
      by_contra hc
      exact hi (mul_neg_of_pos_of_neg hk (not_le.1 hc))
    rw [max_eq_right this]
    ring

variable {S : Type}

/-- Rectangle light. Up to an upward offset of `Tiny` (about a micrometre), the sample is on the light; the
intensity follows the cosine and inverse square laws for the light's total power. -/
theorem C50_rectangle_partial (rng : Rng ℝ S) (L : Light ℝ) (b : Color ℝ) (w h : ℝ) (c : Vec ℝ)
    (hL : IsRectangleLight L b w h c) (hw : 0 ≤ w) (hh : 0 ≤ h) (target : Vec ℝ) (ctx ctx₁ : Ctx ℝ S)
    (u v : ℝ) (hg : ctx.generate2 rng = .ok ((u, v), ctx₁)) (hu0 : 0 ≤ u) (hu1 : u < 1) (hv0 : 0 ≤ v)
    (hv1 : v < 1) :
    ∃ p I, L.sample rng target ctx = .ok ((p, I), ctx₁) ∧ OnRectangle w h c (belowTiny p) ∧
      (target ≠ p → I = b.mul (w * h * lambert p target)) := by
  obtain ⟨obj, rfl⟩ := hL
  refine ⟨_, _, by simp only [Light.sample, hg, ok_bind]; rfl, ?_, ?_⟩
  · simp only [OnRectangle, belowTiny, Light.samplePos, Light.transfRect, Vec.add, lit_real, tiny, abs_le]
    push_cast
    refine ⟨⟨?_, ?_⟩, ⟨?_, ?_⟩, ?_⟩
    · nlinarith
    · nlinarith
    · nlinarith
    · nlinarith
    · ring
  · intro hne
    rw [planar_intensity _ _ hne]
    simp only [Color.mul, lit_real, Color.ext_iff]
    push_cast
    refine ⟨?_, ?_, ?_⟩ <;> ring

/-- Disk light; the power is that of the disk's area `π diam²/4`. -/
theorem C50_disk_partial (rng : Rng ℝ S) (L : Light ℝ) (b : Color ℝ) (diam : ℝ) (c : Vec ℝ)
    (hL : IsDiskLight L b diam c) (target : Vec ℝ) (ctx ctx₁ : Ctx ℝ S)
    (u v : ℝ) (hg : ctx.generate2 rng = .ok ((u, v), ctx₁)) (hv0 : 0 ≤ v)
    (hv1 : v < 1) :
    ∃ p I, L.sample rng target ctx = .ok ((p, I), ctx₁) ∧ OnDisk diam c (belowTiny p) ∧
      (target ≠ p → I = b.mul (Real.pi * diam ^ 2 / 4 * lambert p target)) := by
  obtain ⟨obj, rfl⟩ := hL
  refine ⟨_, _, by simp only [Light.sample, hg, ok_bind]; rfl, ?_, ?_⟩
  · have h := (C46_disk u v hv0 hv1.le).1
    simp only [OnDisk, belowTiny, Light.samplePos, Vec.add, lit_real, tiny]
    push_cast
    refine ⟨?_, by ring⟩
    have e : (1 / 2 * (uniformDisk u v).1 * diam + c.x - c.x) ^ 2 + (1 / 2 * (uniformDisk u v).2 * diam + c.z - c.z) ^ 2
        = (diam / 2) ^ 2 * ((uniformDisk u v).1 ^ 2 + (uniformDisk u v).2 ^ 2) := by ring
    rw [e]
    nlinarith [sq_nonneg (diam / 2)]
  · intro hne
    rw [planar_intensity _ _ hne]
    simp only [Color.mul, lit_real, pi_real, Color.ext_iff]
    push_cast
    refine ⟨?_, ?_, ?_⟩ <;> ring

/-- Every point of the rectangle (without its far edges) is the sample of some random pair. -/
theorem C50_rectangle_onto (w h : ℝ) (c q : Vec ℝ) (hw : 0 < w) (hh : 0 < h) (hq : OnRectangle w h c q)
    (hx : q.x < c.x + w / 2) (hz : q.z < c.z + h / 2) :
    ∃ u v : ℝ, 0 ≤ u ∧ u < 1 ∧ 0 ≤ v ∧ v < 1 ∧
      belowTiny (Light.samplePos w h c Light.transfRect (u, v)) = q := by
  obtain ⟨h1, h2, h3⟩ := hq
  rw [abs_le] at h1 h2
  refine ⟨(q.x - c.x) / w + 1 / 2, (q.z - c.z) / h + 1 / 2, ?_, ?_, ?_, ?_, ?_⟩
  · have : -(1 / 2) ≤ (q.x - c.x) / w := by rw [le_div_iff₀ hw]; linarith
    linarith
  · have : (q.x - c.x) / w < 1 / 2 := by rw [div_lt_iff₀ hw]; linarith
    linarith
  · have : -(1 / 2) ≤ (q.z - c.z) / h := by rw [le_div_iff₀ hh]; linarith
    linarith
  · have : (q.z - c.z) / h < 1 / 2 := by rw [div_lt_iff₀ hh]; linarith
    linarith
  · simp only [belowTiny, Light.samplePos, Light.transfRect, Vec.add, lit_real, tiny, Vec.ext_iff]
    push_cast
    refine ⟨?_, by rw [h3]; ring, ?_⟩
    · field_simp; ring
    · field_simp; ring

/-- Every point of the disk is the sample of some pair of the (closed) unit square. -/
theorem C50_disk_onto (diam : ℝ) (c q : Vec ℝ) (hd : 0 < diam) (hq : OnDisk diam c q) :
    ∃ u v : ℝ, 0 ≤ u ∧ u < 1 ∧ 0 ≤ v ∧ v ≤ 1 ∧
      belowTiny (Light.samplePos diam diam c uniformDisk (u, v)) = q := by
  obtain ⟨h1, h2⟩ := hq
  obtain ⟨u, v, hu0, hu1, hv0, hv1, e⟩ := C46_disk_onto (2 * (q.x - c.x) / diam) (2 * (q.z - c.z) / diam) (by
    rw [div_pow, div_pow, ← add_div, div_le_one (by positivity)]
    nlinarith)
  refine ⟨u, v, hu0, hu1, hv0, hv1, ?_⟩
  simp only [belowTiny, Light.samplePos, Vec.add, lit_real, tiny, e, Vec.ext_iff]
  push_cast
  refine ⟨?_, by rw [h2]; ring, ?_⟩
  · field_simp; ring
  · field_simp; ring

/-- The intensity law: non-negative; nothing at or above the sample (behind the light); doubling the distance
along the same direction divides it by four. -/
theorem C50_lambert (p target : Vec ℝ) (h : target ≠ p) :
    0 ≤ lambert p target ∧ (p.y ≤ target.y → lambert p target = 0) ∧
    (target.y < p.y → 0 < lambert p target) ∧
    ∀ k : ℝ, 0 < k → lambert p (p.add ((target.sub p).mul k)) = lambert p target / k ^ 2 := by
  obtain ⟨hl, hl2⟩ := len_pos (sub_ne h)
  have hp := Real.pi_pos
  refine ⟨?_, ?_, ?_, ?_⟩
  · simp only [lambert]; positivity
  · intro hy
    simp only [lambert]
    rw [max_eq_left (div_nonpos_of_nonpos_of_nonneg (by linarith) hl.le), mul_zero]
  · intro hy
    simp only [lambert]
    have : 0 < (p.y - target.y) / (target.sub p).len := div_pos (by linarith) hl
    rw [max_eq_right this.le]
    positivity
  · intro k hk
    have hlen : ((p.add ((target.sub p).mul k)).sub p).len = k * (target.sub p).len := by
      have e1 : ((p.add ((target.sub p).mul k)).sub p).len2 = k ^ 2 * (target.sub p).len2 := by
        simp only [geo]; ring
      change Real.sqrt ((p.add ((target.sub p).mul k)).sub p).len2 = k * Real.sqrt (target.sub p).len2
      rw [e1, Real.sqrt_mul (by positivity), Real.sqrt_sq hk.le]
    have hy : p.y - (p.add ((target.sub p).mul k)).y = k * (p.y - target.y) := by
      simp only [geo]; ring
    simp only [lambert, hlen, hy]
    rw [mul_div_mul_left _ _ hk.ne']
    generalize (target.sub p).len = d at *
    field_simp

/-- Point light: samples are at its position, with the inverse square law: the total power spread over the
sphere through the target. -/
theorem C50_point (rng : Rng ℝ S) (pos : Vec ℝ) (power : Color ℝ) (target : Vec ℝ) (ctx : Ctx ℝ S)
    (h : target ≠ pos) :
    (Light.point pos power).sample rng target ctx =
      .ok ((pos, power.mul (1 / (4 * Real.pi * (target.sub pos).len ^ 2))), ctx) ∧
    0 < 1 / (4 * Real.pi * (target.sub pos).len ^ 2) := by
  obtain ⟨hl, hl2⟩ := len_pos (sub_ne h)
  have hp := Real.pi_pos
  refine ⟨?_, by positivity⟩
  have : Light.pointIntensity target pos = 1 / (4 * Real.pi * (target.sub pos).len ^ 2) := by
    simp only [Light.pointIntensity, lit_real, pi_real, ← hl2]
    push_cast
    field_simp
  simp only [Light.sample, this]

/-- Violation: samples of planar lights are never exactly on the light, and a target just behind the light (above
it by less than `Tiny`) receives light. -/
theorem C50_violated_offset (rng : Rng ℝ S) (b : Color ℝ) (w h : ℝ) (c : Vec ℝ)
    (obj : Obj ℝ (Mat ℝ)) (ts : ℝ → ℝ → ℝ × ℝ) (target : Vec ℝ) (ctx ctx₁ : Ctx ℝ S) (p : Vec ℝ)
    (I : Color ℝ) (e : (Light.planar w h c b obj ts).sample rng target ctx = .ok ((p, I), ctx₁)) :
    p.y = c.y + 1 / (1204 * 1024) ∧
    (0 < b.R → c.y < target.y → target.y < c.y + 1 / (1204 * 1024) → 0 < I.R) := by
  simp only [Light.sample] at e
  obtain ⟨⟨uv, k⟩, -, e⟩ := bind_eq_ok.1 e
  have h1 := Prod.mk.inj (Prod.mk.inj (Except.ok.inj e)).1
  have hy : p.y = c.y + 1 / (1204 * 1024) := by
    rw [← h1.1]
    simp only [Light.samplePos, Vec.add, tiny, lit_real]
    push_cast
    ring
  refine ⟨hy, fun hb h2 h3 => ?_⟩
  have hne : target ≠ p := by rintro rfl; linarith
  have := (C50_lambert p target hne).2.2.1 (by linarith)
  rw [← planar_intensity _ _ hne] at this
  rw [← h1.2, h1.1]
  exact mul_pos this hb

/-- A 2 by 1 light two units above the target, sampled at its centre: intensity (1/π)/4. -/
example : lambert ⟨0, 2, 0⟩ (⟨0, 0, 0⟩ : Vec ℝ) = 1 / Real.pi / 4 := by
  have : (⟨0 - 0, 0 - 2, 0 - 0⟩ : Vec ℝ).len = 2 := by
    change Real.sqrt (_ * _ + _ * _ + _ * _) = 2
    rw [show ((0:ℝ) - 0) * (0 - 0) + (0 - 2) * (0 - 2) + (0 - 0) * (0 - 0) = 2 ^ 2 by norm_num]
    exact Real.sqrt_sq (by norm_num)
  simp only [lambert, Vec.sub, this]
  norm_num
  ring

end BR
