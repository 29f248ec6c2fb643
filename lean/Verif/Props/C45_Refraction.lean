import Verif.Model.Scene
import Verif.Num.Ext
import Verif.Lemmas.Refract
import Verif.Lemmas.GoM
import Verif.Props.C44_Reflection

/-!
C45: reflected and transmitted fractions lie in [0,1] and sum to 1, the refracted direction is a unit
vector obeying Snell's law, and total internal reflection occurs exactly beyond the critical angle.
-/

namespace BR

/-- The reflectance lies in [0,1], for positive indices and rays that are not exactly
tangential. -/
theorem C45_fraction (m₁ m₂ ci ct : ℝ) (h1 : 0 < m₁) (h2 : 0 < m₂) (hi : 0 < ci) (ht : 0 ≤ ct) :
    0 ≤ fresnelR m₁ m₂ ci ct ∧ fresnelR m₁ m₂ ci ct ≤ 1 := by
  have key : ∀ a b : ℝ, 0 ≤ a → 0 ≤ b → ((a - b) / (a + b)) ^ 2 ≤ 1 := by
    intro a b ha hb
    rw [div_pow]
    apply div_le_one_of_le₀
    · nlinarith [mul_nonneg ha hb]
    · positivity
  have k1 := key (m₁ * ci) (m₂ * ct) (by positivity) (by positivity)
  have k2 := key (m₁ * ct) (m₂ * ci) (by positivity) (by positivity)
  unfold fresnelR
  constructor
  · positivity
  · linarith

/-- What a refractive surface shows. Either the sine of the angle of incidence times `m₁/m₂` exceeds 1
and the surface is a perfect mirror; or it does not, and the surface shows `R` times the light field
along the mirror direction plus `1-R` times the light field along the refracted direction. There `R` is
Fresnel's reflectance, in [0,1], and the refracted direction `t` is a unit vector that points to the
other side and obeys Snell's law: it lies in the plane of incidence and `m₂ sin θt = m₁ sin θi`. -/
theorem C45_shade {S : Type} (rng : Rng ℝ S) (s : Scene ℝ) (lf : LF ℝ S) (n1 n2 : ℝ) (hn1 : 0 < n1)
    (hn2 : 0 < n2) (r : Ray ℝ) (h : HitCoords ℝ) (hu : h.normal.len2 = 1)
    (ht : r.dir.dot h.normal ≠ 0)     (ctx ctx' : Ctx ℝ S) (col : Color ℝ)
    (he : (Mat.refractive n1 n2).shade rng s lf r h ctx = .ok (col, ctx')) :
    ∃ I, IsIncidence n1 n2 r.dir h.normal I ∧
      ((I.m₁ * I.sinI > I.m₂ ∧ ∃ w ctx₁ ctx₂, IsMirror r.dir h.normal w ∧
          lf .direct ⟨r.at (h.t - tiny), w⟩ ctx₁ = .ok (col, ctx₂)) ∨
       (I.m₁ * I.sinI ≤ I.m₂ ∧ ∃ (R : ℝ) (t w : Vec ℝ) (cT cR : Color ℝ) (ctx₁ ctx₂ ctx₃ ctx₄ : Ctx ℝ S),
          0 ≤ R ∧ R ≤ 1 ∧ R = fresnelR I.m₁ I.m₂ (-I.i.dot I.n) (-t.dot I.n) ∧
          t.dot t = 1 ∧ t.dot I.n ≤ 0 ∧
          (I.tangential t).mul I.m₂ = (I.tangential I.i).mul I.m₁ ∧
          IsMirror I.i I.n w ∧
          lf .direct ⟨r.at (h.t + tiny), t⟩ ctx₁ = .ok (cT, ctx₂) ∧
          lf .direct ⟨r.at (h.t - tiny), w⟩ ctx₃ = .ok (cR, ctx₄) ∧
          col = ⟨R * cR.R + (1 - R) * cT.R, R * cR.G + (1 - R) * cT.G, R * cR.B + (1 - R) * cT.B⟩)) := by
  have hd : r.dir ≠ Vec.zero := by
    intro h0; rw [h0] at ht; simp [geo] at ht
  have hn0 : h.normal ≠ Vec.zero := by
    intro h0; rw [h0] at hu; simp only [geo, lit_real] at hu; norm_num at hu
  obtain ⟨I, hI, hg⟩ := refractGeom_spec n1 n2 r.dir h.normal hd hn0
  refine ⟨I, hI, ?_⟩
  have ht' := ht
  have hm : 0 < I.m₁ ∧ 0 < I.m₂ := by
    rcases le_or_gt (r.dir.dot h.normal) 0 with hc | hc
    · rw [(hI.outside hc).2.1, (hI.outside hc).2.2]; exact ⟨hn1, hn2⟩
    · rw [(hI.inside hc).2.1, (hI.inside hc).2.2]; exact ⟨hn2, hn1⟩
  obtain ⟨hm1, hm2⟩ := hm
  have hsq := sinI_sq I hI.i_unit hI.n_unit
  have hs0 := sinI_nonneg I
  have hsin : I.m₁ / I.m₂ * (I.m₁ / I.m₂) * (1 - (-I.i.dot I.n) * (-I.i.dot I.n))
      = (I.m₁ * I.sinI / I.m₂) ^ 2 := by
    have : (1 - (-I.i.dot I.n) * (-I.i.dot I.n)) = I.sinI ^ 2 := by rw [hsq]; ring
    rw [this]; ring
  rw [hsin] at hg
  have hq0 : 0 ≤ I.m₁ * I.sinI / I.m₂ := div_nonneg (mul_nonneg hm1.le hs0) hm2.le
  simp only [Mat.shade, shadeRefractive, hg] at he
  by_cases hc : 1 < (I.m₁ * I.sinI / I.m₂) ^ 2
  · left
    have h1 : 1 < I.m₁ * I.sinI / I.m₂ := by
      by_contra hcc
      exact absurd hc (not_lt.2 (pow_le_one₀ hq0 (not_lt.1 hcc)))
    rw [lt_div_iff₀ hm2, one_mul] at h1
    refine ⟨h1, ?_⟩
    rw [if_pos (by simpa using hc)] at he
    simp only [withRay] at he
    obtain ⟨⟨c2, k2⟩, e3, e4⟩ := bind_eq_ok.1 he
    have h4 := Prod.mk.inj (Except.ok.inj e4)
    exact ⟨_, _, k2, C44_mirror _ _ hu, by rw [← h4.1]; exact e3⟩
  · right
    have h1 : I.m₁ * I.sinI / I.m₂ ≤ 1 := by
      by_contra hcc
      exact hc (one_lt_pow₀ (not_le.1 hcc) two_ne_zero)
    have h1' := h1
    rw [div_le_iff₀ hm2, one_mul] at h1
    refine ⟨h1, ?_⟩
    rw [if_neg (by simpa using hc)] at he
    generalize hq : I.m₁ * I.sinI / I.m₂ = q at *
    obtain ⟨⟨cT, k2⟩, e3, e4⟩ := bind_eq_ok.1 he
    obtain ⟨⟨cR, k4⟩, e5, e6⟩ := bind_eq_ok.1 e4
    have h6 := Prod.mk.inj (Except.ok.inj e6)
    obtain ⟨htn, htt, htan, hR⟩ := refract_snell I hI.i_unit hI.n_unit hm2 hq.symm (not_lt.1 hc)
    set t := refractDir (I.m₁ / I.m₂) (-I.i.dot I.n) (q ^ 2) I.i I.n with ht
    have hci : 0 < -I.i.dot I.n := by
      have hne : I.i.dot I.n ≠ 0 := by
        obtain ⟨k, hk0, hki⟩ := hI.i_dir
        have : ∃ l ≠ 0, I.n = h.normal.mul l := by
          rcases le_or_gt (r.dir.dot h.normal) 0 with hc | hc
          · obtain ⟨l, hl, e⟩ := (hI.outside hc).1; exact ⟨l, hl.ne', e⟩
          · obtain ⟨l, hl, e⟩ := (hI.inside hc).1; exact ⟨l, hl.ne, e⟩
        obtain ⟨l, hl0, hln⟩ := this
        have : I.i.dot I.n = k * l * r.dir.dot h.normal := by rw [hki, hln]; simp only [geo]; ring
        rw [this]
        exact mul_ne_zero (mul_ne_zero hk0.ne' hl0) ht'
      have := lt_of_le_of_ne hI.side hne
      linarith
    have hfr := C45_fraction I.m₁ I.m₂ (-I.i.dot I.n) (-t.dot I.n) hm1 hm2 hci
      (by rw [htn, neg_neg]; exact Real.sqrt_nonneg _)
    refine ⟨_, t, _, cT, cR, _, k2, _, k4, hfr.1, hfr.2, rfl, htt, ?_, htan, C44_mirror _ _ hI.n_unit, e3, e5, ?_⟩
    · rw [htn]; have : 0 ≤ Real.sqrt (1 - q ^ 2) := Real.sqrt_nonneg _; linarith
    · rw [← h6.1, ← hR]
      simp [Color.add, Color.mul]

/-- `ReflectFresnel` of index at least 1: the weights of reflection and of the material below are
Fresnel's reflectance for the angle of incidence, in [0,1], and its complement. -/
theorem C45_varnish {S : Type} (rng : Rng ℝ S) (s : Scene ℝ) (lf : LF ℝ S) (n : ℝ) (hn : 1 ≤ n)
    (under : Mat ℝ) (r : Ray ℝ) (h : HitCoords ℝ) (hd : r.dir.len2 = 1) (hu : h.normal.len2 = 1)
    (hnt : h.normal.dot r.dir ≠ 0) (ctx ctx' : Ctx ℝ S) (col : Color ℝ)
    (he : (Mat.reflectFresnel n under).shade rng s lf r h ctx = .ok (col, ctx')) :
    ∃ (R ci ct : ℝ) (w : Vec ℝ) (cT cR : Color ℝ) (ctx₁ ctx₂ ctx₃ : Ctx ℝ S),
      ci = |h.normal.dot r.dir| ∧ 0 ≤ ct ∧ 1 - ci ^ 2 = n ^ 2 * (1 - ct ^ 2) ∧
      R = fresnelR 1 n ci ct ∧ 0 ≤ R ∧ R ≤ 1 ∧ IsMirror r.dir h.normal w ∧
      under.shade rng s lf r h ctx₁ = .ok (cT, ctx₂) ∧
      lf .direct ⟨r.at (h.t - tiny), w⟩ ctx₂ = .ok (cR, ctx₃) ∧
      col = ⟨R * cR.R + (1 - R) * cT.R, R * cR.G + (1 - R) * cT.G, R * cR.B + (1 - R) * cT.B⟩ := by
  simp only [Mat.shade] at he
  obtain ⟨⟨cT, k2⟩, e3, e4⟩ := bind_eq_ok.1 he
  obtain ⟨⟨cR, k4⟩, e5, e6⟩ := bind_eq_ok.1 e4
  have h6 := Prod.mk.inj (Except.ok.inj e6)
  have hn0 : 0 < n := by linarith
  set ci := |h.normal.dot r.dir| with hci
  have hci0 : 0 < ci := abs_pos.2 hnt
  have hci1 : ci ^ 2 ≤ 1 := by
    rw [hci, sq_abs]
    simp only [geo] at hd hu ⊢
    nlinarith [sq_nonneg (h.normal.x * r.dir.y - h.normal.y * r.dir.x),
      sq_nonneg (h.normal.y * r.dir.z - h.normal.z * r.dir.y),
      sq_nonneg (h.normal.z * r.dir.x - h.normal.x * r.dir.z), mul_self_nonneg (h.normal.x)]
  have hn2 : 1 ≤ n ^ 2 := one_le_pow₀ hn
  have hq : 0 ≤ 1 - (1 - ci ^ 2) / n ^ 2 := by
    rw [sub_nonneg, div_le_one (by positivity)]
    have := sq_nonneg ci; linarith
  have hsq := Real.sq_sqrt hq
  set ct := Real.sqrt (1 - (1 - ci ^ 2) / n ^ 2) with hct
  have hct0 : 0 ≤ ct := Real.sqrt_nonneg _
  have hfr := C45_fraction 1 n ci ct one_pos hn0 hci0 hct0
  have hR : fresnelReflection 1 n ci = fresnelR 1 n ci ct := by
    have : (1 : ℝ) - 1 / n * (1 / n) * (1 - ci * ci) = 1 - (1 - ci ^ 2) / n ^ 2 := by
      field_simp
    simp only [fresnelReflection, fresnelR, lit_real, sqrt_real, sqr]
    push_cast
    rw [this, ← hct]
    ring
  refine ⟨_, ci, ct, _, cT, cR, _, k2, k4, rfl, hct0, ?_, rfl, hfr.1, hfr.2, C44_mirror _ _ hu, e3, e5, ?_⟩
  · rw [hsq]; field_simp; ring
  · rw [← h6.1, ← hR]
    simp [Color.madd, Color.mul]
    refine ⟨?_, ?_, ?_⟩ <;> rfl

/-- Light that crosses the interface along the reversed path sees the same reflectance. -/
theorem C45_reversible (m₁ m₂ ci ct : ℝ) : fresnelR m₂ m₁ ct ci = fresnelR m₁ m₂ ci ct := by
  unfold fresnelR
  rw [show m₂ * ct - m₁ * ci = -(m₁ * ci - m₂ * ct) by ring, show m₂ * ct + m₁ * ci = m₁ * ci + m₂ * ct by ring,
    show m₂ * ci - m₁ * ct = -(m₁ * ct - m₂ * ci) by ring, show m₂ * ci + m₁ * ct = m₁ * ct + m₂ * ci by ring,
    neg_div, neg_div, neg_sq, neg_sq]

/-- Glass seen head-on reflects 4%. -/
example : fresnelR 1 (3 / 2) 1 1 = 1 / 25 := by norm_num [fresnelR]

/-- The hypotheses of `C45_shade` hold for a ray falling on glass. -/
example : (⟨3, -4, 0⟩ : Vec ℝ) ≠ Vec.zero ∧ (⟨0, 1, 0⟩ : Vec ℝ).len2 = 1 ∧
    (⟨3, -4, 0⟩ : Vec ℝ).dot ⟨0, 1, 0⟩ ≠ 0 := by
  refine ⟨?_, ?_, ?_⟩
  · simp [geo]
  · norm_num [Vec.len2]
  · norm_num [Vec.dot]

/-- `ReflectFresnel` with an index below 1 has no reflectance beyond the critical angle: the program
takes the square root of a negative number and gets NaN. -/
theorem C45_violated_thin :
    fresnelReflection (Ext.fin 1) (Ext.fin (1 / 2)) (Ext.fin 0) = Ext.nan := by
  have e : GoFloat.sqrt (Ext.num (-3) false : Ext) = Ext.nan := by
    change (if (-3 : ℝ) < 0 then Ext.nan else _) = _
    rw [if_pos (by norm_num)]
  have e' : GoFloat.sqrt (Ext.num (-3) true : Ext) = Ext.nan := by
    change (if (-3 : ℝ) < 0 then Ext.nan else _) = _
    rw [if_pos (by norm_num)]
  simp only [fresnelReflection, Ext.fin, Ext.lit_ext]
  norm_num [Ext.num_div_num, Ext.num_mul_num, Ext.num_sub_num, Ext.sgn, e, e', sqr]

/-- Between equal media, a ray that is exactly tangential gives NaN. -/
theorem C45_violated_tangential :
    refractR (Ext.fin 1) (Ext.fin 1) (Ext.fin 0) (Ext.fin 1) = Ext.nan := by
  have e : ∀ b, GoFloat.sqrt (Ext.num 0 b : Ext) = Ext.num 0 b := by
    intro b
    change (if (0 : ℝ) < 0 then Ext.nan else Ext.num (Real.sqrt 0) b) = _
    simp
  simp only [refractR, Ext.fin, Ext.lit_ext]
  norm_num [Ext.num_div_zero, Ext.num_mul_num, Ext.num_sub_num, Ext.num_add_num, Ext.sgn, e, sqr]

end BR
