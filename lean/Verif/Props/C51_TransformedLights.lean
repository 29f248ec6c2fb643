import Verif.Props.C27_Affine
import Verif.Props.C50_Lights
import Verif.Lemmas.ExtBox

/-!
C51: any light can be transformed; its samples are the transformed samples of the original.
-/

namespace BR

section
variable {F S : Type} [Add F] [Sub F] [Mul F] [Div F] [Neg F] [GoFloat F]

/-- A transformed light asks the original for a sample towards the target in the light's own coordinates, and returns
that sample's position transformed, with unchanged intensity (any arithmetic). -/
theorem C51_sample (rng : Rng F S) (l L : Light F) (t : Affine F) (h : l.mkTransformed t = .ok L)
    (target : Vec F) (ctx : Ctx F S) :
    L.sample rng target ctx =
      (l.sample rng (t.inverse.point target) ctx).map
        (fun s => ((t.point s.1.1, s.1.2), s.2)) := by
  have hL : ∃ o, L = .transformed t t.inverse l o := by
    cases l with
    | point => cases h
    | planar =>
      obtain ⟨o, -, e⟩ := bind_eq_ok.1 h
      exact ⟨o, (Except.ok.inj e).symm⟩
    | transformed =>
      obtain ⟨o, -, e⟩ := bind_eq_ok.1 h
      exact ⟨o, (Except.ok.inj e).symm⟩
  obtain ⟨o, rfl⟩ := hL
  simp only [Light.sample]
  cases Light.sample rng l (t.inverse.point target) ctx with
  | error e => rfl
  | ok s => rfl

/-- Violation: no point light can be transformed. `Transformed` panics for every transform. -/
theorem C51_violated_point (pos : Vec F) (power : Color F) (t : Affine F) :
    (Light.point pos power).mkTransformed t = .error .typeAssertion := rfl

end

/-- For an invertible transform: the sample towards a transformed point is the transformed sample towards the
point. -/
theorem C51_image {S : Type} (rng : Rng ℝ S) (l L : Light ℝ) (t : Affine ℝ) (ht : t.A.det ≠ 0)
    (h : l.mkTransformed t = .ok L) (q p : Vec ℝ) (I : Color ℝ) (ctx ctx' : Ctx ℝ S)
    (hs : l.sample rng q ctx = .ok ((p, I), ctx')) :
    L.sample rng (t.point q) ctx = .ok ((t.point p, I), ctx') := by
  rw [C51_sample rng l L t h, (C27_inverse_point t ht q).1, hs]
  rfl

/-- The emitting material of planar lights. -/
private noncomputable def lightMat (b : Color Ext) : Mat Ext :=
  .twoSided (.flat b.tex) (.flat (⟨lit 0, lit 0, lit 0⟩ : Color Ext).tex)

private theorem rect_fin (Srt : Sorter (Obj Ext (Mat Ext))) (m : Option (Mat Ext)) (w h : Ext) (c : Vec Ext)
    (hw : w.IsFin) (hh : h.IsFin) (hc : c.IsFin) :
    ∃ o bb, rectangle Srt m w h c = .ok (.withMaterial m o) ∧ o.bounds = .ok bb ∧ bb.IsFin := by
  have e0 : (lit 0 : Ext).IsFin := Ext.IsFin.lit 0
  have v1 : ((⟨-w / lit 2, lit 0, -h / lit 2⟩ : Vec Ext).add c).IsFin :=
    Vec.IsFin.add ⟨hw.neg.half, e0, hh.neg.half⟩ hc
  have v2 : ((⟨-w / lit 2, lit 0, h / lit 2⟩ : Vec Ext).add c).IsFin :=
    Vec.IsFin.add ⟨hw.neg.half, e0, hh.half⟩ hc
  have v3 : ((⟨w / lit 2, lit 0, -h / lit 2⟩ : Vec Ext).add c).IsFin :=
    Vec.IsFin.add ⟨hw.half, e0, hh.neg.half⟩ hc
  exact quad_fin Srt m _ _ _ _ v1 v2 (v2.add (v3.sub v1)) v3

/-- Every rectangle light of finite size and position can be transformed by every finite transform. -/
theorem C51_rectangle_partial (Srt : Sorter (Obj Ext (Mat Ext))) (b : Color Ext) (w h : Ext) (c : Vec Ext)
    (t : Affine Ext) (hw : w.IsFin) (hh : h.IsFin) (hc : c.IsFin) (ht : t.IsFin) :
    ∃ l L, Light.rectangleLight Srt b w h c = .ok l ∧ l.mkTransformed t = .ok L := by
  obtain ⟨o, bb, e1, e2, e3⟩ := rect_fin Srt (some (lightMat b)) w h c hw hh hc
  obtain ⟨⟨h1, h2, h3⟩, h4, h5, h6⟩ := e3
  obtain ⟨b', hb', -⟩ := BBox.transform_fin bb t ⟨⟨h1, h2, h3⟩, h4, h5, h6⟩ ht
  refine ⟨.planar w h c (b.mul (w * h * lit 1)) (.restrict (.withMaterial (some (lightMat b)) o) .allSpace)
    Light.transfRect, ?_⟩
  rw [exists_and_left]
  constructor
  · simp only [Light.rectangleLight, Light.mkPlanar]
    change (rectangle Srt (some (lightMat b)) w h c >>= _) = _
    rw [e1]
    rfl
  · simp only [Light.mkTransformed, Light.object, Obj.mkTransformed, Obj.bounds, e2, ok_bind, pure_bind']
    have hi : bb.inter BBox.infBox = bb := by
      simp only [BBox.inter, BBox.infBox, h1.fmax_inf, h2.fmax_inf, h3.fmax_inf, h4.fmin_inf, h5.fmin_inf, h6.fmin_inf]
    rw [hi, hb']
    exact ⟨_, rfl⟩

/-- The same for disk lights (whose object is clipped by an infinitely high cylinder), hence for the sun light. -/
theorem C51_disk_partial (Srt : Sorter (Obj Ext (Mat Ext))) (b : Color Ext) (d : Ext) (c : Vec Ext)
    (t : Affine Ext) (hd : d.IsFin) (hc : c.IsFin) (ht : t.IsFin) :
    ∃ l L, Light.diskLight Srt b d c = .ok l ∧ l.mkTransformed t = .ok L := by
  obtain ⟨o, bb, e1, e2, e3⟩ := rect_fin Srt (some (lightMat b)) d d c hd hd hc
  obtain ⟨⟨h1, h2, h3⟩, h4, h5, h6⟩ := e3
  have htiny : (tiny : Ext).IsFin := Ext.IsFin.lit _
  obtain ⟨c1, ⟨y, σ, hy⟩, c3⟩ := hc
  have hcyl : ∃ k : BBox Ext, (Obj.cylinder (M := Mat Ext) none d GoFloat.inf c).bounds = .ok k ∧ (bb.inter k).IsFin := by
    refine ⟨_, rfl, ?_⟩
    simp only [Obj.cylinderQ, BBox.withMargin, BBox.translated, BBox.inter, Vec.add]
    have i1 : (-GoFloat.inf / lit 2 + c.y + -tiny : Ext) = -GoFloat.inf := by
      rw [hy]; simp [tiny, Ext.sgn, Ext.neg_num]
    have i2 : (GoFloat.inf / lit 2 + c.y + tiny : Ext) = GoFloat.inf := by
      rw [hy]; simp [tiny, Ext.sgn]
    rw [i1, i2, h2.fmax_inf, h5.fmin_inf]
    exact ⟨⟨h1.fmax ((hd.half.neg.add c1).add htiny.neg), h2, h3.fmax ((hd.half.neg.add c3).add htiny.neg)⟩,
      h4.fmin ((hd.half.add c1).add htiny), h5, h6.fmin ((hd.half.add c3).add htiny)⟩
  obtain ⟨k, hk, hkf⟩ := hcyl
  obtain ⟨b', hb', -⟩ := BBox.transform_fin _ t hkf ht
  refine ⟨.planar d d c (b.mul (d * d * (GoFloat.pi / lit 4)))
    (.restrict (.withMaterial (some (lightMat b)) o) (Obj.cylinder none d GoFloat.inf c))
    uniformDisk, ?_⟩
  rw [exists_and_left]
  constructor
  · simp only [Light.diskLight, Light.mkPlanar]
    change (rectangle Srt (some (lightMat b)) d d c >>= _) = _
    rw [e1]
    rfl
  · simp only [Light.mkTransformed, Light.object, Obj.mkTransformed]
    rw [Obj.bounds, Obj.bounds, e2, ok_bind, hk, ok_bind, pure_bind', hb']
    exact ⟨_, rfl⟩

/-- A transformed light is seen where its body is when that is transformed in the same way (any arithmetic; what becomes
of transformed bodies is C29). -/
theorem C51_seen {F : Type} [Add F] [Sub F] [Mul F] [Div F] [Neg F] [GoFloat F] (l L : Light F) (t : Affine F)
    (h : l.mkTransformed t = .ok L) : l.object.mkTransformed t = .ok L.object := by
  cases l with
  | point => cases h
  | planar =>
    obtain ⟨o, e1, e⟩ := bind_eq_ok.1 h
    rw [← Except.ok.inj e]
    exact e1
  | transformed =>
    obtain ⟨o, e1, e⟩ := bind_eq_ok.1 h
    rw [← Except.ok.inj e]
    exact e1

/-- A square light of size 2 is turned upside down and moved up by 1. -/
example (Srt : Sorter (Obj Ext (Mat Ext))) : ∃ l L,
    Light.rectangleLight Srt ⟨lit 1, lit 1, lit 1⟩ (lit 2) (lit 2) ⟨lit 0, lit 0, lit 0⟩ = .ok l ∧
    l.mkTransformed ⟨⟨⟨lit 1, lit 0, lit 0⟩, ⟨lit 0, lit (-1), lit 0⟩, ⟨lit 0, lit 0, lit (-1)⟩⟩, ⟨lit 0, lit 1, lit 0⟩⟩ = .ok L :=
  C51_rectangle_partial Srt _ _ _ _ _ (.lit 2) (.lit 2) ⟨.lit 0, .lit 0, .lit 0⟩
    ⟨⟨⟨.lit 1, .lit 0, .lit 0⟩, ⟨.lit 0, .lit (-1), .lit 0⟩, .lit 0, .lit 0, .lit (-1)⟩, .lit 0, .lit 1, .lit 0⟩

/-- A unit square light moved up by 5 gives, towards a target that is moved with it, the samples of the light moved up by 5. -/
example {S : Type} (rng : Rng ℝ S) (o : Obj ℝ (Mat ℝ)) (L : Light ℝ) (I : Color ℝ) (q p : Vec ℝ) (ctx ctx' : Ctx ℝ S)
    (h : (Light.planar 1 1 ⟨0, 0, 0⟩ I o uniformSquare).mkTransformed (Affine.translate ⟨0, 5, 0⟩) = .ok L)
    (hs : (Light.planar 1 1 ⟨0, 0, 0⟩ I o uniformSquare).sample rng q ctx = .ok ((p, I), ctx')) :
    L.sample rng ⟨q.x, q.y + 5, q.z⟩ ctx = .ok ((⟨p.x, p.y + 5, p.z⟩, I), ctx') := by
  have e : ∀ v : Vec ℝ, (Affine.translate ⟨0, 5, 0⟩ : Affine ℝ).point v = ⟨v.x, v.y + 5, v.z⟩ := by
    intro v
    simp only [geo, lit_real]
    norm_num
  rw [← e, ← e]
  exact C51_image rng _ L _ (by simp only [geo, lit_real]; norm_num) h q p I ctx ctx' hs

end BR
