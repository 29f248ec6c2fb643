import Verif.Props.C30_TransformedBounds

/-! C31: the placement helpers put objects where the caller asked, for plain objects and for objects
that have been placed before. Exact arithmetic on finite numbers. -/

namespace BR

variable {M : Type}

/-- `o` has finite bounds: `root` with bounds `B0`, transformed by `T0` (a plain object is its own
root, with the unit transform). -/
def Obj.FinPlaced (o root : Obj Ext M) (B0 : BBox ℝ) (T0 : Affine ℝ) : Prop :=
  (root = o ∧ T0 = Affine.unit ∧ o.Plain ∧ ∃ b, o.bounds = .ok b ∧ b.Is B0 ∧ B0.Proper) ∨
  ∃ b0 b f, o = .transformed b f f.inverse root ∧ root.Plain ∧ root.bounds = .ok b0 ∧ b0.Is B0 ∧
    f.Is T0 ∧ b0.transform f = .ok b

private theorem placed_bounds {o root : Obj Ext M} {B0 : BBox ℝ} {T0 : Affine ℝ}
    (h : o.FinPlaced root B0 T0) :
    ∃ b B, o.bounds = .ok b ∧ b.Is B ∧ B0.transform T0 = .ok B := by
  rcases h with ⟨rfl, rfl, hp, b, hb, hi, hpr⟩ | ⟨b0, b, f, rfl, hp, hb, hi, hf, e⟩
  · exact ⟨b, B0, hb, hi, BBox.transform_unit hpr⟩
  · obtain ⟨b1, B1, e1, e2, h⟩ := BBox.transform_is hi hf
    rw [e] at e1; cases e1
    exact ⟨b, B1, by rw [Obj.bounds], h, e2⟩

private theorem placed_transform {o root : Obj Ext M} {B0 : BBox ℝ} {T0 : Affine ℝ}
    (h : o.FinPlaced root B0 T0) (t : Affine Ext) (T : Affine ℝ) (ht : t.Is T) :
    ∃ o', o.mkTransformed t = .ok o' ∧ o'.FinPlaced root B0 (T0.before T) := by
  rcases h with ⟨rfl, rfl, hp, b, hb, hi, hpr⟩ | ⟨b0, b, f, rfl, hp, hb, hi, hf, e⟩
  · obtain ⟨b1, B1, e1, e2, h⟩ := BBox.transform_is hi ht
    refine ⟨.transformed b1 t t.inverse root, ?_, ?_⟩
    · rw [root.mkTransformed_plain hp, hb, ok_bind, e1]; rfl
    · rw [(C27_unit T).2]
      exact .inr ⟨b, b1, t, rfl, hp, hb, hi, ht, e1⟩
  · obtain ⟨b1, B1, e1, e2, h⟩ := BBox.transform_is hi (hf.before ht)
    refine ⟨.transformed b1 (f.before t) (f.before t).inverse root, ?_, ?_⟩
    · rw [Obj.mkTransformed, root.mkTransformed_plain hp, hb, ok_bind, e1]; rfl
    · exact .inr ⟨b0, b1, _, rfl, hp, hb, hi, hf.before ht, e1⟩

private theorem bounds_eq {o : Obj Ext M} {b b' : BBox Ext} (h : o.bounds = .ok b) (h' : o.bounds = .ok b') :
    b = b' := by
  rw [h] at h'; exact Except.ok.inj h'

/-- `Center()`, `CenterTop()`, `CenterBottom()`, `CenterFront()` and `CenterBack()` are the middle of the
bounds and the middles of its faces; up is +y and the front is at the greatest z. -/
theorem C31_anchors (o root : Obj Ext M) (B0 : BBox ℝ) (T0 : Affine ℝ) (h : o.FinPlaced root B0 T0) :
    ∃ b B, o.bounds = .ok b ∧ b.Is B ∧ b.center.Is B.mid ∧
      b.centerTop.Is ⟨B.mid.x, B.max.y, B.mid.z⟩ ∧ b.centerBottom.Is ⟨B.mid.x, B.min.y, B.mid.z⟩ ∧
      b.centerFront.Is ⟨B.mid.x, B.mid.y, B.max.z⟩ ∧ b.centerBack.Is ⟨B.mid.x, B.mid.y, B.min.z⟩ := by
  obtain ⟨b, B, hb, hi, -⟩ := placed_bounds h
  have hc := BBox.center_is hi
  exact ⟨b, B, hb, hi, hc, ⟨hc.1, hi.2.2.1, hc.2.2⟩, ⟨hc.1, hi.1.2.1, hc.2.2⟩, ⟨hc.1, hc.2.1, hi.2.2.2⟩,
    ⟨hc.1, hc.2.1, hi.1.2.2⟩⟩

/-- `WithCenter(pos)`: the bounds of the result are centred at `pos`. -/
theorem C31_withCenter (o root : Obj Ext M) (B0 : BBox ℝ) (T0 : Affine ℝ) (h : o.FinPlaced root B0 T0)
    (pos : Vec Ext) (P : Vec ℝ) (hpos : pos.Is P) :
    ∃ o' b' B' T, o.withCenter pos = .ok o' ∧ o'.FinPlaced root B0 T ∧ o'.bounds = .ok b' ∧ b'.Is B' ∧
      B'.mid = P := by
  obtain ⟨b, B, hb, hi, hB⟩ := placed_bounds h
  obtain ⟨o', e', h'⟩ := placed_transform h _ _ (Affine.Is.translate (hpos.sub (BBox.center_is hi)))
  obtain ⟨b', B', hb', hi', hB'⟩ := placed_bounds h'
  refine ⟨o', b', B', _, ?_, h', hb', hi', ?_⟩
  · rw [Obj.withCenter, hb, ok_bind]; exact e'
  · rw [BBox.transform_mid hB', C27_before_point, ← BBox.transform_mid hB, (C27_translate _ _).1]
    simp only [geo]; refine ⟨?_, ?_, ?_⟩ <;> ring

/-- `WithCenterBottom(pos)`: the middle of the bottom of the bounds of the result is at `pos`. -/
theorem C31_withCenterBottom (o root : Obj Ext M) (B0 : BBox ℝ) (T0 : Affine ℝ)
    (h : o.FinPlaced root B0 T0) (pos : Vec Ext) (P : Vec ℝ) (hpos : pos.Is P) :
    ∃ o' b' B' T, o.withCenterBottom pos = .ok o' ∧ o'.FinPlaced root B0 T ∧ o'.bounds = .ok b' ∧ b'.Is B' ∧
      (⟨B'.mid.x, B'.min.y, B'.mid.z⟩ : Vec ℝ) = P := by
  obtain ⟨b, B, hb, hi, hB⟩ := placed_bounds h
  have cb : b.centerBottom.Is ⟨B.mid.x, B.min.y, B.mid.z⟩ :=
    ⟨(BBox.center_is hi).1, hi.1.2.1, (BBox.center_is hi).2.2⟩
  obtain ⟨o', e', h'⟩ := placed_transform h _ _ (Affine.Is.translate (hpos.sub cb))
  obtain ⟨b', B', hb', hi', hB'⟩ := placed_bounds h'
  refine ⟨o', b', B', _, ?_, h', hb', hi', ?_⟩
  · rw [Obj.withCenterBottom, hb, ok_bind]; exact e'
  · rw [BBox.transform_translate hB] at hB'
    cases hB'
    simp only [BBox.mid, BBox.translated, geo]; refine ⟨?_, ?_, ?_⟩ <;> ring

private theorem keeps_center {o root : Obj Ext M} {B0 B : BBox ℝ} {T0 : Affine ℝ} {b : BBox Ext}
    (h : o.FinPlaced root B0 T0) (hb : o.bounds = .ok b) (hi : b.Is B) (t : Affine Ext) (T : Affine ℝ)
    (ht : t.Is T) (hfix : T.point B.mid = B.mid) :
    ∃ o' b' B' T', o.mkTransformed t = .ok o' ∧ o'.FinPlaced root B0 T' ∧ o'.bounds = .ok b' ∧ b'.Is B' ∧
      B'.mid = B.mid := by
  obtain ⟨b1, B1, hb1, hi1, hB⟩ := placed_bounds h
  cases bounds_eq hb hb1
  have hBB : B1.mid = B.mid := by
    have uniq : ∀ {e : Ext} {x y : ℝ}, e.Is x → e.Is y → x = y := by
      rintro e x y ⟨s, rfl⟩ ⟨s', h⟩; cases h; rfl
    have : B1 = B := by
      ext
      · exact uniq hi1.1.1 hi.1.1
      · exact uniq hi1.1.2.1 hi.1.2.1
      · exact uniq hi1.1.2.2 hi.1.2.2
      · exact uniq hi1.2.1 hi.2.1
      · exact uniq hi1.2.2.1 hi.2.2.1
      · exact uniq hi1.2.2.2 hi.2.2.2
    rw [this]
  obtain ⟨o', e', h'⟩ := placed_transform h _ _ ht
  obtain ⟨b', B', hb', hi', hB'⟩ := placed_bounds h'
  refine ⟨o', b', B', _, e', h', hb', hi', ?_⟩
  rw [BBox.transform_mid hB', C27_before_point, ← BBox.transform_mid hB, hBB, hfix]

private theorem goCos_is {a : Ext} {x : ℝ} (ha : a.Is x) : (goCos a).Is (Real.cos x) := by
  have hp : (GoFloat.pi : Ext).Is Real.pi := ⟨_, rfl⟩
  have h2 : (lit 2 : Ext).Is (lit 2 : ℝ) := Ext.Is.lit 2
  have hn : (lit 2 : ℝ) ≠ 0 := by norm_num
  rw [← goCos_real, goCos, goCos, ha.eq (hp.div h2 hn), ha.eq (hp.neg.div h2 hn)]
  exact Ext.Is.ite _ (Ext.Is.lit 0) ha.cos

private theorem goSin_is {a : Ext} {x : ℝ} (ha : a.Is x) : (goSin a).Is (Real.sin x) := by
  have hp : (GoFloat.pi : Ext).Is Real.pi := ⟨_, rfl⟩
  rw [← goSin_real, goSin, goSin, ha.eq hp, ha.eq hp.neg]
  exact Ext.Is.ite _ (Ext.Is.lit 0) ha.sin

private theorem normalized_is {v : Vec Ext} {w : Vec ℝ} (hv : v.Is w) (hw : w ≠ Vec.zero) :
    v.normalized.Is w.normalized := by
  have hp := Vec.len2_pos hw
  obtain ⟨h1, h2, h3⟩ := hv
  have hs := (((h1.mul h1).add (h2.mul h2)).add (h3.mul h3)).sqrt hp.le
  have hk := (Ext.Is.lit 1).div hs (Real.sqrt_ne_zero'.2 hp)
  exact ⟨h1.mul hk, h2.mul hk, h3.mul hk⟩

theorem rotation_is {v : Vec Ext} {w : Vec ℝ} (hv : v.Is w) (hw : w ≠ Vec.zero) {a : Ext} {x : ℝ}
    (ha : a.Is x) : (Affine.rotationMatrix v a).Is (Affine.rotationMatrix w x) := by
  have hc : (goCos a).Is (goCos x) := by rw [goCos_real]; exact goCos_is ha
  have hs : (goSin a).Is (goSin x) := by rw [goSin_real]; exact goSin_is ha
  have h1 : (lit 1 - goCos a : Ext).Is (lit 1 - goCos x) := (Ext.Is.lit 1).sub hc
  obtain ⟨u1, u2, u3⟩ := normalized_is hv hw
  exact ⟨⟨hc.add ((u1.mul u1).mul h1), ((u2.mul u1).mul h1).add (u3.mul hs), ((u3.mul u1).mul h1).sub (u2.mul hs)⟩,
    ⟨((u1.mul u2).mul h1).sub (u3.mul hs), hc.add ((u2.mul u2).mul h1), ((u3.mul u2).mul h1).add (u1.mul hs)⟩,
    ⟨((u1.mul u3).mul h1).add (u2.mul hs), ((u2.mul u3).mul h1).sub (u1.mul hs), hc.add ((u3.mul u3).mul h1)⟩⟩

/-- `Rotate(axis, angle)` keeps the centre of the bounds fixed. -/
theorem C31_rotate (o root : Obj Ext M) (B0 : BBox ℝ) (T0 : Affine ℝ) (h : o.FinPlaced root B0 T0)
    (axis : Vec Ext) (A : Vec ℝ) (ha : axis.Is A) (hA : A ≠ Vec.zero) (angle : Ext) (θ : ℝ)
    (hθ : angle.Is θ) (b : BBox Ext) (hb : o.bounds = .ok b) :
    ∃ o' b' B B' T, o.rotate axis angle = .ok o' ∧ o'.FinPlaced root B0 T ∧ o'.bounds = .ok b' ∧
      b.Is B ∧ b'.Is B' ∧ B'.mid = B.mid := by
  obtain ⟨b1, B, hb1, hi, -⟩ := placed_bounds h
  cases bounds_eq hb hb1
  obtain ⟨o', b', B', T', e, h', hb', hi', hc⟩ := keeps_center h hb hi
    (Affine.rotate b.center axis angle) (Affine.rotate B.mid A θ)
    (Affine.Is.withOrigin ⟨rotation_is ha hA hθ, Ext.Is.lit 0, Ext.Is.lit 0, Ext.Is.lit 0⟩ (BBox.center_is hi))
    (by rw [Affine.rotate]; exact C27_withOrigin_fixed _ rfl _)
  exact ⟨o', b', B, B', T', by rw [Obj.rotate, hb, ok_bind]; exact e, h', hb', hi, hi', hc⟩

/-- `Scale(s)` keeps the centre of the bounds fixed. -/
theorem C31_scale (o root : Obj Ext M) (B0 : BBox ℝ) (T0 : Affine ℝ) (h : o.FinPlaced root B0 T0)
    (s : Ext) (S : ℝ) (hs : s.Is S) (b : BBox Ext) (hb : o.bounds = .ok b) :
    ∃ o' b' B B' T, o.scale s = .ok o' ∧ o'.FinPlaced root B0 T ∧ o'.bounds = .ok b' ∧
      b.Is B ∧ b'.Is B' ∧ B'.mid = B.mid := by
  obtain ⟨b1, B, hb1, hi, -⟩ := placed_bounds h
  cases bounds_eq hb hb1
  obtain ⟨o', b', B', T', e, h', hb', hi', hc⟩ := keeps_center h hb hi
    (Affine.scale b.center s) (Affine.scale B.mid S) (Affine.Is.scale (BBox.center_is hi) hs)
    (by rw [C27_scale]; simp only [geo]; refine ⟨?_, ?_, ?_⟩ <;> ring)
  exact ⟨o', b', B, B', T', by rw [Obj.scale, hb, ok_bind]; exact e, h', hb', hi, hi', hc⟩

/-- The box of a scaled box. -/
private theorem transform_scale {B B' : BBox ℝ} {T : Affine ℝ} (e : B.transform T = .ok B')
    (c : Vec ℝ) (s : ℝ) (hs : 0 < s) :
    B.transform (T.before (Affine.scale c s))
      = .ok ⟨c.add ((B'.min.sub c).mul s), c.add ((B'.max.sub c).mul s)⟩ := by
  obtain ⟨B1, e1, h1, -, h2⟩ := B.transform_real T
  rw [e1] at e; cases e
  obtain ⟨B2, e2, g1, -, g2⟩ := B.transform_real (T.before (Affine.scale c s))
  rw [e2]
  congr 1
  have mono : ∀ {a b c : ℝ}, a ≤ b → c + s * (a - c) ≤ c + s * (b - c) := by
    intro a b c h; nlinarith [mul_le_mul_of_nonneg_left h hs.le]
  have inv : ∀ {a b c : ℝ}, c + s * (a - c) ≤ b → a ≤ c + (1 / s) * (b - c) := by
    intro a b c h
    have : s * (a - c) ≤ b - c := by linarith
    have := (le_div_iff₀' hs).2 this
    rw [one_div, ← div_eq_inv_mul]; linarith
  have inv' : ∀ {a b c : ℝ}, b ≤ c + s * (a - c) → c + (1 / s) * (b - c) ≤ a := by
    intro a b c h
    have : b - c ≤ s * (a - c) := by linarith
    have := (div_le_iff₀' hs).2 this
    rw [one_div, ← div_eq_inv_mul]; linarith
  have fwd : ∀ {a b c : ℝ}, a ≤ c + (1 / s) * (b - c) → c + s * (a - c) ≤ b := by
    intro a b c h
    have := mono (c := c) h
    have e : s * (c + (1 / s) * (b - c) - c) = b - c := by field_simp; ring
    linarith
  have fwd' : ∀ {a b c : ℝ}, c + (1 / s) * (b - c) ≤ a → b ≤ c + s * (a - c) := by
    intro a b c h
    have := mono (c := c) h
    have e : s * (c + (1 / s) * (b - c) - c) = b - c := by field_simp; ring
    linarith
  apply BBox.Within.antisymm
  · apply g2
    intro v hv
    have := h1 v hv
    rw [C27_before_point, C27_scale]
    simp only [BBox.Mem, Vec.add, Vec.mul, Vec.sub] at this ⊢
    obtain ⟨a1, a2, a3, a4, a5, a6⟩ := this
    exact ⟨mono a1, mono a2, mono a3, mono a4, mono a5, mono a6⟩
  · have := h2 ⟨c.add ((B2.min.sub c).mul (1 / s)), c.add ((B2.max.sub c).mul (1 / s))⟩ (by
      intro v hv
      have := g1 v hv
      rw [C27_before_point, C27_scale] at this
      simp only [BBox.Mem, Vec.add, Vec.mul, Vec.sub] at this ⊢
      obtain ⟨a1, a2, a3, a4, a5, a6⟩ := this
      exact ⟨inv' a1, inv a2, inv' a3, inv a4, inv' a5, inv a6⟩)
    rw [BBox.within_real] at this ⊢
    simp only [Vec.add, Vec.mul, Vec.sub] at this ⊢
    obtain ⟨a1, a2, a3, a4, a5, a6⟩ := this
    exact ⟨fwd' a1, fwd a2, fwd' a3, fwd a4, fwd' a5, fwd a6⟩

/-- `ScaleToSize(w)` for positive `w` and an object of positive width: the width (x) of the bounds
becomes `w`, the other two sizes scale by the same factor and the centre stays. -/
theorem C31_scaleToSize (o root : Obj Ext M) (B0 : BBox ℝ) (T0 : Affine ℝ) (h : o.FinPlaced root B0 T0)
    (w : Ext) (W : ℝ) (hw : w.Is W) (hW : 0 < W) (b : BBox Ext) (B : BBox ℝ) (hb : o.bounds = .ok b)
    (hi : b.Is B) (hx : B.min.x < B.max.x) :
    ∃ o' b' B', o.scaleToSize w = .ok o' ∧ o'.bounds = .ok b' ∧ b'.Is B' ∧
      B'.max.x - B'.min.x = W ∧
      (B'.max.y - B'.min.y) * (B.max.x - B.min.x) = (B.max.y - B.min.y) * W ∧
      (B'.max.z - B'.min.z) * (B.max.x - B.min.x) = (B.max.z - B.min.z) * W ∧
      B'.mid = B.mid := by
  obtain ⟨b1, B1, hb1, hi1, hB⟩ := placed_bounds h
  cases bounds_eq hb hb1
  have uniq : ∀ {e : Ext} {x y : ℝ}, e.Is x → e.Is y → x = y := by
    rintro e x y ⟨s, rfl⟩ ⟨s', h⟩; cases h; rfl
  have : B1 = B := by
    ext
    · exact uniq hi1.1.1 hi.1.1
    · exact uniq hi1.1.2.1 hi.1.2.1
    · exact uniq hi1.1.2.2 hi.1.2.2
    · exact uniq hi1.2.1 hi.2.1
    · exact uniq hi1.2.2.1 hi.2.2.1
    · exact uniq hi1.2.2.2 hi.2.2.2
  subst this
  have hd : 0 < B1.max.x - B1.min.x := by linarith
  have hk : (w / b.size.x).Is (W / (B1.max.x - B1.min.x)) := hw.div (hi.2.1.sub hi.1.1) hd.ne'
  obtain ⟨o', e', h'⟩ := placed_transform h _ _ (Affine.Is.scale (BBox.center_is hi) hk)
  obtain ⟨b', B', hb', hi', hB'⟩ := placed_bounds h'
  refine ⟨o', b', B', ?_, hb', hi', ?_⟩
  · rw [Obj.scaleToSize, hb, ok_bind, Obj.scale, hb, ok_bind]; exact e'
  · rw [transform_scale hB _ _ (div_pos hW hd)] at hB'
    cases hB'
    have hn := hd.ne'
    simp only [BBox.mid, Vec.add, Vec.mul, Vec.sub, Vec.mk.injEq]
    refine ⟨?_, ?_, ?_, ?_, ?_, ?_⟩ <;> field_simp <;> ring

/-! ## Non-vacuity -/

/-- The unit cube, and the unit cube moved, meet the hypotheses. -/
example : ∃ (o' : Obj Ext Unit) (T : Affine ℝ),
    (Obj.box unitCube none : Obj Ext Unit).FinPlaced (.box unitCube none) unitCubeR Affine.unit ∧
    (Obj.box unitCube none : Obj Ext Unit).withCenter ⟨Ext.fin 3, Ext.fin 4, Ext.fin 5⟩ = .ok o' ∧
    o'.FinPlaced (.box unitCube none) unitCubeR T := by
  have h : (Obj.box unitCube none : Obj Ext Unit).FinPlaced (.box unitCube none) unitCubeR Affine.unit :=
    .inl ⟨rfl, rfl, fun _ _ _ _ h => (by cases h), unitCube, by rw [Obj.bounds],
      ⟨⟨⟨_, rfl⟩, ⟨_, rfl⟩, ⟨_, rfl⟩⟩, ⟨_, rfl⟩, ⟨_, rfl⟩, ⟨_, rfl⟩⟩, by norm_num [BBox.Proper, unitCubeR]⟩
  obtain ⟨o', b', B', T, e, h', -⟩ := C31_withCenter _ _ _ _ h ⟨Ext.fin 3, Ext.fin 4, Ext.fin 5⟩ ⟨3, 4, 5⟩
    ⟨⟨_, rfl⟩, ⟨_, rfl⟩, ⟨_, rfl⟩⟩
  exact ⟨o', T, h, e, h'⟩

end BR
