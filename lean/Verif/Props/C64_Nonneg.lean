import Verif.Lemmas.Radiance
import Verif.Lemmas.ExtRange
import Verif.Model.Api

/-!
C64: colours are never negative.

Numbers are extended numbers, so that infinite distances, lights at distance zero and NaN are covered.
-/

namespace BR

open Ext

private theorem map₁ {P Q : Ext → Prop} {f : Ext → Ext} {a : Color Ext} (h : ∀ x, P x → Q (f x))
    (ha : a.All P) : Color.All Q ⟨f a.R, f a.G, f a.B⟩ := ⟨h _ ha.1, h _ ha.2.1, h _ ha.2.2⟩

private theorem map₂ {P Q R : Ext → Prop} {f : Ext → Ext → Ext} {a b : Color Ext}
    (h : ∀ x y, P x → Q y → R (f x y)) (ha : a.All P) (hb : b.All Q) :
    Color.All R ⟨f a.R b.R, f a.G b.G, f a.B b.B⟩ := ⟨h _ _ ha.1 hb.1, h _ _ ha.2.1 hb.2.1, h _ _ ha.2.2 hb.2.2⟩

private theorem mul3_nn {a k : Color Ext} (ha : a.All NonnegOrNaN) (hk : k.All NonnegOrNaN) :
    (a.mul3 k).All NonnegOrNaN :=
  map₂ (f := fun x y => x * y) (fun _ _ hx hy => hx.mul hy) ha hk

private theorem lin_nn {w v : Ext} (hw : w.NonnegOrNaN) (hv : v.NonnegOrNaN) {a b : Color Ext}
    (ha : a.All NonnegOrNaN) (hb : b.All NonnegOrNaN) : ((a.mul w).madd v b).All NonnegOrNaN :=
  map₂ (f := fun x y => w * x + v * y) (fun _ _ hx hy => (hw.mul hx).add (hv.mul hy)) ha hb

private theorem add_nn {a b : Color Ext} (ha : a.All NonnegOrNaN) (hb : b.All NonnegOrNaN) :
    (a.add b).All NonnegOrNaN :=
  map₂ (f := fun x y => x + y) (fun _ _ hx hy => hx.add hy) ha hb

private theorem mul_nn {w : Ext} (hw : w.NonnegOrNaN) {a : Color Ext} (ha : a.All NonnegOrNaN) :
    (a.mul w).All NonnegOrNaN :=
  map₁ (f := fun x => w * x) (fun _ hx => hw.mul hx) ha

private theorem closed_of_nonneg (m : Mat Ext) (hm : m.Nonneg) :
    m.Closed (Color.All NonnegOrNaN) (Color.All NonnegOrNaN) (Color.All NonnegOrNaN) := by
  induction m with
  | black => rw [Mat.Closed]; trivial
  | flat tex => rw [Mat.Nonneg] at hm; rw [Mat.Closed]; exact hm
  | matte tex =>
    rw [Mat.Nonneg] at hm; rw [Mat.Closed]
    exact fun p k e d c hd hc => mul3_nn (add_nn hd hc) (hm p k e)
  | reflective k => rw [Mat.Nonneg] at hm; rw [Mat.Closed]; exact fun c hc => mul3_nn hc hm
  | reflectFresnel n u ih =>
    rw [Mat.Nonneg] at hm; rw [Mat.Closed]
    refine ⟨ih hm.2, fun x a b ha hb => ?_⟩
    have := fresnel_in hm.1 (abs_nonneg x)
    exact lin_nn this.nonneg (one_sub this).nonneg ha hb
  | refractive n1 n2 =>
    rw [Mat.Nonneg] at hm; rw [Mat.Closed]
    intro dir normal n i m1 m2 cosi sin2t hg _ a b ha hb
    have := refract_in hm.1 hm.2 hg
    exact add_nn (mul_nn this.nonneg ha) (mul_nn (one_sub this).nonneg hb)
  | transparent tex b =>
    rw [Mat.Nonneg] at hm; rw [Mat.Closed]
    intro p k e
    exact ⟨fun c hc => mul3_nn hc (hm p k e), fun c hc => mul3_nn hc (hm p k e)⟩
  | twoSided f b ihf ihb => rw [Mat.Nonneg] at hm; rw [Mat.Closed]; exact ⟨ihf hm.1, ihb hm.2⟩
  | blend a A b B iha ihb =>
    rw [Mat.Nonneg] at hm; rw [Mat.Closed]
    exact ⟨iha hm.2.2.1, ihb hm.2.2.2, fun c d hc hd => lin_nn hm.1 hm.2.1 hc hd⟩
  | blendMap tex A B iha ihb =>
    rw [Mat.Nonneg] at hm; rw [Mat.Closed]
    refine ⟨iha hm.2.1, ihb hm.2.2, fun p k e x y hx hy => ?_⟩
    have := (hm.1 p k e).1.orNaN
    exact lin_nn this.nonneg (one_sub this).nonneg hx hy
  | func f => rw [Mat.Nonneg] at hm; rw [Mat.Closed]; exact hm

private theorem sgn_one_sub {x : Ext} (h : x.InOrNaN 1) : sgn (lit 1 - x) = false := by
  rcases h with rfl | ⟨v, ⟨s, rfl⟩, v0, v1⟩
  · simp [sgn]
  · rw [lit_ext, num_sub_num]
    simp only [sgn]
    split
    · simp
    · push_cast; simp; linarith

private theorem exp_in' {len d : Ext} (hl : len.NonnegOrNaN) (hd : d.Nonneg) :
    (GoFloat.exp (-d * len)).InOrNaN 1 := by
  obtain ⟨D, ⟨t, rfl⟩, hD⟩ := hd
  rcases hl with rfl | rfl | ⟨v, ⟨s, rfl⟩, v0⟩
  · exact .inl (by simp; rfl)
  · rw [neg_num, num_mul_inf]
    split
    · exact .inl rfl
    · rename_i h
      have hp : 0 < D := lt_of_le_of_ne hD (fun e => h (by rw [← e, neg_zero]))
      rw [show sgn (num (-D) (!sgn (num D t))) = true by simp [sgn, hp.ne', hp]]
      exact .inr ⟨0, ⟨false, rfl⟩, le_rfl, zero_le_one⟩
  · obtain ⟨k, hk⟩ := (is_num D t).neg.mul (is_num v s)
    rw [hk]
    exact .inr ⟨Real.exp (-D * v), ⟨false, rfl⟩, (Real.exp_pos _).le, Real.exp_le_one_iff.2 (by nlinarith)⟩

private theorem fog_weight {u d len : Ext} (hd : d.Nonneg) (hl : len.NonnegOrNaN) :
    (randExpInterval u d len).2.NonnegOrNaN := by
  unfold randExpInterval
  dsimp only
  have h1 := sgn_one_sub (exp_in' hl hd)
  have h2 := exp_in' hl hd
  generalize GoFloat.exp (-d * len) = x at h1 h2
  have h3 := one_sub h2
  generalize BR.lit 1 - x = y at h1 h3
  rcases h3 with rfl | ⟨v, ⟨s, rfl⟩, v0, v1⟩
  · exact .inl (by simp)
  · simp only [lit_ext]
    by_cases hv : v = 0
    · subst hv
      simp only [sgn, if_true] at h1
      subst h1
      rw [num_div_zero, if_neg (by norm_num), num_div_inf]
      exact .inr (.inr ⟨0, ⟨_, rfl⟩, le_rfl⟩)
    · have hp : 0 < v := lt_of_le_of_ne v0 (Ne.symm hv)
      rw [num_div_num _ _ _ _ hv, num_div_num _ _ _ _ (by positivity)]
      exact .inr (.inr ⟨_, ⟨_, rfl⟩, by push_cast; positivity⟩)

private theorem medium_of_nonneg (m : Medium Ext) (hm : m.Nonneg) :
    m.Closed (Color.All NonnegOrNaN) (Color.All NonnegOrNaN) (Color.All NonnegOrNaN) := by
  cases m with
  | expFog d amb h =>
    rw [Medium.Nonneg] at hm; rw [Medium.Closed]
    intro len hl c hc
    have := exp_in (nonneg_of_ge hl) hm.1
    exact lin_nn this.nonneg (one_sub this).nonneg hc hm.2
  | fog d h n =>
    rw [Medium.Nonneg] at hm; rw [Medium.Closed]
    intro r tMax
    have hl := fogInterval_nonneg h r tMax
    refine ⟨fun u e k he hk => ?_, fun c e hc he => add_nn (mul_nn (exp_in hl hm).nonneg hc) he⟩
    exact map₂ (f := fun x y => x + _ * y) (fun x y hx hy => hx.add ((fog_weight hm hl).mul hy)) he hk

private theorem pointIntensity_nn (target pos : Vec Ext) : (Light.pointIntensity target pos).NonnegOrNaN := by
  unfold Light.pointIntensity
  have h : ∃ v s, (BR.lit 1 / (BR.lit 4 * GoFloat.pi) : Ext) = num v s ∧ 0 < v := by
    have hpi : (GoFloat.pi : Ext) = num Real.pi false := rfl
    have := Real.pi_pos
    rw [lit_ext, lit_ext, hpi, num_mul_num, num_div_num _ _ _ _ (by positivity)]
    exact ⟨_, _, rfl, by push_cast; positivity⟩
  obtain ⟨v, s, h, hv⟩ := h
  rw [h]
  exact div_nonneg hv (len2_sgn _)

private theorem planarIntensity_nn (target p : Vec Ext) : (Light.planarIntensity target p).NonnegOrNaN := by
  unfold Light.planarIntensity
  dsimp only
  split
  · exact .inr (.inr ⟨0, by simpa using Is.lit 0, le_rfl⟩)
  · rename_i h; exact nonneg_of_not_lt (by simpa using h)

/-- Light arriving from a light source is never negative. -/
theorem C64_light {S : Type} (rng : Rng Ext S) (l : Light Ext) (hl : l.NonnegPower) (target : Vec Ext)
    (ctx ctx' : Ctx Ext S) (p : Vec Ext) (k : Color Ext) (h : l.sample rng target ctx = .ok ((p, k), ctx')) :
    k.All Ext.NonnegOrNaN := by
  induction l generalizing target ctx ctx' p k with
  | point pos power =>
    rw [Light.NonnegPower] at hl
    simp only [Light.sample, Except.ok.injEq, Prod.mk.injEq] at h
    rw [← h.1.2]
    exact mul_nn (pointIntensity_nn _ _) hl
  | planar w h' center tp object ts =>
    rw [Light.NonnegPower] at hl
    rw [Light.sample] at h
    obtain ⟨⟨uv, c1⟩, -, h⟩ := bind_eq_ok.1 h
    simp only [pure_ok, Except.ok.injEq, Prod.mk.injEq] at h
    rw [← h.1.2]
    exact mul_nn (planarIntensity_nn _ _) hl
  | transformed f i orig object ih =>
    rw [Light.NonnegPower] at hl
    rw [Light.sample] at h
    obtain ⟨⟨⟨tp, br⟩, c1⟩, e, h⟩ := bind_eq_ok.1 h
    simp only [pure_ok, Except.ok.injEq, Prod.mk.injEq] at h
    rw [← h.1.2]
    exact ih hl _ _ _ _ _ e

/-- The light field of a scene whose colours, factors, weights and powers are not negative: no channel of the
colour of any ray is negative, for every recursion depth, every state of the random sequences, every ray. -/
theorem C64_light_field {S : Type} (rng : Rng Ext S) (s : Scene Ext)
    (hm : ∀ o ∈ s.objects, o.AllMat Mat.Nonneg) (hl : ∀ l ∈ s.lights, l.NonnegPower ∧ l.object.AllMat Mat.Nonneg)
    (hmed : ∀ m ∈ s.media, m.Nonneg) (fuel : Nat) (f : Field) (r : Ray Ext) (ctx ctx' : Ctx Ext S) (c : Color Ext)
    (h : s.lightField rng fuel f r ctx = .ok (c, ctx')) : c.All Ext.NonnegOrNaN := by
  have hz : (BR.lit 0 : Ext).NonnegOrNaN := .inr (.inr ⟨0, by simpa using Is.lit 0, le_rfl⟩)
  have hb : (Color.black : Color Ext).All NonnegOrNaN := ⟨hz, hz, hz⟩
  refine lightField_closed (P := Color.All NonnegOrNaN) (D := Color.All NonnegOrNaN) (I := Color.All NonnegOrNaN)
    (W := Color.All NonnegOrNaN) ⟨hb, hb, hb, hb, ?_, ?_, ?_, ?_, ?_⟩ fuel f r ctx c ctx' h
  · exact fun d k w hd hk hw => add_nn hd (mul_nn (nonneg_of_not_le hw) hk)
  · exact fun l hl' target c p k c' e => C64_light rng l (hl l hl').1 _ _ _ _ _ e
  · exact fun o ho => Obj.AllMat.mono closed_of_nonneg o (hm o ho)
  · exact fun l hl' => Obj.AllMat.mono closed_of_nonneg _ (hl l hl').2
  · exact fun m hm' => medium_of_nonneg m (hmed m hm')

/-- The colour of every sample of the image. -/
theorem C64_image {S : Type} (rng : Rng Ext S) (s : Scene Ext)
    (hm : ∀ o ∈ s.objects, o.AllMat Mat.Nonneg) (hl : ∀ l ∈ s.lights, l.NonnegPower ∧ l.object.AllMat Mat.Nonneg)
    (hmed : ∀ m ∈ s.media, m.Nonneg) (cam : Cam Ext) (u v : Ext) (ctx ctx' : Ctx Ext S) (c : Color Ext)
    (h : s.imageFunc rng cam ctx u v = .ok (c, ctx')) : c.All Ext.NonnegOrNaN := by
  unfold Scene.imageFunc at h
  dsimp only at h
  obtain ⟨⟨c1, c2⟩, e1, h⟩ := bind_eq_ok.1 h
  simp only [pure_ok, Except.ok.injEq, Prod.mk.injEq] at h
  rw [← h.1]
  exact C64_light_field rng s hm hl hmed _ _ _ _ _ _ e1

/-- Lights made by the constructors satisfy the hypotheses of `C64_light_field` when their brightness is not
negative: the rectangle, disk and sun lights (the latter is a transformed disk light). -/
theorem C64_planar (Srt : Sorter (Obj Ext (Mat Ext))) (brightness : Color Ext) (hb : brightness.All Ext.NonnegOrNaN)
    (w h : Ext) (center : Vec Ext) (relSurf : Ext) (hs : (w * h * relSurf).NonnegOrNaN)
    (restrict : Option (Obj Ext (Mat Ext))) (ts : Ext → Ext → Ext × Ext) (l : Light Ext)
    (hl : Light.mkPlanar Srt brightness w h center relSurf restrict ts = .ok l) :
    l.NonnegPower ∧ l.object.AllMat Mat.Nonneg := by
  unfold Light.mkPlanar at hl
  dsimp only at hl
  obtain ⟨rect, e, hl⟩ := bind_eq_ok.1 hl
  simp only [pure_ok, Except.ok.injEq] at hl
  subst hl
  refine ⟨mul_nn hs hb, ?_⟩
  rw [Light.object, Obj.AllMat]
  unfold rectangle rectangleWithVertices quadrilateral meshWithUV at e
  obtain ⟨vs, -, e⟩ := bind_eq_ok.1 e
  obtain ⟨fs, -, e⟩ := bind_eq_ok.1 e
  unfold meshObj at e
  obtain ⟨o, -, e⟩ := bind_eq_ok.1 e
  obtain ⟨o, -, e⟩ := bind_eq_ok.1 e
  simp only [pure_ok, Except.ok.injEq] at e
  rw [← e, Obj.AllMat]
  rintro x ⟨⟩
  have hz : (BR.lit 0 : Ext).NonnegOrNaN := .inr (.inr ⟨0, by simpa using Is.lit 0, le_rfl⟩)
  rw [Mat.Nonneg, Mat.Nonneg, Mat.Nonneg]
  constructor
  · rintro p c ⟨⟩; exact hb
  · rintro p c ⟨⟩; exact ⟨hz, hz, hz⟩

/-- Transforming a light keeps the hypotheses. -/
theorem C64_transformed (l l' : Light Ext) (t : Affine Ext) (h : l.mkTransformed t = .ok l')
    (hl : l.NonnegPower ∧ l.object.AllMat Mat.Nonneg) : l'.NonnegPower ∧ l'.object.AllMat Mat.Nonneg := by
  have key : ∀ (o o' : Obj Ext (Mat Ext)) (t : Affine Ext), o.AllMat Mat.Nonneg → o.mkTransformed t = .ok o' →
      o'.AllMat Mat.Nonneg := by
    intro o o' t
    induction o, t using Obj.mkTransformed.induct with
    | case1 b f i orig t ih =>
      intro ho e
      rw [Obj.AllMat] at ho
      rw [Obj.mkTransformed] at e
      exact ih ho e
    | case2 o t hne =>
      intro ho e
      rw [Obj.mkTransformed] at e
      · obtain ⟨bb, -, e⟩ := bind_eq_ok.1 e
        obtain ⟨b2, -, e⟩ := bind_eq_ok.1 e
        simp only [pure_ok, Except.ok.injEq] at e
        rw [← e, Obj.AllMat]; exact ho
      · exact hne
  have : ∀ (l : Light Ext), (∀ p c, l ≠ .point p c) → l.NonnegPower → l.object.AllMat Mat.Nonneg → ∀ l', l.mkTransformed t = .ok l' →
      l'.NonnegPower ∧ l'.object.AllMat Mat.Nonneg := by
    intro l hne h1 h2 l' e
    rw [Light.mkTransformed] at e
    · obtain ⟨o, e1, e⟩ := bind_eq_ok.1 e
      simp only [pure_ok, Except.ok.injEq] at e
      subst e
      exact ⟨by rw [Light.NonnegPower]; exact h1, key _ _ _ h2 e1⟩
    · exact hne
  cases l with
  | point p c => simp [Light.mkTransformed] at h
  | planar => exact this _ (by simp) hl.1 hl.2 _ h
  | transformed => exact this _ (by simp) hl.1 hl.2 _ h

/-! ## Non-vacuity -/

/-- A rectangle light and a point light over a white ground, in scattering fog. -/
example (w h : Ext) (center : Vec Ext) (l : Light Ext)
    (rect : Obj Ext (Mat Ext))
    (hl : l = .planar w h center ((⟨fin 3, fin 2, fin 1⟩ : Color Ext).mul (fin 6)) rect Light.transfRect)
    (hrect : rect = .restrict (.backdrop (some (.twoSided (.flat (⟨fin 3, fin 2, fin 1⟩ : Color Ext).tex)
      (.flat (⟨fin 0, fin 0, fin 0⟩ : Color Ext).tex)))) .allSpace)
    (ground : Quadric Ext (Mat Ext)) (hg : ground.mat = some (.matte (⟨fin 1, fin 1, fin 1⟩ : Color Ext).tex)) :
    let s : Scene Ext := ⟨[l, .point Vec.zero ⟨fin 10, fin 10, fin 10⟩], [.quadric ground], [.fog (fin (1 / 10)) (fin 5) 1], 10⟩
    (∀ o ∈ s.objects, o.AllMat Mat.Nonneg) ∧ (∀ l ∈ s.lights, l.NonnegPower ∧ l.object.AllMat Mat.Nonneg) ∧
      ∀ m ∈ s.media, m.Nonneg := by
  have hn : ∀ {v : ℝ}, 0 ≤ v → (fin v).NonnegOrNaN := fun h0 => .inr (.inr ⟨_, ⟨_, rfl⟩, h0⟩)
  refine ⟨?_, ?_, ?_⟩
  · intro o ho
    simp only [List.mem_cons, List.not_mem_nil, or_false] at ho
    subst ho
    rw [Obj.AllMat]
    intro x hx
    rw [hg] at hx
    cases hx
    rw [Mat.Nonneg]
    rintro p c ⟨⟩
    exact ⟨hn (by norm_num), hn (by norm_num), hn (by norm_num)⟩
  · intro l' hl'
    simp only [List.mem_cons, List.not_mem_nil, or_false] at hl'
    rcases hl' with rfl | rfl
    · rw [hl]
      refine ⟨?_, ?_⟩
      · rw [Light.NonnegPower]
        exact mul_nn (hn (by norm_num)) ⟨hn (by norm_num), hn (by norm_num), hn (by norm_num)⟩
      · rw [Light.object, hrect, Obj.AllMat, Obj.AllMat]
        rintro x ⟨⟩
        rw [Mat.Nonneg, Mat.Nonneg, Mat.Nonneg]
        constructor
        · rintro p c ⟨⟩
          exact ⟨hn (by norm_num), hn (by norm_num), hn (by norm_num)⟩
        · rintro p c ⟨⟩
          exact ⟨hn (by norm_num), hn (by norm_num), hn (by norm_num)⟩
    · refine ⟨by rw [Light.NonnegPower]; exact ⟨hn (by norm_num), hn (by norm_num), hn (by norm_num)⟩, ?_⟩
      rw [Light.object, Obj.AllMat]
      rintro r h ⟨⟩ 
      exact OptMat.miss
  · intro m hm
    simp only [List.mem_cons, List.not_mem_nil, or_false] at hm
    subst hm
    exact ⟨_, ⟨_, rfl⟩, by norm_num⟩

end BR
