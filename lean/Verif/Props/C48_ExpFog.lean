import Verif.Lemmas.ExtIs
import Verif.Spec.Picture
import Verif.Lemmas.Cmp
import Verif.Lemmas.GoM
import Verif.Model.Scene
import Mathlib.Data.EReal.Operations

/-!
C48: fog blends the background with the fog colour by a weight in [0,1] given by the length of the ray
inside the fog layer, for every ray direction.

Numbers are extended numbers: the distance `tMax` may be infinite, and the program divides by zero.
-/

namespace BR

open Ext

/-- `L` is the length of the part of the ray from distance 0 to `T` that lies below `height`: the
distances below `height` are exactly those between `a` and `b`, and `L = b - a`. -/
def FogLength (R : Ray ℝ) (height : ℝ) (T L : EReal) : Prop :=
  ∃ a b : EReal, a ≤ b ∧ a ≠ ⊤ ∧ a ≠ ⊥ ∧ L = b - a ∧
    ∀ t : ℝ, (a < t ∧ (t : EReal) < b) ↔ (0 < t ∧ (t : EReal) < T ∧ (R.at t).y < height)

/-- The fraction of light that passes through a length `L` of fog. -/
noncomputable def transmission (density : ℝ) (L : EReal) : ℝ :=
  if L = ⊤ then 0 else Real.exp (-(density * L.toReal))

/-- Half space: for a ray that is not horizontal, the two distances are in order, and the ray is below
`height` exactly between them. -/
theorem halfSpace_spec (h : ℝ) (h' : Ext) (hh : h'.Is h) (r : Ray Ext) (R : Ray ℝ) (hr : r.Is R)
    (hd : R.dir.y ≠ 0) :
    ∃ e x : EReal, CmpModel.key (intersectHalfSpace h' r).1 = some e ∧
      CmpModel.key (intersectHalfSpace h' r).2 = some x ∧ e ≠ ⊤ ∧ x ≠ ⊥ ∧
      ∀ t : ℝ, (e < t ∧ (t : EReal) < x) ↔ (R.at t).y < h := by
  obtain ⟨⟨_, ⟨σ, hs⟩, _⟩, _, ⟨δ, hdy⟩, _⟩ := hr
  obtain ⟨η, rfl⟩ := hh
  have hten : (-(r.start.y - num h η) / r.dir.y : Ext).Is (-(R.start.y - h) / R.dir.y) := by
    rw [hs, hdy]; exact (Ext.Is.neg (Ext.Is.sub ⟨_, rfl⟩ ⟨_, rfl⟩)).div ⟨_, rfl⟩ hd
  have htex : (-r.dir.y / lit 0 : Ext) = inf (decide (0 < R.dir.y)) := by
    rw [hdy, neg_num, lit_ext, Rat.cast_zero, num_div_zero, if_neg (neg_ne_zero.2 hd), sgn,
      if_neg (neg_ne_zero.2 hd)]
    simp
  have hy : ∀ t : ℝ, (R.at t).y = R.start.y + t * R.dir.y := fun _ => rfl
  unfold intersectHalfSpace
  dsimp only
  rw [htex]
  rcases lt_or_gt_of_ne hd with hn | hp
  · have e1 : decide (0 < R.dir.y) = false := by simp [hn.le]
    rw [e1]
    obtain ⟨k, hk⟩ := hten
    rw [hk]
    refine ⟨_, ⊤, ?_, ?_, EReal.coe_ne_top (-(R.start.y - h) / R.dir.y), by simp, fun t => ?_⟩
    · simp; rfl
    · simp; rfl
    · rw [hy]
      simp only [EReal.coe_lt_coe_iff, EReal.coe_lt_top, and_true]
      rw [div_lt_iff_of_neg hn]
      constructor <;> intro h <;> linarith
  · have e1 : decide (0 < R.dir.y) = true := by simp [hp]
    rw [e1]
    obtain ⟨k, hk⟩ := hten
    rw [hk]
    refine ⟨⊥, ((-(R.start.y - h) / R.dir.y : ℝ) : EReal), ?_, ?_, by simp, EReal.coe_ne_bot _, fun t => ?_⟩
    · simp; rfl
    · simp; rfl
    · rw [hy]
      simp only [EReal.coe_lt_coe_iff, EReal.bot_lt_coe, true_and]
      rw [lt_div_iff₀ hp]
      constructor <;> intro h <;> linarith

/-- The interval of the ray in the fog. -/
theorem fogInterval_spec (h : ℝ) (h' : Ext) (hh : h'.Is h) (r : Ray Ext) (R : Ray ℝ) (hr : r.Is R)
    (hd : R.dir.y ≠ 0) (tMax : Ext) (T : EReal) (hT : CmpModel.key tMax = some T) :
    ∃ (a : ℝ) (b : EReal), CmpModel.key (fogInterval h' r tMax).1 = some (a : EReal) ∧
      CmpModel.key (fogInterval h' r tMax).2 = some b ∧ 0 ≤ a ∧ (a : EReal) ≤ b ∧
      ∀ t : ℝ, ((a : EReal) < t ∧ (t : EReal) < b) ↔ (0 < t ∧ (t : EReal) < T ∧ (R.at t).y < h) := by
  obtain ⟨e, x, k1, k2, he, hx, hm⟩ := halfSpace_spec h h' hh r R hr hd
  have k0 : CmpModel.key (lit 0 : Ext) = some (0 : EReal) := CmpModel.key_zero
  have ks := key_fmax k0 k1
  have kt := key_fmin hT k2
  have hiff : ∀ t : ℝ, (max 0 e < (t : EReal) ∧ (t : EReal) < min T x) ↔
      (0 < t ∧ (t : EReal) < T ∧ (R.at t).y < h) := by
    intro t
    rw [max_lt_iff, lt_min_iff, ← hm t, EReal.coe_pos]
    tauto
  unfold fogInterval
  dsimp only
  unfold intersectIntervals
  dsimp only
  rw [lt_key ks kt]
  by_cases hc : max 0 e < min T x
  · have hne : max 0 e ≠ ⊤ := ne_top_of_lt hc
    have hnb : max 0 e ≠ ⊥ := by
      intro hb
      have := le_max_left (0 : EReal) e
      rw [hb] at this
      simp at this
    have hr := EReal.coe_toReal hne hnb
    simp only [hc, decide_true, Bool.not_true, Bool.false_eq_true, if_false]
    refine ⟨(max 0 e).toReal, min T x, by rw [hr]; exact ks, kt, ?_, by rw [hr]; exact hc.le, ?_⟩
    · rw [← EReal.coe_nonneg, hr]; exact le_max_left _ _
    · rw [hr]; exact hiff
  · simp only [hc, decide_false, Bool.not_false, if_true]
    refine ⟨0, 0, k0, k0, le_rfl, le_rfl, fun t => ?_⟩
    rw [← hiff t]
    constructor
    · rintro ⟨h1, h2⟩; exact absurd (h1.trans h2) (lt_irrefl _)
    · rintro ⟨h1, h2⟩; exact absurd (h1.trans h2) hc

/-- The transmission is what the program computes from the length. -/
theorem transmission_spec (d : Ext) (D : ℝ) (hd : d.Is D) (hpos : 0 < D) (s e : Ext) (a : ℝ) (b : EReal)
    (ha : CmpModel.key s = some (a : EReal)) (hb : CmpModel.key e = some b) (hab : (a : EReal) ≤ b) :
    (GoFloat.exp (-(e - s) * d)).Is (transmission D (b - a)) ∧ ((e - s) >=. lit 0) = true := by
  obtain ⟨σ, rfl⟩ := Ext.Is.of_key ha
  obtain ⟨δ, rfl⟩ := hd
  cases e with
  | nan => cases hb
  | inf q =>
    cases q with
    | true =>
      have : b = ⊥ := (Option.some.inj hb).symm
      subst this
      exact absurd hab (by simp)
    | false =>
      have : b = ⊤ := (Option.some.inj hb).symm
      subst this
      rw [inf_sub_num, neg_inf, inf_mul_num, if_neg hpos.ne']
      have hsg : sgn (num D δ) = false := by simp [sgn, hpos.ne', hpos.le]
      rw [hsg]
      constructor
      · refine ⟨false, ?_⟩
        have : (⊤ : EReal) - (a : EReal) = ⊤ := rfl
        rw [transmission, this, if_pos rfl]
        rfl
      · simp
  | num y t =>
    have : b = (y : EReal) := (Option.some.inj hb).symm
    subst this
    have hl : (num y t - num a σ : Ext).Is (y - a) := Ext.Is.sub ⟨_, rfl⟩ ⟨_, rfl⟩
    constructor
    · obtain ⟨k, hk⟩ := (hl.neg.mul ⟨δ, rfl⟩ : (-(num y t - num a σ) * num D δ : Ext).Is (-(y - a) * D))
      rw [hk]
      refine ⟨false, ?_⟩
      have h1 : ((y : EReal) - (a : EReal)) = ((y - a : ℝ) : EReal) := rfl
      rw [transmission, h1, if_neg (EReal.coe_ne_top _), EReal.toReal_coe]
      have : -(y - a) * D = -(D * (y - a)) := by ring
      rw [this]
      rfl
    · have h0 : (lit 0 : Ext).Is 0 := by simpa using Ext.Is.lit 0
      rw [h0.le hl, decide_eq_true_iff]
      have := EReal.coe_le_coe_iff.1 hab
      linarith

theorem transmission_bounds (D : ℝ) (hD : 0 < D) (L : EReal) (hL : 0 ≤ L) :
    0 ≤ transmission D L ∧ transmission D L ≤ 1 := by
  unfold transmission
  split_ifs
  · exact ⟨le_rfl, zero_le_one⟩
  · refine ⟨(Real.exp_pos _).le, Real.exp_le_one_iff.2 ?_⟩
    have := mul_nonneg hD.le (EReal.toReal_nonneg hL)
    linarith

private theorem blend_is {c a : Color Ext} {C A : Color ℝ} (hc : c.Is C) (ha : a.Is A) {t : Ext} {w : ℝ}
    (ht : t.Is w) :
    ((c.mul t).madd (lit 1 - t) a).Is
      ⟨w * C.R + (1 - w) * A.R, w * C.G + (1 - w) * A.G, w * C.B + (1 - w) * A.B⟩ := by
  have h1 : (lit 1 : Ext).Is 1 := by simpa using Ext.Is.lit 1
  have hs := h1.sub ht
  exact ⟨(ht.mul hc.1).add (hs.mul ha.1), (ht.mul hc.2.1).add (hs.mul ha.2.1),
    (ht.mul hc.2.2).add (hs.mul ha.2.2)⟩

/-- Exponential fog, seen along a camera ray that is not exactly horizontal: the background and the fog
colour are blended with weights `w` and `1-w`, where `w = exp(-density*L)` lies in [0,1] and `L` is the
length of the ray inside the fog layer up to the background (possibly infinite, then `w = 0`). -/
theorem C48_blend_partial {S : Type} (rng : Rng Ext S) (s : Scene Ext) (d : Ext) (D : ℝ) (hd : d.Is D)
    (hD : 0 < D) (ambient : Color Ext) (A : Color ℝ) (hA : ambient.Is A) (height : Ext) (H : ℝ)
    (hH : height.Is H) (r : Ray Ext) (R : Ray ℝ) (hr : r.Is R) (hdir : R.dir.y ≠ 0) (tMax : Ext) (T : EReal)
    (hT : CmpModel.key tMax = some T) (orig : Color Ext) (O : Color ℝ) (hO : orig.Is O)
    (ctx : Ctx Ext S) (hc : ctx.depth = 1) :
    ∃ (L : EReal) (w : ℝ) (c : Color Ext), FogLength R H T L ∧ w = transmission D L ∧ 0 ≤ w ∧ w ≤ 1 ∧
      (Medium.expFog d ambient height).filter rng s r tMax orig ctx = .ok (c, ctx) ∧
      c.Is ⟨w * O.R + (1 - w) * A.R, w * O.G + (1 - w) * A.G, w * O.B + (1 - w) * A.B⟩ := by
  obtain ⟨a, b, k1, k2, -, hab, hm⟩ := fogInterval_spec H height hH r R hr hdir tMax T hT
  obtain ⟨ht, hge⟩ := transmission_spec d D hd hD _ _ a b k1 k2 hab
  have hL : 0 ≤ b - (a : EReal) := (EReal.sub_nonneg (.inr (EReal.coe_ne_top a)) (.inr (EReal.coe_ne_bot a))).2 hab
  obtain ⟨w0, w1⟩ := transmission_bounds D hD _ hL
  refine ⟨b - a, _, _, ⟨a, b, hab, EReal.coe_ne_top a, EReal.coe_ne_bot a, rfl, hm⟩, rfl, w0, w1, ?_,
    blend_is hO hA ht⟩
  have hi : ctx.isInitial = .ok true := by simp [Ctx.isInitial, hc]
  simp only [Medium.filter, hi, ok_bind, Bool.not_true, Bool.false_eq_true, if_false, hge]
  rfl

/-- Rays that are not camera rays (nested evaluations) are not affected. -/
theorem C48_camera_only {S : Type} (rng : Rng Ext S) (s : Scene Ext) (d : Ext) (ambient : Color Ext)
    (height : Ext) (r : Ray Ext) (tMax : Ext) (orig : Color Ext) (ctx : Ctx Ext S) (hc : 2 ≤ ctx.depth) :
    (Medium.expFog d ambient height).filter rng s r tMax orig ctx = .ok (orig, ctx) := by
  have hi : ctx.isInitial = .ok false := by
    have h0 : ctx.depth ≠ 0 := by omega
    have h1 : ctx.depth ≠ 1 := by omega
    simp [Ctx.isInitial, h0, h1]
  simp only [Medium.filter, hi, ok_bind, Bool.not_false, if_true]
  rfl

/-- Non-vacuity: a ray descending from height 2 into a fog of height 1, towards the background at
distance 3, is in the fog for length 2. -/
example : FogLength ⟨⟨0, 2, 0⟩, ⟨0, -1, 0⟩⟩ 1 (3 : ℝ) (2 : ℝ) := by
  refine ⟨(1 : ℝ), (3 : ℝ), EReal.coe_le_coe_iff.2 (by norm_num), EReal.coe_ne_top _, EReal.coe_ne_bot _, ?_, fun t => ?_⟩
  · rw [← EReal.coe_sub]; norm_num
  · simp only [EReal.coe_lt_coe_iff, Ray.at, Vec.madd]
    constructor
    · rintro ⟨h1, h2⟩; exact ⟨by linarith, h2, by linarith⟩
    · rintro ⟨_, h2, h3⟩; exact ⟨by linarith, h2⟩

/-- A ray that is exactly horizontal sees no fog, although it is in the fog all the way to the
background at distance 10. -/
theorem C48_violated_horizontal {S : Type} (rng : Rng Ext S) (s : Scene Ext) (orig ambient : Color Ext)
    (ctx : Ctx Ext S) (hc : ctx.depth = 1) (O : Color ℝ) (hO : orig.Is O) (A : Color ℝ) (hA : ambient.Is A) :
    (∃ c, (Medium.expFog (fin 1) ambient (fin 1)).filter rng s ⟨⟨fin 0, fin 0, fin 0⟩, ⟨fin 1, fin 0, fin 0⟩⟩
      (fin 10) orig ctx = .ok (c, ctx) ∧ c.Is O) ∧
    FogLength ⟨⟨0, 0, 0⟩, ⟨1, 0, 0⟩⟩ 1 (10 : ℝ) (10 : ℝ) ∧ transmission 1 (10 : ℝ) < 1 := by
  refine ⟨?_, ?_, ?_⟩
  · have hi : ctx.isInitial = .ok true := by simp [Ctx.isInitial, hc]
    have hf : ∃ q, fogInterval (fin 1) ⟨⟨fin 0, fin 0, fin 0⟩, ⟨fin 1, fin 0, fin 0⟩⟩ (fin 10) = q ∧
        q.1 = (lit 0 : Ext) ∧ q.2 = (lit 0 : Ext) := by
      refine ⟨_, rfl, ?_, ?_⟩ <;>
      · simp only [fogInterval, intersectHalfSpace, intersectIntervals, Ext.fin, lit_ext, fmin, fmax]
        norm_num [num_div_num, num_div_zero, num_sub_num, neg_num, sgn]
    obtain ⟨q, hq, hq1, hq2⟩ := hf
    have h0 : (lit 0 : Ext).Is 0 := by simpa using Ext.Is.lit 0
    have k0 : CmpModel.key (lit 0 : Ext) = some ((0 : ℝ) : EReal) := h0.key
    obtain ⟨ht, hge⟩ := transmission_spec (fin 1) 1 ⟨_, rfl⟩ one_pos (lit 0) (lit 0) 0 (0 : ℝ) k0 k0 le_rfl
    have hT : transmission 1 (((0 : ℝ) : EReal) - ((0 : ℝ) : EReal)) = 1 := by
      rw [← EReal.coe_sub, transmission, if_neg (EReal.coe_ne_top _), EReal.toReal_coe]; simp
    rw [hT] at ht
    refine ⟨(orig.mul (GoFloat.exp (-(lit 0 - lit 0) * fin 1))).madd
      (lit 1 - GoFloat.exp (-(lit 0 - lit 0) * fin 1)) ambient, ?_, ?_⟩
    rotate_left 1
    · have hb := blend_is hO hA ht
      simpa using hb
    · simp only [Medium.filter, hi, ok_bind, Bool.not_true, Bool.false_eq_true, if_false, hq, hq1, hq2, hge]
      rfl
  · refine ⟨(0 : ℝ), (10 : ℝ), EReal.coe_le_coe_iff.2 (by norm_num), EReal.coe_ne_top _, EReal.coe_ne_bot _, ?_, fun t => ?_⟩
    · rw [← EReal.coe_sub]; norm_num
    · simp [EReal.coe_lt_coe_iff, Ray.at, Vec.madd]
  · rw [transmission, if_neg (EReal.coe_ne_top _), EReal.toReal_coe, Real.exp_lt_one_iff]
    norm_num

end BR
