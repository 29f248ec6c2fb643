import Verif.Props.C48_ExpFog
import Mathlib.MeasureTheory.Measure.Lebesgue.Basic

/-!
C49: the sampled scattering distance lies in the ray interval and follows the truncated exponential
distribution, with the returned weight the probability of scattering.
-/

namespace BR

open Ext MeasureTheory

/-- The distance at which a fraction `y` of the scattering has happened, out of the total `p`. -/
private noncomputable def dist (D p y : ℝ) : ℝ := -1 / D * Real.log (1 - y * p)

private theorem dist_exp {D p y : ℝ} (hD : 0 < D) (h : 0 < 1 - y * p) :
    Real.exp (-(D * dist D p y)) = 1 - y * p := by
  have : -(D * dist D p y) = Real.log (1 - y * p) := by
    unfold dist; field_simp
  rw [this, Real.exp_log h]

/-- The sampled distance `t` and weight `w`, for a random number `y` in [0,1) and a ray that is in the fog
for a length `M` (possibly zero or infinite): `0 ≤ t ≤ M`, `w` is the probability of scattering on that
length, and up to `t` the probability of scattering is the fraction `y` of it. -/
theorem C49_sample (u d max : Ext) (y D : ℝ) (M : EReal) (hu : u.Is y) (hd : d.Is D)
    (hM : CmpModel.key max = some M) (hD : 0 < D) (hy0 : 0 ≤ y) (hy1 : y < 1) (hM0 : 0 ≤ M) :
    ∃ t w : ℝ, (randExpInterval u d max).1.Is t ∧ (randExpInterval u d max).2.Is w ∧
      w = 1 - transmission D M ∧ 0 ≤ w ∧ w ≤ 1 ∧
      0 ≤ t ∧ (t : EReal) ≤ M ∧ 1 - Real.exp (-(D * t)) = y * w := by
  obtain ⟨hT0, hT1⟩ := transmission_bounds D hD M hM0
  have l1 : (lit 1 : Ext).Is 1 := by simpa using Ext.Is.lit 1
  have lm1 : (lit (-1) : Ext).Is (-1) := by simpa using Ext.Is.lit (-1)
  -- the exponential
  have hexp : ∃ z : Ext, GoFloat.exp (-d * max) = z ∧ z.Is (transmission D M) := by
    refine ⟨_, rfl, ?_⟩
    obtain ⟨δ, rfl⟩ := hd
    cases max with
    | nan => cases hM
    | inf q =>
      cases q with
      | true =>
        have : M = ⊥ := (Option.some.inj hM).symm
        subst this
        exact absurd hM0 (by simp)
      | false =>
        have : M = ⊤ := (Option.some.inj hM).symm
        subst this
        have hsg : sgn (num (-D) (!sgn (num D δ))) = true := by
          rw [sgn, if_neg (neg_ne_zero.2 hD.ne')]; simp [hD]
        rw [neg_num, num_mul_inf, if_neg (neg_ne_zero.2 hD.ne'), hsg]
        refine ⟨false, ?_⟩
        rw [transmission, if_pos rfl]
        rfl
    | num m τ =>
      have : M = (m : EReal) := (Option.some.inj hM).symm
      subst this
      obtain ⟨k, hk⟩ := (Ext.Is.mul (Ext.Is.neg ⟨δ, rfl⟩) ⟨τ, rfl⟩ : (-num D δ * num m τ : Ext).Is (-D * m))
      rw [hk]
      refine ⟨false, ?_⟩
      rw [transmission, if_neg (EReal.coe_ne_top _), EReal.toReal_coe, neg_mul]
      rfl
  obtain ⟨z, hz, hzI⟩ := hexp
  set p := 1 - transmission D M with hp
  have hp0 : 0 ≤ p := by linarith
  have hp1 : p ≤ 1 := by linarith
  have hpI : (lit 1 - z : Ext).Is p := l1.sub hzI
  have hyp : 0 < 1 - y * p := by nlinarith
  have hdI : (lit (-1) / d : Ext).Is (-1 / D) := lm1.div hd hD.ne'
  have hlog : ∀ a : Ext, ∀ x : ℝ, a.Is x → 0 < x → (GoFloat.log a).Is (Real.log x) := by
    rintro a x ⟨σ, rfl⟩ hx
    refine ⟨false, ?_⟩
    change (if x < 0 then nan else if x = 0 then inf true else num (Real.log x) false) = _
    rw [if_neg (not_lt.2 hx.le), if_neg hx.ne']
  unfold randExpInterval
  dsimp only
  rw [hz]
  have hmain : (lit (-1) / d * GoFloat.log (lit 1 - u / (lit 1 / (lit 1 - z))) : Ext).Is (dist D p y) ∧
      (lit 1 / (lit 1 / (lit 1 - z)) : Ext).Is p := by
    by_cases hpz : p = 0
    · -- no fog at all: 1/0 = +Inf, y/Inf = 0
      obtain ⟨σ, hσ⟩ := hpI
      rw [hσ, hpz]
      have e1 : (lit 1 / num 0 σ : Ext) = inf σ := by
        rw [lit_ext, num_div_zero]; simp [sgn, not_lt.2 (zero_le_one (α := ℝ))]
      rw [e1]
      constructor
      · obtain ⟨υ, rfl⟩ := hu
        rw [num_div_inf]
        have h1 : (lit 1 - num 0 (sgn (num y υ) ^^ σ) : Ext).Is (1 - 0) := l1.sub ⟨_, rfl⟩
        have h2 := hlog _ _ h1 (by norm_num)
        have h3 := hdI.mul h2
        rw [dist, mul_zero]
        exact h3
      · rw [lit_ext, num_div_inf]
        exact ⟨_, rfl⟩
    · have hNI : (lit 1 / (lit 1 - z) : Ext).Is (1 / p) := l1.div hpI hpz
      have hN0 : 1 / p ≠ 0 := one_div_ne_zero hpz
      have h1 := hdI.mul (hlog _ _ (l1.sub (hu.div hNI hN0)) (by
        rw [div_div_eq_mul_div, div_one]; exact hyp))
      constructor
      · rw [div_div_eq_mul_div, div_one] at h1
        exact h1
      · have h2 := l1.div hNI hN0
        rw [one_div_one_div] at h2
        exact h2
  have hde := dist_exp hD hyp
  refine ⟨dist D p y, p, hmain.1, hmain.2, rfl, hp0, hp1, ?_, ?_, by rw [hde]; ring⟩
  · unfold dist
    have : Real.log (1 - y * p) ≤ 0 := Real.log_nonpos hyp.le (by nlinarith)
    rw [neg_div, neg_mul]
    have := mul_nonneg (one_div_pos.2 hD).le (neg_nonneg.2 this)
    linarith
  · induction M with
    | top => exact le_top
    | bot => exact absurd hM0 (by simp)
    | coe m =>
      rw [EReal.coe_le_coe_iff]
      have hm0 : 0 ≤ m := EReal.coe_nonneg.1 hM0
      have ht : transmission D (m : EReal) = Real.exp (-(D * m)) := by
        rw [transmission, if_neg (EReal.coe_ne_top _), EReal.toReal_coe]
      have h3 : Real.exp (-(D * m)) ≤ Real.exp (-(D * dist D p y)) := by
        rw [hde, hp, ht]
        have : 0 ≤ 1 - Real.exp (-(D * m)) := by rw [← ht]; linarith
        nlinarith
      have h4 := Real.exp_le_exp.1 h3
      have : D * dist D p y ≤ D * m := by linarith
      exact le_of_mul_le_mul_left this hD

/-- The distances sampled from a uniform random number are exponentially distributed, truncated to the
length `M` in the fog: the probability of a distance up to `x` is the probability to scatter before `x`
divided by the probability to scatter at all. -/
theorem C49_distribution (d max : Ext) (D : ℝ) (M : EReal) (hd : d.Is D) (hD : 0 < D)
    (hM : CmpModel.key max = some M) (hM0 : 0 < M) (x : ℝ) (hx : 0 ≤ x) (hxM : (x : EReal) ≤ M) :
    volume {y : ℝ | 0 ≤ y ∧ y < 1 ∧ ∃ t, (randExpInterval (fin y) d max).1.Is t ∧ t ≤ x} =
      ENNReal.ofReal ((1 - Real.exp (-(D * x))) / (1 - transmission D M)) := by
  have hT1 : transmission D M < 1 := by
    unfold transmission
    split_ifs with h
    · norm_num
    · rw [Real.exp_lt_one_iff]
      have : 0 < M.toReal := EReal.toReal_pos hM0 h
      have := mul_pos hD this
      linarith
  have hw : 0 < 1 - transmission D M := by linarith
  set q := (1 - Real.exp (-(D * x))) / (1 - transmission D M) with hq
  have hTx : transmission D M ≤ Real.exp (-(D * x)) := by
    unfold transmission
    split_ifs with h
    · exact (Real.exp_pos _).le
    · have : x ≤ M.toReal := EReal.coe_le_coe_iff.1 (by
        rw [EReal.coe_toReal h (ne_bot_of_gt hM0)]; exact hxM)
      apply Real.exp_le_exp.2
      have := mul_le_mul_of_nonneg_left this hD.le
      linarith
  have hq1 : q ≤ 1 := by rw [hq, div_le_one hw]; linarith
  have hq0 : 0 ≤ q := by
    apply div_nonneg _ hw.le
    rw [sub_nonneg, Real.exp_le_one_iff]
    have := mul_nonneg hD.le hx
    linarith
  have hset : {y : ℝ | 0 ≤ y ∧ y < 1 ∧ ∃ t, (randExpInterval (fin y) d max).1.Is t ∧ t ≤ x} =
      {y : ℝ | 0 ≤ y ∧ y < 1 ∧ y ≤ q} := by
    ext y
    simp only [Set.mem_ofPred_eq]
    constructor
    · rintro ⟨h0, h1, t, ht, htx⟩
      refine ⟨h0, h1, ?_⟩
      obtain ⟨t', w, ht', -, hwe, -, -, -, -, he⟩ := C49_sample (fin y) d max y D M ⟨_, rfl⟩ hd hM hD h0 h1 hM0.le
      obtain ⟨a, ha⟩ := ht
      obtain ⟨b, hb⟩ := ht'
      rw [ha] at hb
      have : t = t' := (Ext.num.inj hb).1
      subst this
      rw [hq, le_div_iff₀ hw, ← hwe, ← he]
      have : Real.exp (-(D * x)) ≤ Real.exp (-(D * t)) := Real.exp_le_exp.2 (by
        have := mul_le_mul_of_nonneg_left htx hD.le; linarith)
      linarith
    · rintro ⟨h0, h1, hyq⟩
      obtain ⟨t', w, ht', -, hwe, -, -, -, -, he⟩ := C49_sample (fin y) d max y D M ⟨_, rfl⟩ hd hM hD h0 h1 hM0.le
      refine ⟨h0, h1, t', ht', ?_⟩
      rw [hq, le_div_iff₀ hw, ← hwe, ← he] at hyq
      have : Real.exp (-(D * x)) ≤ Real.exp (-(D * t')) := by linarith
      have := Real.exp_le_exp.1 this
      have : D * t' ≤ D * x := by linarith
      exact le_of_mul_le_mul_left this hD
  rw [hset]
  rcases hq1.lt_or_eq with h | h
  · have : {y : ℝ | 0 ≤ y ∧ y < 1 ∧ y ≤ q} = Set.Icc 0 q := by
      ext y; simp only [Set.mem_ofPred_eq, Set.mem_Icc]
      exact ⟨fun ⟨a, _, c⟩ => ⟨a, c⟩, fun ⟨a, c⟩ => ⟨a, lt_of_le_of_lt c h, c⟩⟩
    rw [this, Real.volume_Icc, sub_zero]
  · have : {y : ℝ | 0 ≤ y ∧ y < 1 ∧ y ≤ q} = Set.Ico 0 1 := by
      ext y; simp only [Set.mem_ofPred_eq, Set.mem_Ico, h]
      exact ⟨fun ⟨a, b, _⟩ => ⟨a, b⟩, fun ⟨a, b⟩ => ⟨a, b, b.le⟩⟩
    rw [this, Real.volume_Ico, sub_zero, h]

/-- Scattering fog, seen along a camera ray that is not exactly horizontal: the point where the lights
are sampled is (up to the offset `tiny`) on the ray between the entry into the fog `a` and the end `b` of
the fog or the background, the lights are weighted with the probability of scattering, and the
background with its complement. -/
theorem C49_fog {S : Type} (rng : Rng Ext S) (s : Scene Ext) (d : Ext) (D : ℝ) (hd : d.Is D)
    (hD : 0 < D) (height : Ext) (H : ℝ) (hH : height.Is H) (numLight : Int) (r : Ray Ext) (R : Ray ℝ)
    (hr : r.Is R) (hdir : R.dir.y ≠ 0) (tMax : Ext) (T : EReal) (hT : CmpModel.key tMax = some T)
    (orig : Color Ext) (ctx : Ctx Ext S) (hc : ctx.depth = 1) (uv : Ext × Ext) (ctx₁ : Ctx Ext S)
    (hg : ctx.generate2 rng = .ok (uv, ctx₁)) (y : ℝ) (hu : uv.1.Is y) (hy0 : 0 ≤ y) (hy1 : y < 1)
    (c : Color Ext) (ctx' : Ctx Ext S)
    (he : (Medium.fog d height numLight).filter rng s r tMax orig ctx = .ok (c, ctx')) :
    ∃ (a t w : ℝ) (b : EReal) (p : Vec Ext) (W tr : Ext) (acc : Color Ext) (ctx₂ : Ctx Ext S),
      0 ≤ a ∧ (a : EReal) ≤ b ∧
      (∀ t : ℝ, ((a : EReal) < t ∧ (t : EReal) < b) ↔ (0 < t ∧ (t : EReal) < T ∧ (R.at t).y < H)) ∧
      a ≤ t ∧ (t : EReal) ≤ b ∧ p.Is (R.at (t - 1 / (1204 * 1024))) ∧
      W.Is w ∧ w = 1 - transmission D (b - a) ∧ tr.Is (1 - w) ∧
      fogLoop rng s.occlude p W numLight s.lights Color.black ctx₁.takeRay.2 = .ok (acc, ctx₂) ∧
      c = (orig.mul tr).add acc := by
  obtain ⟨a, b, k1, k2, ha0, hab, hm⟩ := fogInterval_spec H height hH r R hr hdir tMax T hT
  have hi : ctx.isInitial = .ok true := by simp [Ctx.isInitial, hc]
  obtain ⟨ht, -⟩ := transmission_spec d D hd hD _ _ a b k1 k2 hab
  have hL : 0 ≤ b - (a : EReal) := (EReal.sub_nonneg (.inr (EReal.coe_ne_top a)) (.inr (EReal.coe_ne_bot a))).2 hab
  have hsa := Ext.Is.of_key k1
  -- key of the length
  have kl : CmpModel.key ((fogInterval height r tMax).2 - (fogInterval height r tMax).1) = some (b - (a : EReal)) := by
    obtain ⟨σ, hσ⟩ := hsa
    rw [hσ]
    generalize (fogInterval height r tMax).2 = e at k2
    cases e with
    | nan => cases k2
    | inf q =>
      cases q with
      | true =>
        have : b = ⊥ := (Option.some.inj k2).symm
        subst this
        exact absurd hab (by simp)
      | false =>
        have : b = ⊤ := (Option.some.inj k2).symm
        subst this
        rfl
    | num x τ =>
      have : b = (x : EReal) := (Option.some.inj k2).symm
      subst this
      rw [num_sub_num]
      rfl
  obtain ⟨τ, w, hτ, hw, hwe, -, -, hτ0, hτM, -⟩ := C49_sample uv.1 d _ y D _ hu hd kl hD hy0 hy1 hL
  simp only [Medium.filter, fogScatter, hi, ok_bind, Bool.not_true, Bool.false_eq_true, if_false, hg] at he
  obtain ⟨⟨acc, k⟩, e1, e2⟩ := bind_eq_ok.1 he
  have h2 := Prod.mk.inj (Except.ok.inj e2)
  have htiny : (tiny : Ext).Is (1 / (1204 * 1024)) := by
    have := Ext.Is.lit (1 / (1204 * 1024))
    push_cast at this
    exact this
  refine ⟨a, a + τ, w, b, _, _, _, acc, k, ha0, hab, hm, by linarith, ?_,
    hr.at ((hsa.add hτ).sub htiny), hw, hwe, ?_, e1, h2.1.symm⟩
  · rw [EReal.coe_add]
    calc (a : EReal) + τ ≤ a + (b - a) := by gcongr
      _ ≤ b := by
        induction b with
        | top => exact le_top
        | bot => exact absurd hab (by simp)
        | coe b => rw [← EReal.coe_sub, ← EReal.coe_add]; exact EReal.coe_le_coe_iff.2 (by linarith)
  · rw [hwe, sub_sub_cancel]; exact ht

/-- Half of the samples in an infinite fog of density 1 are nearer than ln 2. -/
example : volume {y : ℝ | 0 ≤ y ∧ y < 1 ∧ ∃ t, (randExpInterval (fin y) (fin 1) (inf false)).1.Is t ∧
    t ≤ Real.log 2} = ENNReal.ofReal (1 / 2) := by
  rw [C49_distribution (fin 1) (inf false) 1 ⊤ ⟨_, rfl⟩ one_pos rfl (by simp) (Real.log 2)
    (Real.log_nonneg (by norm_num)) le_top]
  congr 1
  rw [transmission, if_pos rfl, one_mul, Real.exp_neg, Real.exp_log (by norm_num)]
  norm_num

end BR
