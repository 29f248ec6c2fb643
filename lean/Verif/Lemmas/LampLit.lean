import Verif.Lemmas.Lit
import Verif.Spec.Lamps

/-! The light field of a scene of bodies and lamps of any kind, in extended numbers. -/

namespace BR

variable {S : Type}

private theorem big_is : (lit (9 * 10 ^ 99) : Ext).Is (9 * 10 ^ 99) := ⟨false, by rw [Ext.lit_ext]; push_cast; rfl⟩

/-- Contexts with the frame `f` draw pairs in the unit square for which `draw` holds. -/
def DrawsIn (rng : Rng Ext S) (f : Frame Ext) (draw : ℝ × ℝ → Prop) : Prop :=
  ∀ ctx : Ctx Ext S, ctx.frame = f → ∃ uv ctx' q, ctx.generate2 rng = .ok (uv, ctx') ∧ ctx'.frame = f ∧ q ∈ unitSq ∧
    uv.1.Is q.1 ∧ uv.2.Is q.2 ∧ draw q

theorem drawsIn_rng {rng : Rng Ext S} (h : ∀ st, InUnitSq (rng.next2 st).1) {f : Frame Ext} (h0 : 2 < f.depth) :
    DrawsIn rng f fun q => q ∈ unitSq := by
  rintro ctx rfl
  have h0 : 2 < ctx.depth := h0
  unfold Ctx.generate2
  rw [if_neg (by omega), if_neg (by omega), if_neg (by omega)]
  obtain ⟨q, hq, hU, hV⟩ := h ctx.seq3
  exact ⟨_, _, q, rfl, rfl, hq, hU, hV, hq⟩

theorem drawsIn_seq1 {rng : Rng Ext S} {f : Frame Ext} (h0 : f.depth = 1) {uv : Ext × Ext} (e : f.seq1.generate2 = .ok uv)
    {q : ℝ × ℝ} (hq : q ∈ unitSq) (hU : uv.1.Is q.1) (hV : uv.2.Is q.2) : DrawsIn rng f fun p => p = q := by
  rintro ctx rfl
  have h0 : ctx.depth = 1 := h0
  have e : ctx.seq1.generate2 = .ok uv := e
  unfold Ctx.generate2
  rw [if_neg (by omega), if_pos h0, e]
  exact ⟨uv, ctx, q, rfl, rfl, hq, hU, hV, rfl⟩

theorem drawsIn_seq2 {rng : Rng Ext S} {f : Frame Ext} (h0 : f.depth = 2) {uv : Ext × Ext} (e : f.seq2.generate2 = .ok uv)
    {q : ℝ × ℝ} (hq : q ∈ unitSq) (hU : uv.1.Is q.1) (hV : uv.2.Is q.2) : DrawsIn rng f fun p => p = q := by
  rintro ctx rfl
  have h0 : ctx.depth = 2 := h0
  have e : ctx.seq2.generate2 = .ok uv := e
  unfold Ctx.generate2
  rw [if_neg (by omega), if_neg (by omega), if_pos h0, e]
  exact ⟨uv, ctx, q, rfl, rfl, hq, hU, hV, rfl⟩

/-- The light of the lamps that falls on a surface. -/
theorem directLoop_in (rng : Rng Ext S) {s : Scene Ext} {sky : Option (Vec ℝ → Color ℝ)} {things : List (List Body)}
    {f : Frame Ext} {draw : ℝ × ℝ → Prop} (hdr : DrawsIn rng f draw)
    {p n : Vec Ext} {P N : Vec ℝ} (hp : p.Is P) (hn : n.Is N) {lights : List (Light Ext)} {lamps : List Emitter}
    (hl : List.Forall₂ Emits lights lamps) (hfar : ∀ L ∈ lamps, ∀ q ∈ unitSq, (L q).pos ≠ P ∧ (0 < ((L q).pos.sub P).dot N →
      List.Forall₂ (StandsFor sky (length3 ((L q).pos.sub P) ≤ 9 * 10 ^ 99) ⟨P, unitVec ((L q).pos.sub P)⟩) s.objects things ∧
        (sky ≠ none → length3 ((L q).pos.sub P) ≤ 10 ^ 99))) {acc : Color Ext} {A : Color ℝ} (ha : acc.Is A)
    (ctx : Ctx Ext S) (hf : ctx.frame = f) :
    ∃ c C ctx', directLoop rng s.occlude p n lights acc ctx = .ok (c, ctx') ∧
      AllArrive draw (fun R' len => ThroughAll R' len things) P N lamps C ∧
      c.Is ⟨A.R + C.R, A.G + C.G, A.B + C.B⟩ ∧ ctx'.frame = f := by
  induction hl generalizing acc A ctx with
  | nil => exact ⟨acc, ⟨0, 0, 0⟩, ctx, rfl, rfl, ha.of_eq (by simp), hf⟩
  | @cons l L lights lamps hL _ ih =>
    obtain ⟨uv, ctx1, q, eq, hf1, hq, hU, hV, hdraw⟩ := hdr ctx hf
    obtain ⟨hne, hshadow⟩ := hfar L (by simp) q hq
    replace ih := fun {acc : Color Ext} {A : Color ℝ} (ha : acc.Is A) => ih (fun L' h' => hfar L' (by simp [h'])) ha
    obtain ⟨pos, intens, ctx2, esample, hpos, hint, hctx⟩ := hL S rng ctx ctx1 uv q p P eq hU hV hq hp hne
    have hf2 : ctx2.frame = f := by rcases hctx with rfl | rfl <;> assumption
    have hd : (pos.sub p).Is ((L q).pos.sub P) := hpos.sub hp
    have hd0 : (L q).pos.sub P ≠ ⟨0, 0, 0⟩ := by
      intro e
      apply hne
      simp only [geo] at e ⊢
      refine ⟨?_, ?_, ?_⟩ <;> linarith [e.1, e.2.1, e.2.2]
    have edef : ∀ C, Arrives (fun R' len => ThroughAll R' len things) P N (L q) C ↔
        ((((L q).pos.sub P).dot N ≤ 0 ∧ C = ⟨0, 0, 0⟩) ∨
        (0 < ((L q).pos.sub P).dot N ∧ ∃ c, ThroughAll ⟨P, unitVec ((L q).pos.sub P)⟩
          (length3 ((L q).pos.sub P)) things ((L q).light P) c ∧
          C = ⟨c.R * (((L q).pos.sub P).dot N / length3 ((L q).pos.sub P)),
            c.G * (((L q).pos.sub P).dot N / length3 ((L q).pos.sub P)),
            c.B * (((L q).pos.sub P).dot N / length3 ((L q).pos.sub P))⟩)) := fun C => Iff.rfl
    generalize (L q).pos.sub P = d at hd hd0 hshadow edef
    have hpd := dot_self_pos hd0
    have hlen : length3 d = Real.sqrt (d.dot d) := by unfold length3; simp only [geo]; ring_nf
    have hlen0 : 0 < length3 d := by rw [hlen]; exact Real.sqrt_pos.2 hpd
    have hdir := hd.normalized hd0
    have hcos := hdir.dot hn
    have ecos : (unitVec d).dot N = d.dot N / length3 d := by
      unfold unitVec
      rw [← hlen]
      simp only [geo]
      ring
    rw [ecos] at hcos
    have hray : (⟨p, (pos.sub p).normalized⟩ : Ray Ext).Is ⟨P, unitVec d⟩ := ⟨hp, hdir⟩
    have hlenI : ((pos.sub p).len).Is (length3 d) := by
      rw [hlen]
      exact (hd.dot hd).sqrt hpd.le
    have hocc := fun h => occludeLoop_is hray hlenI (hshadow h).1 (hshadow h).2 hint
    have hpos' : 0 < d.dot N / length3 d ↔ 0 < d.dot N := div_pos_iff_of_pos_right hlen0
    generalize (L q).light P = I at hint edef hocc
    generalize d.dot N / length3 d = cosine at hcos edef hpos'
    rw [directLoop, esample, ok_bind]
    dsimp only
    rw [Color.isZero, hint.1.eq lit0_is, hint.2.1.eq lit0_is, hint.2.2.eq lit0_is, hcos.le lit0_is]
    by_cases hz : I = ⟨0, 0, 0⟩
    · subst hz
      rw [if_pos (by simp)]
      obtain ⟨c, C, ctx3, e, hA, hc, hf3⟩ := ih ha ctx2 hf2
      refine ⟨c, C, ctx3, e, ⟨q, ⟨0, 0, 0⟩, C, hdraw, (edef _).2 ?_, hA, by simp⟩, hc, hf3⟩
      rcases le_or_gt (d.dot N) 0 with h0 | h0
      · exact .inl ⟨h0, rfl⟩
      · obtain ⟨c', C', e1, h1, h2⟩ := hocc h0
        refine .inr ⟨h0, C', h2, ?_⟩
        rw [throughAll_black h2]
        simp
    · rw [if_neg (by
        intro h
        apply hz
        obtain ⟨I1, I2, I3⟩ := I
        simp only [Bool.and_eq_true, decide_eq_true_eq] at h
        rw [Color.mk.injEq]
        exact ⟨h.1.1, h.1.2, h.2⟩)]
      rcases le_or_gt cosine 0 with h0 | h0
      · rw [if_pos (by simpa using h0)]
        obtain ⟨c, C, ctx3, e, hA, hc, hf3⟩ := ih ha ctx2 hf2
        exact ⟨c, C, ctx3, e, ⟨q, ⟨0, 0, 0⟩, C, hdraw, (edef _).2 (.inl ⟨not_lt.1 (hpos'.not.1 (not_lt.2 h0)), rfl⟩), hA, by simp⟩,
          hc, hf3⟩
      · rw [if_neg (by simpa using h0)]
        obtain ⟨c', C', e1, h1, h2⟩ := hocc (hpos'.1 h0)
        have e1' : s.occlude ⟨p, (pos.sub p).normalized⟩ (pos.sub p).len intens =
          .ok (c', ⟨p, (pos.sub p).normalized⟩) := e1
        simp only [e1', ok_bind]
        obtain ⟨c, C, ctx3, e, hA, hc, hf3⟩ := ih (ha.add (h1.mul hcos)) ctx2 hf2
        refine ⟨c, _, ctx3, e, ⟨q, _, C, hdraw, (edef _).2 (.inr ⟨hpos'.1 h0, C', h2, rfl⟩), hA, rfl⟩, hc.of_eq ?_, hf3⟩
        simp only [Color.mk.injEq]
        refine ⟨?_, ?_, ?_⟩ <;> ring

/-- A light field that gives, for the rays of unit length in `ask` and contexts with the frame `f`, finite colours that
satisfy `next`. -/
def SendsIn (lf : LF Ext S) (f : Frame Ext) (ask : Field → Ray ℝ → Prop) (next : Field → Ray ℝ → Color ℝ → Prop) : Prop :=
  ∀ (fld : Field) (r : Ray Ext) (R : Ray ℝ) (ctx : Ctx Ext S), r.Is R → R.dir.dot R.dir = 1 → ask fld R → ctx.frame = f →
    ∃ c C ctx', lf fld r ctx = .ok (c, ctx') ∧ c.Is C ∧ next fld R C ∧ ctx'.frame = f

theorem withRay_sendsIn {lf : LF Ext S} {f : Frame Ext} {ask : Field → Ray ℝ → Prop} {next : Field → Ray ℝ → Color ℝ → Prop} (hlf : SendsIn lf f ask next) :
    SendsIn (withRay lf) f ask next := by
  intro fld r R ctx hr hu hask hf
  obtain ⟨c, C, ctx', e, hc, hn, hf'⟩ := hlf fld r R ctx.takeRay.2 hr hu hask hf
  refine ⟨c, C, ctx'.putRay ctx.takeRay.1, ?_, hc, hn, hf'⟩
  unfold withRay
  dsimp only
  rw [e, ok_bind]
  rfl

/-- What a surface sends back. -/
theorem shade_in (rng : Rng Ext S) {s : Scene Ext} {sky : Option (Vec ℝ → Color ℝ)} {things : List (List Body)}
    {lamps : List Emitter}
    (hl : List.Forall₂ Emits s.lights lamps) {lf : LF Ext S} {f : Frame Ext} {ask : Field → Ray ℝ → Prop}
    {next : Field → Ray ℝ → Color ℝ → Prop} (hlf : SendsIn lf f ask next) {draw : ℝ × ℝ → Prop} (hdr : DrawsIn rng f draw)
    {r : Ray Ext} {R : Ray ℝ} (hr : r.Is R) (hu : R.dir.dot R.dir = 1) {t : Ext} {T : ℝ} (ht : t.Is T) {n : Vec Ext}
    {N : Vec ℝ} (hn : n.Is N) (hN : N.dot N = 1) {loc : Vec Ext} {m : Mat Ext} {X : Surface} (hm : m.Appears loc X)
    (hcast : CastsIn (fun R' len => List.Forall₂ (StandsFor sky (len ≤ 9 * 10 ^ 99) R') s.objects things ∧ (sky ≠ none → len ≤ 10 ^ 99))
      ask lamps R T N X) (ctx : Ctx Ext S) (hf : ctx.frame = f) :
    ∃ c C ctx', m.shade rng s lf r ⟨t, n, loc⟩ ctx = .ok (c, ctx') ∧ c.Is C ∧ GivesIn draw (fun R' len => ThroughAll R' len things) lamps next R T N X C ∧
      ctx'.frame = f := by
  have hback : (⟨r.at (t - tiny), reflect r.dir n⟩ : Ray Ext).Is ⟨R.at (T - gap), reflect R.dir N⟩ :=
    ⟨hr.at (ht.sub tiny_is), reflect_is hr.2 hn⟩
  have hmir := C44_mirror R.dir N hN
  have hru := reflect_unit hu hN
  induction hm generalizing ctx with
  | black => exact ⟨_, _, ctx, rfl, black_is, rfl, hf⟩
  | @flat tex c C e hc =>
    refine ⟨c, C, ctx, ?_, hc, rfl, hf⟩
    simp only [Mat.shade, e, ok_bind]
    rfl
  | @matte tex k K e hk =>
    have hfn := flipTowards_is hn hr.2
    have hP := (hr.at ht).madd tiny_is hfn
    have eP : (R.at T).madd gap (facing N R.dir) = (R.at T).add ((facing N R.dir).mul gap) := by
      simp only [geo]
    rw [eP] at hP
    obtain ⟨a, A, ctx0, e1, hA, ha, hf0⟩ := directLoop_in rng hdr hP hfn hl hcast.1 black_is ctx.takeRay.2 hf
    obtain ⟨uv, ctx1, q, e2, hf1, hq, hU, hV, hdraw⟩ := hdr ctx0 hf0
    have V0 : 0 ≤ q.2 := hq.2.1
    have V1 : q.2 ≤ 1 := hq.2.2.le
    have hω := cosineSphere_is hU hV V0 V1 hfn (facing_unit hN)
    obtain ⟨hωu, hωn⟩ := unit_above (U := q.1) V0 V1 (facing_unit (D := R.dir) hN)
    have hst := hP.madd tiny_is hfn
    have est : ((R.at T).add ((facing N R.dir).mul gap)).madd gap (facing N R.dir) =
        (R.at T).add ((facing N R.dir).mul (2 * gap)) := by
      simp only [geo]; refine ⟨?_, ?_, ?_⟩ <;> ring
    rw [est] at hst
    obtain ⟨b, B, ctx2, e3, hb, hnx, hf2⟩ := hlf .indirect ⟨((r.at t).madd tiny (flipTowards n r.dir)).madd tiny
      (flipTowards n r.dir), cosineSphere uv.1 uv.2 (flipTowards n r.dir)⟩ ⟨_, _⟩ ctx1 ⟨hst, hω⟩ hωu (hcast.2 _ hωu hωn) hf1
    refine ⟨(a.add b).mul3 k, ⟨K.R * (A.R + B.R), K.G * (A.G + B.G), K.B * (A.B + B.B)⟩, ctx2.putRay ctx.takeRay.1, ?_,
      ((ha.add hb).mul3 hk).of_eq ?_, ⟨q, A, B, hdraw, hA, hnx, rfl⟩, hf2⟩
    · simp only [Mat.shade, shadeMatte]
      rw [e1, ok_bind]
      dsimp only
      rw [e2, ok_bind]
      dsimp only
      rw [e3, ok_bind]
      dsimp only
      rw [e, ok_bind]
      rfl
    · simp only [Color.mk.injEq]
      refine ⟨?_, ?_, ?_⟩ <;> ring
  | @reflective k K hk =>
    obtain ⟨b, B, ctx2, e3, hb, hnx, hf2⟩ := withRay_sendsIn hlf .direct _ _ ctx hback hru (hcast _ hmir) hf
    refine ⟨b.mul3 k, _, ctx2, ?_, (hb.mul3 hk).of_eq ?_, ⟨_, B, hmir, hnx, rfl⟩, hf2⟩
    · simp only [Mat.shade, e3, ok_bind]
      rfl
    · simp only [Color.mk.injEq]
      refine ⟨?_, ?_, ?_⟩ <;> ring
  | @reflectFresnel n' M m X hn' hM _ ih =>
    obtain ⟨ct, c0, c1, hρ⟩ := fresnelReflection_is hn' hM (hn.dot hr.2).abs (abs_nonneg _)
    obtain ⟨a, A, ctx1, e1, ha, hA, hf1⟩ := ih hcast.2 ctx.takeRay.2 hf
    obtain ⟨b, B, ctx2, e2, hb, hnx, hf2⟩ := hlf .direct _ _ ctx1 hback hru (hcast.1 _ hmir) hf1
    refine ⟨_, _, ctx2.putRay ctx.takeRay.1, ?_, ((hb.mul hρ).madd (lit1_is.sub hρ) ha).of_eq ?_,
      ⟨_, A, B, _, ct, _, rfl, c0, c1, rfl, hA, hmir, hnx, rfl⟩, hf2⟩
    · simp only [Mat.shade]
      rw [e1, ok_bind]
      dsimp only
      rw [e2, ok_bind]
      rfl
    · simp only [Color.mk.injEq]
      refine ⟨?_, ?_, ?_⟩ <;> ring
  | @refractive n1 n2 N1 N2 h1 h2 p1 p2 hne =>
    obtain ⟨I, hI, hm12, n', i', m1, m2, ci, s2, eg, hn', hi', hm1, hm2, hci, hs2⟩ :=
      refractGeom_is h1 h2 p1 p2 hr.2 hn hu hN
    have q1 : 0 < I.m₁ := by rcases hm12 with ⟨e, -⟩ | ⟨e, -⟩ <;> rw [e] <;> assumption
    have q2 : 0 < I.m₂ := by rcases hm12 with ⟨-, e⟩ | ⟨-, e⟩ <;> rw [e] <;> assumption
    have q12 : I.m₁ ≠ I.m₂ := by rcases hm12 with ⟨e, e'⟩ | ⟨e, e'⟩ <;> rw [e, e'] <;> first | exact hne | exact hne.symm
    have hq0 : 0 ≤ I.m₁ * I.sinI / I.m₂ := div_nonneg (mul_nonneg q1.le (sinI_nonneg I)) q2.le
    have hiff : (I.m₁ * I.sinI / I.m₂) ^ 2 ≤ 1 ↔ I.m₁ * I.sinI ≤ I.m₂ := by
      rw [sq_le_one_iff₀ hq0, div_le_one q2]
    by_cases htot : I.m₁ * I.sinI ≤ I.m₂
    · have hQ := hiff.2 htot
      obtain ⟨k1, k2, k3, k4⟩ := refract_snell I hI.i_unit hI.n_unit q2 rfl hQ
      have hR := refractR_is hm1 hm2 q1 q2 hci (by linarith [hI.side]) hs2 hQ (by
        by_contra hcon
        push Not at hcon
        have hz : I.i.dot I.n = 0 := by linarith [hI.side, hcon.1]
        have hsq := sinI_sq I hI.i_unit hI.n_unit
        rw [hz] at hsq
        have hs1 : I.sinI = 1 := by
          have := sinI_nonneg I
          nlinarith
        rw [hs1, mul_one] at htot hcon
        have : I.m₁ / I.m₂ < 1 := (div_lt_one q2).2 (lt_of_le_of_ne htot q12)
        have h0 : 0 ≤ I.m₁ / I.m₂ := by positivity
        nlinarith [hcon.2])
      rw [k4] at hR
      have hD := refractDir_is (hm1.div hm2 q2.ne') hci hs2 hQ hi' hn'
      have hrefl := reflect_is hi' hn'
      have hside : (refractDir (I.m₁ / I.m₂) (-I.i.dot I.n) ((I.m₁ * I.sinI / I.m₂) ^ 2) I.i I.n).dot I.n ≤ 0 := by
        rw [k1]
        linarith [Real.sqrt_nonneg (1 - (I.m₁ * I.sinI / I.m₂) ^ 2)]
      obtain ⟨a, A, ctx1, e1, ha, hA, hf1⟩ := hlf .direct ⟨r.at (t + tiny), refractDir (m1 / m2) ci s2 i' n'⟩ ⟨R.at (T + gap), _⟩ ctx.takeRay.2
        ⟨hr.at (ht.add tiny_is), hD⟩ k2 ((hcast I hI).2 htot _ k2 hside k3) hf
      obtain ⟨b, B, ctx2, e2, hb, hB, hf2⟩ := hlf .direct ⟨r.at (t - tiny), reflect i' n'⟩ ⟨R.at (T - gap), _⟩ ctx1.takeRay.2
        ⟨hr.at (ht.sub tiny_is), hrefl⟩ (reflect_unit hI.i_unit hI.n_unit)
        ((hcast I hI).1 _ (.inr (C44_mirror _ _ hI.n_unit))) hf1
      refine ⟨_, _, (ctx2.putRay ctx1.takeRay.1).putRay ctx.takeRay.1, ?_, ((hb.mul hR).add (ha.mul (lit1_is.sub hR))).of_eq ?_,
        ⟨I, hI, .inr ⟨htot, _, _, A, B, _, k2, hside, k3, C44_mirror _ _ hI.n_unit, rfl, hA, hB, rfl⟩⟩, hf2⟩
      · simp only [Mat.shade, shadeRefractive]
        rw [eg]
        dsimp only
        rw [lit1_is.lt hs2, if_neg (by simpa using hQ)]
        rw [e1, ok_bind]
        dsimp only
        rw [e2, ok_bind]
        rfl
      · simp only [Color.mk.injEq]
        refine ⟨?_, ?_, ?_⟩ <;> ring
    · obtain ⟨b, B, ctx2, e3, hb, hnx, hf2⟩ := withRay_sendsIn hlf .direct _ _ ctx hback hru ((hcast I hI).1 _ (.inl hmir)) hf
      refine ⟨b, B, ctx2, ?_, hb, ⟨I, hI, .inl ⟨not_le.1 htot, _, hmir, hnx⟩⟩, hf2⟩
      simp only [Mat.shade, shadeRefractive]
      rw [eg]
      dsimp only
      rw [lit1_is.lt hs2, if_pos (by rw [decide_eq_true_eq, ← not_le, hiff]; exact htot)]
      exact e3
  | @transparent tex useRec k K e hk =>
    obtain ⟨b, B, ctx2, e3, hb, hnx, hf2⟩ := hlf .indirect ⟨r.at (t + tiny), r.dir⟩ ⟨R.at (T + gap), R.dir⟩ ctx.takeRay.2
      ⟨hr.at (ht.add tiny_is), hr.2⟩ hu hcast hf
    refine ⟨_, _, ctx2.putRay ctx.takeRay.1, ?_, (hb.mul3 hk).of_eq ?_, ⟨B, hnx, rfl⟩, hf2⟩
    · simp only [Mat.shade]
      rw [e3, ok_bind]
      dsimp only
      rw [e, ok_bind]
      rfl
    · simp only [Color.mk.injEq]
      refine ⟨?_, ?_, ?_⟩ <;> ring
  | @twoSided m m' X Y _ _ ih1 ih2 =>
    simp only [Mat.shade]
    rw [lit0_is.lt (hr.2.dot hn)]
    by_cases h0 : 0 < R.dir.dot N
    · rw [if_pos (by simpa using h0)]
      obtain ⟨c, C, ctx', e, hc, hg, hf'⟩ := ih1 (hcast.1 h0) ctx hf
      exact ⟨c, C, ctx', e, hc, .inl ⟨h0, hg⟩, hf'⟩
    · rw [if_neg (by simpa using h0)]
      obtain ⟨c, C, ctx', e, hc, hg, hf'⟩ := ih2 (hcast.2 (not_lt.1 h0)) ctx hf
      exact ⟨c, C, ctx', e, hc, .inr ⟨not_lt.1 h0, hg⟩, hf'⟩
  | @blend a b A B m m' X Y hA hB _ _ ih1 ih2 =>
    obtain ⟨c, C, ctx1, e1, hc, hg, hf1⟩ := ih1 hcast.1 ctx hf
    obtain ⟨c', C', ctx2, e2, hc', hg', hf2⟩ := ih2 hcast.2 ctx1 hf1
    refine ⟨_, _, ctx2, ?_, ((hc.mul hA).madd hB hc').of_eq ?_, ⟨C, C', fun _ => hg, fun _ => hg', rfl⟩, hf2⟩
    · simp only [Mat.shade]
      rw [e1, ok_bind]
      dsimp only
      rw [e2, ok_bind]
      rfl
    · simp only [Color.mk.injEq]
      refine ⟨?_, ?_, ?_⟩ <;> ring
  | @blendMap tex c K m m' X Y e hK k0 k1 _ _ ih1 ih2 =>
    have opt : ∀ {key : Ext} {κ : ℝ} {mm : Mat Ext} {Z : Surface}, key.Is κ → 0 ≤ κ →
        (∀ ctx : Ctx Ext S, ctx.frame = f → ∃ c C ctx', mm.shade rng s lf r ⟨t, n, loc⟩ ctx = .ok (c, ctx') ∧ c.Is C ∧
          GivesIn draw (fun R' len => ThroughAll R' len things) lamps next R T N Z C ∧ ctx'.frame = f) → ∀ ctx : Ctx Ext S, ctx.frame = f →
        ∃ c C ctx', whenPos key (mm.shade rng s lf r ⟨t, n, loc⟩) ctx = .ok (c, ctx') ∧ c.Is C ∧
          (κ ≠ 0 → GivesIn draw (fun R' len => ThroughAll R' len things) lamps next R T N Z C) ∧ ctx'.frame = f := by
      intro key κ mm Z hk h0 ih ctx hf
      unfold whenPos
      rw [lit0_is.lt hk]
      by_cases hz : 0 < κ
      · rw [if_pos (by simpa using hz)]
        obtain ⟨c, C, ctx', e, hc, hg, hf'⟩ := ih ctx hf
        exact ⟨c, C, ctx', e, hc, fun _ => hg, hf'⟩
      · rw [if_neg (by simpa using hz)]
        exact ⟨_, _, ctx, rfl, black_is, fun h => absurd (le_antisymm (not_lt.1 hz) h0) h, hf⟩
    have hK2 := lit1_is.sub hK
    obtain ⟨ca, C, ctx1, e1, hc, hg, hf1⟩ := opt hK k0 (ih1 hcast.1) ctx hf
    obtain ⟨cb, C', ctx2, e2, hc', hg', hf2⟩ := opt hK2 (sub_nonneg.2 k1) (ih2 hcast.2) ctx1 hf1
    refine ⟨_, _, ctx2, ?_, ((hc.mul hK).madd hK2 hc').of_eq ?_, ⟨C, C', hg, hg', rfl⟩, hf2⟩
    · simp only [Mat.shade]
      rw [e, ok_bind, e1, ok_bind]
      dsimp only
      rw [e2, ok_bind]
      rfl
    · simp only [Color.mk.injEq]
      refine ⟨?_, ?_, ?_⟩ <;> ring

/-- What one hit says about the bodies or the sky. -/
private def TellsAll (sky : Option (Vec ℝ → Color ℝ)) (ghost : Prop) (R : Ray ℝ) (hit : HitRecord Ext (Mat Ext)) (bodies : List Body) : Prop :=
  (∃ T, ∃ b ∈ bodies, hit.t.Is T ∧ 0 < T ∧ b.on (R.at T) ∧ TellsOf b (R.at T) hit ∧
      ∀ other ∈ bodies, ∀ T' > 0, other.on (R.at T') → T ≤ T') ∨
    ((∀ b ∈ bodies, ∀ T > 0, ¬ b.on (R.at T)) ∧
      ((lit 0 <. hit.t) = false ∨ ghost ∧ (hit.t <. (lit (9 * 10 ^ 99) : Ext)) = false)) ∨
    (bodies = [] ∧ hit.t.Is (10 ^ 99) ∧ ∃ col tex c, sky = some col ∧ hit.mat = some (.flat tex) ∧ tex hit.loc = .ok c ∧
      Color.Is c (col R.dir))

/-- What is reported along a ray. -/
private theorem list_reports {sky : Option (Vec ℝ → Color ℝ)} {g : Prop} {R : Ray ℝ} {r : Ray Ext} (hr : r.Is R)
    {objs : List (Obj Ext (Mat Ext))} {bodies : List (List Body)} (h : List.Forall₂ (StandsFor sky g R) objs bodies) :
    ∃ hits, Reports objs r hits ∧ List.Forall₂ (TellsAll sky g R) hits bodies ∧
      ((∃ col, ∃ o ∈ objs, IsSky col o) → ∃ hit ∈ hits, hit.t.Is (10 ^ 99)) := by
  induction h with
  | nil => exact ⟨[], .nil, .nil, by simp⟩
  | @cons o b objs bodies h _ ih =>
    obtain ⟨hits, h1, h2, h3⟩ := ih
    rcases h with h | ⟨rfl, col, hsky, tex, rfl, htex⟩
    · obtain ⟨hit, e, hg⟩ := h r hr
      refine ⟨hit :: hits, .cons ⟨r, e⟩ h1, .cons (hg.imp_right .inl) h2, ?_⟩
      rintro ⟨col, o', ho, hcol⟩
      rcases List.mem_cons.1 ho with rfl | ho
      · obtain ⟨tex, rfl, -⟩ := hcol
        rw [Obj.intersect] at e
        cases e
        exact ⟨_, List.mem_cons_self, sky_is⟩
      · obtain ⟨hit', h4, h5⟩ := h3 ⟨col, o', ho, hcol⟩
        exact ⟨hit', List.mem_cons_of_mem _ h4, h5⟩
    · obtain ⟨c, ec, hc⟩ := htex r.dir R.dir hr.2
      refine ⟨_ :: hits, .cons ⟨r, rfl⟩ h1, .cons (.inr (.inr ⟨rfl, sky_is, col, tex, c, hsky, rfl, ec, hc⟩)) h2, fun _ => ?_⟩
      exact ⟨_, List.mem_cons_self, sky_is⟩

/-- The light field of things and lamps. -/
theorem lightField_in (rng : Rng Ext S) {s : Scene Ext} (hmed : s.media = []) {G : Setting}
    (hl : List.Forall₂ Emits s.lights G.lamps)
    (draw : ℕ → ℝ × ℝ → Prop) (n : Nat) (fld : Field) {r : Ray Ext} {R : Ray ℝ} (hr : r.Is R)
    (hu : R.dir.dot R.dir = 1) (hs : FollowedIn G s n fld R) (ctx : Ctx Ext S)
    (hd : ∀ i : Nat, DrawsIn rng { ctx.frame with depth := ctx.depth + 1 + i } (draw i))
    (hdepth : ctx.depth + n = s.recursionDepth) :
    ∃ c C ctx', s.lightField rng n fld r ctx = .ok (c, ctx') ∧ c.Is C ∧
      LooksIn G draw n fld R C ∧ ctx'.frame = ctx.frame := by
  induction n generalizing draw fld r R ctx with
  | zero =>
    refine ⟨Color.black, _, ctx, ?_, black_is, rfl, rfl⟩
    rw [Scene.lightField, lightFieldFrom_limit _ _ _ _ _ (by simpa using hdepth.symm)]
  | succ n ih =>
    have hne : s.recursionDepth ≠ ctx.depth := by omega
    obtain ⟨hs, hsky, hcasts⟩ := hs
    obtain ⟨hits, hrep, hgood, hback⟩ := list_reports hr hs
    obtain ⟨front, efront, hf⟩ := C13_nearest _ r _ hrep
    -- whatever is met is reported not before its first point
    have met : ∀ b ∈ (G.visible fld).flatten, ∀ T > 0, b.on (R.at T) → ∃ hit ∈ hits, ∃ T2, hit.t.Is T2 ∧ 0 < T2 ∧ T2 ≤ T := by
      intro b hb T hT hon
      obtain ⟨bs, hbs, hb⟩ := List.mem_flatten.1 hb
      obtain ⟨hit, hh, hg⟩ := forall₂_right hgood bs hbs
      rcases hg with ⟨T2, -, -, ht2, h20, -, -, hle⟩ | ⟨hnone, -⟩ | ⟨rfl, -⟩
      · exact ⟨hit, hh, T2, ht2, h20, hle b hb T hT hon⟩
      · exact absurd hon (hnone b hb T hT)
      · simp at hb
    rw [Scene.lightField, Scene.lightFieldFrom, if_neg hne]
    dsimp only
    rw [efront, ok_bind]
    dsimp only
    rcases hf with ⟨before, after, e, hpos, h1, h2⟩ | ⟨hfr, hno⟩
    · have hfm : front ∈ hits := by
        rw [e]; simp
      have nearest : ∀ hit ∈ hits, ∀ T2, hit.t.Is T2 → 0 < T2 → (front.t <=. hit.t) = true := by
        intro hit hh T2 ht2 h20
        have hp2 : (lit 0 <. hit.t) = true := by rw [lit0_is.lt ht2]; simpa using h20
        have hh' := hh
        rw [e] at hh'
        rcases List.mem_append.1 hh' with hh | hh
        · exact h1 hit hh hp2
        · rcases List.mem_cons.1 hh with rfl | hh
          · rw [ht2.le ht2]; simp
          · obtain ⟨a, b, ka, kb, hab⟩ := (CmpModel.lt_iff _ _).1 (h2 hit hh hp2)
            exact (CmpModel.le_iff _ _).2 ⟨a, b, ka, kb, hab.le⟩
      obtain ⟨bs, hbs, hg⟩ := forall₂_left hgood front hfm
      have behind : ∀ hit ∈ hits, ∀ T2, hit.t.Is T2 → 0 < T2 → T2 < 9 * 10 ^ 99 →
          (front.t <. (lit (9 * 10 ^ 99) : Ext)) = false → False := by
        intro hit hh T2 ht2 h20 hlt hfar
        have hb' : (hit.t <. (lit (9 * 10 ^ 99) : Ext)) = true := by
          rw [ht2.lt big_is]; simpa using hlt
        obtain ⟨x, y, kx, ky, hxy⟩ := (CmpModel.le_iff _ _).1 (nearest hit hh T2 ht2 h20)
        obtain ⟨y', z, ky', kz, hyz⟩ := (CmpModel.lt_iff _ _).1 hb'
        rw [ky] at ky'
        cases ky'
        rw [(CmpModel.lt_iff _ _).2 ⟨x, z, kx, kz, lt_of_le_of_lt hxy hyz⟩] at hfar
        cases hfar
      rcases hg with hg | ⟨-, h | ⟨hsome | ⟨b, hb, T, hT, hlt, hon⟩, hfar⟩⟩ | ⟨-, hT, col, tex, c, ecol, hmat, etex, hc⟩
      rotate_left
      · rw [hpos] at h; cases h
      · obtain ⟨col, ecol⟩ := Option.ne_none_iff_exists'.1 hsome
        obtain ⟨hit, hh, ht⟩ := hback ⟨col, (hsky col ecol).1⟩
        exact (behind hit hh _ ht (by norm_num) (by norm_num) hfar).elim
      · obtain ⟨hit, hh, T2, ht2, h20, hle⟩ := met b hb T hT hon
        exact (behind hit hh T2 ht2 h20 (lt_of_le_of_lt hle hlt) hfar).elim
      · refine ⟨c, col R.dir, ctx, ?_, hc, .inr ⟨?_, by rw [ecol]; rfl⟩, rfl⟩
        · simp only [shadeFront, hmat, Mat.shade, etex, ok_bind, hmed, mediaLoop, pure_ok]
          simp
        · intro b hb T hT' hon
          obtain ⟨b', hb', T', hT1, hlt, hon'⟩ := (hsky col ecol).2 b hb T hT' hon
          obtain ⟨hit, hh, T2, ht2, h20, hle⟩ := met b' hb' T' hT1 hon'
          have := nearest hit hh T2 ht2 h20
          rw [hT.le ht2, decide_eq_true_eq] at this
          linarith
      obtain ⟨T, b, hb, hT, hT0, hon, ⟨N, m, hN, hN0, hNu, hmat, happ⟩, hfirst⟩ := hg
      have hmeets : Meets (G.visible fld).flatten R b T := by
        refine ⟨List.mem_flatten.2 ⟨bs, hbs, hb⟩, ⟨hT0, hon, fun T' hT' => hfirst b hb T' hT'⟩, ?_⟩
        intro other ho T' hT' hon'
        obtain ⟨hit, hh, T2, ht2, h20, hle⟩ := met other ho T' hT' hon'
        have := nearest hit hh T2 ht2 h20
        rw [hT.le ht2, decide_eq_true_eq] at this
        exact this.trans hle
      have hnn : front.normal.normalized.Is (b.normal (R.at T)) := by
        rw [← hNu]; exact hN.normalized hN0
      have hnu : (b.normal (R.at T)).dot (b.normal (R.at T)) = 1 := by rw [← hNu]; exact unitVec_dot hN0
      have hsend : SendsIn (s.lightFieldFrom rng (fun _ _ _ => .error .diverge) n) ({ ctx with depth := ctx.depth + 1 } : Ctx Ext S).frame
          (FollowedIn G s n) (LooksIn G (fun i => draw (i + 1)) n) := by
        intro fld' r' R' ctx' hr' hu' hask hf'
        have hdep : ctx'.depth = ctx.depth + 1 := congrArg Frame.depth hf'
        obtain ⟨c, C, ctx2, e1, e2, e3, e4⟩ := ih (fun i => draw (i + 1)) fld' hr' hu' hask ctx' (by
            intro i
            have := hd (i + 1)
            rw [hf', hdep]
            push_cast at this
            rw [show ctx.depth + 1 + ((i : Int) + 1) = ctx.depth + 1 + 1 + i by ring] at this
            exact this) (by push_cast at hdepth; omega)
        exact ⟨c, C, ctx2, e1, e2, e3, e4.trans hf'⟩
      obtain ⟨c, C, ctx', e1, hc, hgives, hf'⟩ := shade_in rng hl hsend (draw := draw 0) (by
          have := hd 0
          rw [Nat.cast_zero, add_zero] at this
          exact this) hr hu hT hnn hnu happ (hcasts b T hmeets) { ctx with depth := ctx.depth + 1 } rfl
      refine ⟨c, C, { ctx' with depth := ctx'.depth - 1 }, ?_, hc, .inl ⟨b, T, hmeets, hgives⟩, ?_⟩
      · simp only [shadeFront, hmat]
        rw [e1, ok_bind]
        dsimp only
        rw [hmed, mediaLoop, ok_bind]
        rfl
      · have hdep : ctx'.depth = ctx.depth + 1 := congrArg Frame.depth hf'
        unfold Ctx.frame at hf' ⊢
        rw [Frame.mk.injEq] at hf' ⊢
        refine ⟨by dsimp only; omega, hf'.2⟩
    · subst hfr
      refine ⟨Color.black, _, ctx, ?_, black_is, .inr ⟨?_, ?_⟩, rfl⟩
      · simp only [shadeFront, Mat.shade, ok_bind, hmed, mediaLoop, pure_ok]
        simp
      · intro b hb T hT hon
        obtain ⟨hit, hh, T2, ht2, h20, -⟩ := met b hb T hT hon
        have := hno hit hh
        rw [lit0_is.lt ht2] at this
        simp [h20] at this
      · rcases hcol : G.sky with - | col
        · rfl
        · obtain ⟨hit, hh, ht⟩ := hback ⟨col, (hsky col hcol).1⟩
          have := hno hit hh
          rw [lit0_is.lt ht] at this
          norm_num at this

end BR
