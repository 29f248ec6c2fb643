import Verif.Lemmas.Lit
import Verif.Lemmas.Shot

/-! C84: pictures of glowing, matte, mirroring, varnished, transparent and glass bodies lit by point lamps obey the laws
of optics. In extended numbers: exact arithmetic with infinities. -/

namespace BR

variable {S : Type}

/-- **C84.** Take a scene without media whose objects are bodies and whose lights are lamps that do not touch them; a
pinhole camera turned by yaw, pitch and roll and moved to `eye`; any recursion depth and finite shifts of the sample
sequences. Then after any positive number of passes, for any number of workers, any schedule, any random source with
values in the unit square and any seeds, each pixel is the mean, over the passes, of colours each of which is what the
laws of optics give along the line of sight, when light is followed over at most as many surfaces as the recursion depth
and matte surfaces scatter light from one direction each time they are met. -/
theorem C84_picture (s : Scene Ext) (hm : s.media = []) (hd : 0 ≤ s.recursionDepth) (bodies : List Body) (lamps : List Bulb)
    (hs : List.Forall₂ Presents s.objects bodies) (hl : List.Forall₂ IsBulb s.lights lamps) (hapart : LampsApart bodies lamps)
    (V : View) (h0 : 0 < V.fov) (h1 : V.fov < Real.pi) (fov yaw pitch roll : Ext) (eye : Vec Ext) (hf : fov.Is V.fov)
    (hy : yaw.Is V.yaw) (hp : pitch.Is V.pitch) (hr : roll.Is V.roll) (he : eye.Is V.eye) (w h : Nat) (aa : Bool) :
    ∃ cam, Cam.projective fov = .ok cam ∧
      ∀ (rng : Rng Ext S), (∀ st, UnitPair (rng.next2 st).1) →
      ∀ (shifts : List (Ext × Ext)), w * h ≤ shifts.length → (∀ x ∈ shifts, (∃ a, x.1.Is a) ∧ ∃ b, x.2.Is b) →
      ∀ (W : Nat), 0 < W → ∀ (seeds : Fin W → S) (nPass : Nat), 0 < nPass →
      ∀ (t : SamplerState Ext (Ctx Ext S) W) (k : Nat),
        Runs (ctxShader (s.imageFunc rng ((cam.yawPitchRoll yaw pitch roll).translate eye))) w h aa nPass
          (samplerInit w h (fun i => Ctx.new shifts (seeds i)) fun _ => Cell.zero) k t →
        t.crashed = false ∧ (t.done → ∀ p : Pixel, p.1 < w → p.2 < h → ∃ C : ℕ → Color ℝ,
          (∀ k, Looks bodies lamps s.recursionDepth.toNat (V.sight w h p.1 (sampleRow aa w h p.2)) (C k)) ∧
          ((t.mem p).image).Is (meanColor C nPass)) := by
  obtain ⟨cam, ecam, -⟩ := projective_sees (S := S) hf hy hp hr he h0 h1
  refine ⟨cam, ecam, ?_⟩
  intro rng hrng shifts hshift hfin W hW seeds nPass hn t k hrun
  have hpos : Possible (ctxShader (s.imageFunc rng ((cam.yawPitchRoll yaw pitch roll).translate eye))) w h aa
      (BetweenPixels shifts) fun p _ c => ∃ C, c.Is C ∧
        Looks bodies lamps s.recursionDepth.toNat (V.sight w h p.1 (sampleRow aa w h p.2)) C := by
    intro ctx hctx p hx hyy k
    obtain ⟨q, ctx1, hq, hb, hs1, hs2, e⟩ := pixel_shot (s := s) h0 h1 hf hy hp hr he ecam aa rng hshift hfin hctx p hx hyy k
    obtain ⟨c, C, ctx2, e2, hc, hlook, hfr⟩ := lightField_looks rng hm hs hl hapart s.recursionDepth.toNat .direct hq
      (sight_unit V w h _ _) ctx1.takeRay.2 ⟨hrng, hs1, hs2⟩ hb.depth.ge (by
        show ctx1.depth + _ = _
        rw [hb.depth]; omega)
    refine ⟨c, ctx2.putRay ctx1.takeRay.1, ?_, betweenPixels_frame hb ?_, C, hc, hlook⟩
    · rw [e, e2]; rfl
    · exact hfr.symm
  refine ⟨(C03_random_safe hpos (fun i => betweenPixels_new shifts (seeds i)) t k hrun).1, fun hdone p hx hyy => ?_⟩
  obtain ⟨g, hg, hmem⟩ := C03_every_pass hpos (fun i => betweenPixels_new shifts (seeds i)) hW t k hrun hdone
  choose C hC using hg p hx hyy
  refine ⟨C, fun k => (hC k).2, ?_⟩
  rw [hmem p, if_pos ⟨hx, hyy⟩]
  exact image_mean (fun k => (hC k).1) nPass hn

/-- A ball of diameter `D` around `C` whose surface is, relative to the centre, given by `look`. -/
noncomputable def ballBody (D : ℝ) (C : Vec ℝ) (look : Vec ℝ → Surface) : Body where
  on p := AtDistance p C (D / 2)
  normal p := ⟨(p.x - C.x) / (D / 2), (p.y - C.y) / (D / 2), (p.z - C.z) / (D / 2)⟩
  look p := look (p.sub C)

/-- **C84, spheres.** A sphere of positive diameter is a ball, whatever material of those covered it is made of. -/
theorem C84_sphere (m : Mat Ext) (look : Vec ℝ → Surface) (hm : ∀ p P, p.Is P → m.Appears p (look P)) (d : Ext) (D : ℝ)
    (hd : d.Is D) (hD : 0 < D) (c : Vec Ext) (C : Vec ℝ) (hc : c.Is C) :
    Presents (Obj.sphere (some m) d c) (ballBody D C look) := by
  intro r R hr hu
  have hR : R.dir ≠ ⟨0, 0, 0⟩ := by intro e; rw [e] at hu; simp [Vec.dot] at hu
  have hlead : (Obj.sphereQ (some m) D C).lead R.dir ≠ 0 := by
    simp only [Quadric.lead, Obj.sphereQ, lit_real]
    simp only [Vec.dot] at hu
    push_cast
    nlinarith
  have hQ : (Obj.sphereQ (some m) d c).Is (Obj.sphereQ (some m) D C) := by
    have two : (lit 2 : Ext).Is (lit 2 : ℝ) := Ext.Is.lit 2
    have r := hd.div two (by norm_num)
    have one : (lit 1 : Ext).Is (lit 1 : ℝ) := Ext.Is.lit 1
    have t : (tiny : Ext).Is tiny := Ext.Is.lit _
    exact ⟨hc, ⟨one, one, one⟩, r.mul r, ⟨(Vec.Is.add ⟨r.neg, r.neg, r.neg⟩ hc).add ⟨t.neg, t.neg, t.neg⟩,
      (Vec.Is.add ⟨r, r, r⟩ hc).add ⟨t, t, t⟩⟩, rfl⟩
  refine ⟨(Obj.sphereQ (some m) d c).hit r, r, by rfl, ?_⟩
  have hspec := C25_sphere (some m) D C hD.le R (by simpa [Vec.zero] using hR)
  rcases quadric_follows hQ hr hlead with ⟨e, E⟩ | ⟨t, T, ht, e, E⟩
  · rw [e]
    refine ⟨.inr ⟨?_, .inl (by rw [lit0_is.lt (show (HitRecord.miss : HitRecord Ext (Mat Ext)).t.Is 0 from lit0_is)]; simp)⟩, ?_⟩
    · rcases hspec with ⟨t, ht, et⟩ | ⟨hno, -⟩
      · exfalso
        rw [E] at et
        have h0 := ht.1.1
        have := congrArg HitRecord.t et
        simp only [HitRecord.miss, lit_real, Rat.cast_zero] at this
        linarith
      · exact fun T hT => hno T hT
    · intro T hT hT0
      have := hT.unique (show (HitRecord.miss : HitRecord Ext (Mat Ext)).t.Is 0 from lit0_is)
      linarith
  · rw [e]
    have at_is := hr.at ht
    refine ⟨?_, ?_⟩
    · rcases hspec with ⟨t', ht', et'⟩ | ⟨hno, et'⟩
      · have hT : T = t' := by rw [E] at et'; exact congrArg HitRecord.t et'
        subst hT
        exact .inl ⟨T, ht, ht'.1.1, ht'.1.2, fun T' hT' hon => ht'.2 T' hT' hon⟩
      · have hT : T = 0 := by
          rw [E] at et'
          have := congrArg HitRecord.t et'
          simpa [Quadric.record, HitRecord.miss] using this
        refine .inr ⟨fun T hT => hno T hT, .inl ?_⟩
        show (lit 0 <. t) = false
        rw [lit0_is.lt ht, hT]
        simp
    · intro T' hT' hT0
      obtain rfl : T' = T := hT'.unique ht
      have hon : AtDistance (R.at T') C (D / 2) := by
        rcases hspec with ⟨t', ht', et'⟩ | ⟨hno, et'⟩
        · have hT : T' = t' := by rw [E] at et'; exact congrArg HitRecord.t et'
          rw [hT]; exact ht'.1.2
        · rw [E] at et'
          have := congrArg HitRecord.t et'
          simp [Quadric.record, HitRecord.miss] at this
          linarith
      have hsub := at_is.sub hc
      have hlen : ((R.at T').sub C).dot ((R.at T').sub C) = (D / 2) ^ 2 := by
        have := hon.1
        simp only [geo] at this ⊢
        nlinarith
      have hne : (R.at T').sub C ≠ ⟨0, 0, 0⟩ := by
        intro e
        rw [e] at hlen
        simp [Vec.dot] at hlen
        nlinarith
      refine ⟨(R.at T').sub C, m, ?_, hne, ?_, rfl, hm _ _ hsub⟩
      · exact Vec.Is.of_eq (x := ⟨_, _, _⟩) ⟨lit1_is.mul hsub.1, lit1_is.mul hsub.2.1, lit1_is.mul hsub.2.2⟩ (by simp)
      · unfold unitVec
        rw [hlen, Real.sqrt_sq (by positivity)]
        simp only [ballBody, geo]
        refine ⟨?_, ?_, ?_⟩ <;> ring

/-- A sphere and the ball it is. -/
def IsLitBall (o : Obj Ext (Mat Ext)) (b : Body) : Prop :=
  ∃ (m : Mat Ext) (look : Vec ℝ → Surface) (d : Ext) (D : ℝ) (c : Vec Ext) (C : Vec ℝ),
    (∀ p P, p.Is P → m.Appears p (look P)) ∧ d.Is D ∧ 0 < D ∧ c.Is C ∧ o = Obj.sphere (some m) d c ∧
    b = ballBody D C look

/-- **C84 for spheres.** Pictures of any number of spheres of any of these materials, in any places and sizes, possibly
overlapping or around the camera, obey the laws of optics in every pixel, without further conditions. -/
theorem C84_spheres (s : Scene Ext) (hm : s.media = []) (hd : 0 ≤ s.recursionDepth) (bodies : List Body) (lamps : List Bulb)
    (hs : List.Forall₂ IsLitBall s.objects bodies) (hl : List.Forall₂ IsBulb s.lights lamps) (hapart : LampsApart bodies lamps)
    (V : View) (h0 : 0 < V.fov) (h1 : V.fov < Real.pi) (fov yaw pitch roll : Ext) (eye : Vec Ext) (hf : fov.Is V.fov)
    (hy : yaw.Is V.yaw) (hp : pitch.Is V.pitch) (hr : roll.Is V.roll) (he : eye.Is V.eye) (w h : Nat) (aa : Bool) :
    ∃ cam, Cam.projective fov = .ok cam ∧
      ∀ (rng : Rng Ext S), (∀ st, UnitPair (rng.next2 st).1) →
      ∀ (shifts : List (Ext × Ext)), w * h ≤ shifts.length → (∀ x ∈ shifts, (∃ a, x.1.Is a) ∧ ∃ b, x.2.Is b) →
      ∀ (W : Nat), 0 < W → ∀ (seeds : Fin W → S) (nPass : Nat), 0 < nPass →
      ∀ (t : SamplerState Ext (Ctx Ext S) W) (k : Nat),
        Runs (ctxShader (s.imageFunc rng ((cam.yawPitchRoll yaw pitch roll).translate eye))) w h aa nPass
          (samplerInit w h (fun i => Ctx.new shifts (seeds i)) fun _ => Cell.zero) k t →
        t.crashed = false ∧ (t.done → ∀ p : Pixel, p.1 < w → p.2 < h → ∃ C : ℕ → Color ℝ,
          (∀ k, Looks bodies lamps s.recursionDepth.toNat (V.sight w h p.1 (sampleRow aa w h p.2)) (C k)) ∧
          ((t.mem p).image).Is (meanColor C nPass)) := by
  refine C84_picture s hm hd bodies lamps (hs.imp ?_) hl hapart V h0 h1 fov yaw pitch roll eye hf hy hp hr he w h aa
  rintro o b ⟨m, look, d, D, c, C, a1, a2, a3, a4, rfl, rfl⟩
  exact C84_sphere m look a1 d D a2 a3 c C a4

/-- A white matte ball of diameter 2, five in front of the camera. -/
noncomputable def chalkBall : Obj Ext (Mat Ext) :=
  Obj.sphere (some (.matte fun _ => .ok ⟨lit 1, lit 1, lit 1⟩)) (lit 2) ⟨lit 0, lit 0, lit (-5)⟩

/-- The ball in space. -/
noncomputable def chalkBody : Body := ballBody 2 ⟨0, 0, -5⟩ fun _ => .matte ⟨1, 1, 1⟩

/-- A red lamp at the camera. -/
def redLamp : Bulb := ⟨⟨0, 0, 0⟩, ⟨100, 0, 0⟩⟩

/-- The hypotheses of `C84_spheres` are met by this scene. With recursion depth 1 the middle of its picture is lit by the
lamp at a distance of `4 - gap`, and nothing else is possible there. -/
example : List.Forall₂ IsLitBall [chalkBall] [chalkBody] ∧
    IsBulb (.point ⟨lit 0, lit 0, lit 0⟩ ⟨lit 100, lit 0, lit 0⟩) redLamp ∧ LampsApart [chalkBody] [redLamp] ∧
    ∀ C, Looks [chalkBody] [redLamp] 1 ((⟨Real.pi / 2, 0, 0, 0, ⟨0, 0, 0⟩⟩ : View).sight 3 3 1 1) C ↔
      C = ⟨100 / (4 * Real.pi * (4 - gap) ^ 2), 0, 0⟩ := by
  have g0 : 0 < gap := by unfold gap; norm_num
  have g1 : gap < 1 := by unfold gap; norm_num
  have turn0 : ∀ v : Vec ℝ, turned 0 0 0 v = v := by intro v; simp [turned, rodrigues, geo]
  have tan4 : Real.tan (Real.pi / 2 / 2) = 1 := by
    rw [show Real.pi / 2 / 2 = Real.pi / 4 by ring, Real.tan_pi_div_four]
  have one : (lit 1 : Ext).Is 1 := lit1_is
  refine ⟨.cons ⟨_, fun _ => .matte ⟨1, 1, 1⟩, lit 2, 2, _, ⟨0, 0, -5⟩, fun p P _ => .matte rfl ⟨one, one, one⟩,
    by simpa using Ext.Is.lit 2, by norm_num, ⟨lit0_is, lit0_is, by simpa using Ext.Is.lit (-5)⟩, rfl, rfl⟩ .nil,
    ⟨_, _, rfl, ⟨lit0_is, lit0_is, lit0_is⟩, by simpa [redLamp] using Ext.Is.lit 100, lit0_is, lit0_is⟩, ?_, ?_⟩
  · intro b hb L hL p hp
    rw [List.mem_singleton.1 hb] at hp
    rw [List.mem_singleton.1 hL]
    have hp1 : (p.x - 0) ^ 2 + (p.y - 0) ^ 2 + (p.z - -5) ^ 2 = (2 / 2 : ℝ) ^ 2 := hp.1
    refine lt_of_lt_of_le g1 ?_
    unfold length3
    rw [Real.one_le_sqrt]
    simp only [redLamp, geo]
    nlinarith [sq_nonneg p.x, sq_nonneg p.y]
  · have hs : (⟨Real.pi / 2, 0, 0, 0, ⟨0, 0, 0⟩⟩ : View).sight 3 3 1 1 = ⟨⟨0, 0, 0⟩, ⟨0, 0, -1⟩⟩ := by
      simp only [View.sight, turn0, pixelDir, tan4, unitVec]
      norm_num [geo]
    intro C
    rw [hs]
    have on : ∀ T : ℝ, chalkBody.on ((⟨⟨0, 0, 0⟩, ⟨0, 0, -1⟩⟩ : Ray ℝ).at T) ↔ (5 - T) ^ 2 = 1 := by
      intro T
      simp only [chalkBody, ballBody, AtDistance, geo]
      constructor
      · rintro ⟨h, -⟩; nlinarith
      · intro h; exact ⟨by nlinarith, by norm_num⟩
    have hnorm : chalkBody.normal ((⟨⟨0, 0, 0⟩, ⟨0, 0, -1⟩⟩ : Ray ℝ).at 4) = ⟨0, 0, 1⟩ := by
      simp only [chalkBody, ballBody, geo]; norm_num
    have hfac : facing ⟨0, 0, 1⟩ ⟨0, 0, -1⟩ = ⟨0, 0, 1⟩ := by
      unfold facing
      rw [if_neg]
      simp only [geo]; norm_num
    have hmeets : ∀ b T, Meets [chalkBody] ⟨⟨0, 0, 0⟩, ⟨0, 0, -1⟩⟩ b T ↔ b = chalkBody ∧ T = 4 := by
      intro b T
      constructor
      · rintro ⟨hb, ⟨hT, hon, hfirst⟩, -⟩
        obtain rfl := List.mem_singleton.1 hb
        refine ⟨rfl, ?_⟩
        have h4 := hfirst 4 (by norm_num) ((on 4).2 (by norm_num))
        rw [on] at hon
        nlinarith
      · rintro ⟨rfl, rfl⟩
        have hf : ∀ T' > 0, chalkBody.on ((⟨⟨0, 0, 0⟩, ⟨0, 0, -1⟩⟩ : Ray ℝ).at T') → 4 ≤ T' := by
          intro T' _ h
          rw [on] at h
          nlinarith
        exact ⟨by simp, ⟨by norm_num, (on 4).2 (by norm_num), hf⟩, fun o ho => by rw [List.mem_singleton.1 ho]; exact hf⟩
    have hP : ((⟨⟨0, 0, 0⟩, ⟨0, 0, -1⟩⟩ : Ray ℝ).at 4).add ((⟨0, 0, 1⟩ : Vec ℝ).mul gap) = ⟨0, 0, gap - 4⟩ := by
      simp only [geo]; refine ⟨by norm_num, by norm_num, by ring⟩
    have hlen : length3 ⟨0 - 0, 0 - 0, 0 - (gap - 4)⟩ = 4 - gap := by
      unfold length3
      rw [show ((0 : ℝ) - 0) ^ 2 + (0 - 0) ^ 2 + (0 - (gap - 4)) ^ 2 = (4 - gap) ^ 2 by ring, Real.sqrt_sq (by linarith)]
    have hd : (4 - gap) ≠ 0 := by linarith
    have hthrough : ∀ c c', Through ⟨⟨0, 0, gap - 4⟩, ⟨(0 - 0) / (4 - gap), (0 - 0) / (4 - gap), (0 - (gap - 4)) / (4 - gap)⟩⟩
        (4 - gap) [chalkBody] c c' ↔ c' = c := by
      have hno : ∀ T > 0, ¬ chalkBody.on ((⟨⟨0, 0, gap - 4⟩, ⟨(0 - 0) / (4 - gap), (0 - 0) / (4 - gap),
          (0 - (gap - 4)) / (4 - gap)⟩⟩ : Ray ℝ).at T) := by
        intro T hT h
        have h1 := h.1
        have e : (0 - (gap - 4)) / (4 - gap) = 1 := by rw [show 0 - (gap - 4) = 4 - gap by ring, div_self hd]
        rw [e] at h1
        simp only [geo] at h1
        norm_num at h1
        rcases h1 with h1 | h1 <;> linarith
      intro c c'
      constructor
      · rintro (⟨-, h⟩ | ⟨T, -, hF, -⟩ | ⟨T, -, hF, -⟩)
        · exact h
        · exact absurd hF.2.1 (hno T hF.1)
        · exact absurd hF.2.1 (hno T hF.1)
      · rintro rfl
        exact .inl ⟨fun T hT h => absurd h (hno T hT), rfl⟩
    have hcos : ((0 - 0) * 0 + (0 - 0) * 0 + (0 - (gap - 4)) * 1) / (4 - gap) = (1 : ℝ) := by
      rw [show ((0 - 0) * 0 + (0 - 0) * 0 + (0 - (gap - 4)) * 1 : ℝ) = 4 - gap by ring, div_self hd]
    have hfall : ∀ A, AllFallsOn (fun R' len => Through R' len [chalkBody]) ⟨0, 0, gap - 4⟩ ⟨0, 0, 1⟩ [redLamp] A ↔
        A = ⟨100 / (4 * Real.pi * (4 - gap) ^ 2), 0, 0⟩ := by
      intro A
      simp only [AllFallsOn, FallsOn, redLamp, hlen, hcos, hthrough]
      constructor
      · rintro ⟨A, B, ⟨h, -⟩ | ⟨-, c, rfl, rfl⟩, rfl, rfl⟩
        · norm_num at h
        · simp [div_eq_mul_inv]
      · rintro rfl
        exact ⟨_, _, .inr ⟨by norm_num, _, rfl, rfl⟩, rfl, by simp [div_eq_mul_inv]⟩
    have hgives : ∀ C, Gives AnyAbove (fun R' len => Through R' len [chalkBody]) [redLamp] (Looks [chalkBody] [redLamp] 0) ⟨⟨0, 0, 0⟩, ⟨0, 0, -1⟩⟩ 4 ⟨0, 0, 1⟩
        (.matte ⟨1, 1, 1⟩) C ↔ C = ⟨100 / (4 * Real.pi * (4 - gap) ^ 2), 0, 0⟩ := by
      intro C
      simp only [Gives, hfac, hP, hfall, Looks]
      constructor
      · rintro ⟨ω, A, B, -, rfl, rfl, rfl⟩
        simp
      · rintro rfl
        exact ⟨⟨0, 0, 1⟩, _, _, ⟨by simp [Vec.dot], by simp [Vec.dot]⟩, rfl, rfl, by simp⟩
    constructor
    · rintro (⟨b, T, hm, hg⟩ | ⟨h, -⟩)
      · obtain ⟨rfl, rfl⟩ := (hmeets _ _).1 hm
        rw [hnorm] at hg
        exact (hgives C).1 hg
      · exact absurd ((on 4).2 (by norm_num)) (h chalkBody (by simp) 4 (by norm_num))
    · rintro rfl
      refine .inl ⟨chalkBody, 4, (hmeets _ _).2 ⟨rfl, rfl⟩, ?_⟩
      rw [hnorm]
      exact (hgives _).2 rfl

/-- A clear grey ball of diameter 2 around `(0, 0, -5)`, and a glowing white one around `(0, 0, -10)`. -/
noncomputable def greyAndGlow : Scene Ext where
  lights := []
  objects := [Obj.sphere (some (.transparent (fun _ => .ok ⟨lit (1 / 2), lit (1 / 2), lit (1 / 2)⟩) false)) (lit 2)
      ⟨lit 0, lit 0, lit (-5)⟩,
    Obj.sphere (some (.flat fun _ => .ok ⟨lit 1, lit 1, lit 1⟩)) (lit 2) ⟨lit 0, lit 0, lit (-10)⟩]
  media := []
  recursionDepth := 3

/-- The two balls in space. -/
noncomputable def greyGlowBodies : List Body :=
  [ballBody 2 ⟨0, 0, -5⟩ fun _ => .clear ⟨1 / 2, 1 / 2, 1 / 2⟩, ballBody 2 ⟨0, 0, -10⟩ fun _ => .glow ⟨1, 1, 1⟩]

theorem greyGlow_presents : List.Forall₂ Presents greyAndGlow.objects greyGlowBodies := by
  have half : (lit (1 / 2) : Ext).Is (1 / 2) := Ext.Is.of_eq (Ext.Is.lit (1 / 2)) (by norm_num)
  have two : (lit 2 : Ext).Is 2 := by simpa using Ext.Is.lit 2
  exact .cons (C84_sphere _ _ (fun p P _ => .transparent rfl ⟨half, half, half⟩) _ _ two (by norm_num) _ _
      ⟨lit0_is, lit0_is, by simpa using Ext.Is.lit (-5)⟩)
    (.cons (C84_sphere _ _ (fun p P _ => .flat rfl ⟨lit1_is, lit1_is, lit1_is⟩) _ _ two (by norm_num) _ _
      ⟨lit0_is, lit0_is, by simpa using Ext.Is.lit (-10)⟩) .nil)

/-- Where a ray along the axis meets a ball on the axis. -/
theorem axis_on (z cz : ℝ) (look : Vec ℝ → Surface) (T : ℝ) :
    (ballBody 2 ⟨0, 0, cz⟩ look).on ((⟨⟨0, 0, z⟩, ⟨0, 0, -1⟩⟩ : Ray ℝ).at T) ↔ T = z - cz - 1 ∨ T = z - cz + 1 := by
  simp only [ballBody, AtDistance, geo]
  constructor
  · rintro ⟨h, -⟩
    have : (T - (z - cz - 1)) * (T - (z - cz + 1)) = 0 := by nlinarith
    rcases mul_eq_zero.1 this with h | h
    · exact .inl (by linarith)
    · exact .inr (by linarith)
  · rintro (rfl | rfl)
    · exact ⟨by ring, by norm_num⟩
    · exact ⟨by ring, by norm_num⟩

/-- **C84, a disagreement.** What is seen through a clear ball is dimmed at both crossings of its surface: here to a
quarter. The light of a lamp that shines through the ball is dimmed only once: here to a half. -/
theorem C84_clear_disagrees (rng : Rng Ext S) (hrng : ∀ st, UnitPair (rng.next2 st).1) (ctx : Ctx Ext S)
    (h0 : ctx.depth = 0) (h1 : ∃ uv, ctx.seq1.generate2 = .ok uv ∧ UnitPair uv)
    (h2 : ∃ uv, ctx.seq2.generate2 = .ok uv ∧ UnitPair uv) (r : Ray Ext) (hr : r.Is ⟨⟨0, 0, 0⟩, ⟨0, 0, -1⟩⟩) :
    (∃ c ctx', greyAndGlow.lightField rng 3 .direct r ctx = .ok (c, ctx') ∧ c.Is ⟨1 / 4, 1 / 4, 1 / 4⟩) ∧
    ∃ c r', greyAndGlow.occlude r (lit 7) ⟨lit 1, lit 1, lit 1⟩ = .ok (c, r') ∧ c.Is ⟨1 / 2, 1 / 2, 1 / 2⟩ := by
  have g0 : 0 < gap := by unfold gap; norm_num
  have g1 : gap < 1 / 4 := by unfold gap; norm_num
  have hu : (⟨⟨0, 0, 0⟩, ⟨0, 0, -1⟩⟩ : Ray ℝ).dir.dot (⟨⟨0, 0, 0⟩, ⟨0, 0, -1⟩⟩ : Ray ℝ).dir = 1 := by simp [Vec.dot]
  have hat : ∀ z T : ℝ, (⟨⟨0, 0, z⟩, ⟨0, 0, -1⟩⟩ : Ray ℝ).at T = ⟨0, 0, z - T⟩ := by
    intro z T; simp only [geo]; refine ⟨by ring, by ring, by ring⟩
  constructor
  · obtain ⟨c, C, ctx', e, hc, hlook, -⟩ := lightField_looks rng (s := greyAndGlow) rfl greyGlow_presents (lamps := []) .nil
      (fun _ _ _ h => by cases h) 3 .direct hr hu ctx ⟨hrng, h1, h2⟩ h0.ge (by rw [h0]; rfl)
    refine ⟨c, ctx', e, hc.of_eq ?_⟩
    -- one crossing of the clear ball
    have step : ∀ (n : Nat) (z : ℝ) (C : Color ℝ), Looks greyGlowBodies [] (n + 1) ⟨⟨0, 0, z⟩, ⟨0, 0, -1⟩⟩ C →
        ∀ T, 0 < T → (T = z + 4 ∨ T = z + 6 ∧ z + 4 < 0) → ∃ B, Looks greyGlowBodies [] n ⟨⟨0, 0, z - (T + gap)⟩, ⟨0, 0, -1⟩⟩ B ∧
          C = ⟨1 / 2 * B.R, 1 / 2 * B.G, 1 / 2 * B.B⟩ := by
      intro n z C hl T hT hTz
      rcases hl with ⟨b, T', ⟨hb, hfirst, hall⟩, hg⟩ | ⟨hno, -⟩
      · have hle : T' ≤ T := hall _ List.mem_cons_self T hT ((axis_on _ _ _ _).2 (by
          rcases hTz with h | ⟨h, -⟩
          · left; linarith
          · right; linarith))
        rcases List.mem_cons.1 hb with rfl | hb
        · have hTT : T' = T := by
            have h0 := hfirst.1
            rcases (axis_on _ _ _ _).1 hfirst.2.1 with h | h <;> rcases hTz with h' | ⟨h', h''⟩ <;> linarith
          subst hTT
          obtain ⟨B, hB, rfl⟩ := hg
          rw [hat] at hB
          exact ⟨B, hB, rfl⟩
        · obtain rfl := List.mem_singleton.1 hb
          exfalso
          have h0 := hfirst.1
          rcases (axis_on _ _ _ _).1 hfirst.2.1 with h | h <;> rcases hTz with h' | ⟨h', h''⟩ <;> linarith
      · refine (hno _ List.mem_cons_self T hT ((axis_on _ _ _ _).2 ?_)).elim
        rcases hTz with h | ⟨h, -⟩
        · left; linarith
        · right; linarith
    obtain ⟨B, hB, rfl⟩ := step 2 0 C hlook 4 (by norm_num) (.inl (by norm_num))
    obtain ⟨B', hB', rfl⟩ := step 1 _ B hB (2 - gap) (by linarith) (.inr ⟨by ring, by linarith⟩)
    have e3 : (0 : ℝ) - (4 + gap) - (2 - gap + gap) = -6 - gap := by ring
    rw [e3] at hB'
    have hend : B' = ⟨1, 1, 1⟩ := by
      rcases hB' with ⟨b, T', ⟨hb, hfirst, -⟩, hg⟩ | ⟨hno, -⟩
      · rcases List.mem_cons.1 hb with rfl | hb
        · exfalso
          have h0 := hfirst.1
          rcases (axis_on _ _ _ _).1 hfirst.2.1 with h | h <;> linarith
        · obtain rfl := List.mem_singleton.1 hb
          exact hg
      · exact (hno _ (List.mem_cons_of_mem _ List.mem_cons_self) (3 - gap) (by linarith)
          ((axis_on _ _ _ _).2 (.inl (by ring)))).elim
    rw [hend]
    norm_num
  · obtain ⟨c, C, e, hc, ht⟩ := occludeLoop_is hr (len := lit 7) (L := 7) (by simpa using Ext.Is.lit 7)
      (sky := none) ((presents_list greyGlow_presents hu _).imp fun _ _ => .inl) (by simp) (c := ⟨lit 1, lit 1, lit 1⟩) (C := ⟨1, 1, 1⟩) ⟨lit1_is, lit1_is, lit1_is⟩
    refine ⟨c, r, e, hc.of_eq ?_⟩
    replace ht := throughAll_single.1 ht
    rcases ht with ⟨h, -⟩ | ⟨T, -, -, k, hk, ht⟩ | ⟨T, -, -, hk, -⟩
    · have := h 4 (by norm_num) ((axis_on _ _ _ _).2 (.inl (by norm_num)))
      norm_num at this
    · injection hk with hk
      rcases ht with ⟨-, rfl⟩ | ⟨T, hT, hF, -⟩ | ⟨T, hT, hF, -⟩
      · rw [← hk]; norm_num
      · rcases (axis_on _ _ _ _).1 hF.2.1 with h | h <;> linarith
      · rcases (axis_on _ _ _ _).1 hF.2.1 with h | h <;> linarith
    · exact absurd rfl (hk _)

end BR
