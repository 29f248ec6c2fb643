import Verif.Lemmas.ExtCam
import Verif.Lemmas.ExtQuadric
import Verif.Props.C13_Nearest
import Verif.Props.C48_ExpFog
import Verif.Props.C58_Deterministic
import Verif.Props.C67_Constructors
import Verif.Props.C68_Mesh

/-! C80: the picture of flat-coloured things shows, in every pixel, the colour of what is first met along the line of
sight through the centre of the pixel. In extended numbers: exact arithmetic with infinities. -/

namespace BR
set_option linter.unusedSectionVars false

variable {S : Type}

/-- Along the ray, the object shows the thing: it reports the first forward crossing of its surface, with a flat material
whose colour there is the colour of the thing. -/
def Shows (o : Obj Ext (Mat Ext)) (th : Thing) (R : Ray ℝ) : Prop :=
  ∀ r : Ray Ext, r.Is R → ∃ hit r', o.intersect r = .ok (hit, r') ∧ ReportsFirst th.on R False hit ∧
    ∀ T, hit.t.Is T → 0 < T → ∃ tex c, hit.mat = some (.flat tex) ∧ tex hit.loc = .ok c ∧ c.Is (th.col (R.at T))

/-- What the object reports and what it shows. -/
private def Good (R : Ray ℝ) (hit : HitRecord Ext (Mat Ext)) (th : Thing) : Prop :=
  ReportsFirst th.on R False hit ∧
    ∀ T, hit.t.Is T → 0 < T → ∃ tex c, hit.mat = some (.flat tex) ∧ tex hit.loc = .ok c ∧ c.Is (th.col (R.at T))

private theorem shows_reports {objs : List (Obj Ext (Mat Ext))} {things : List Thing} {R : Ray ℝ}
    (h : List.Forall₂ (fun o th => Shows o th R) objs things) {r : Ray Ext} (hr : r.Is R) :
    ∃ hits, Reports objs r hits ∧ List.Forall₂ (Good R) hits things := by
  induction h with
  | nil => exact ⟨[], .nil, .nil⟩
  | cons h _ ih =>
    obtain ⟨hits, h1, h2⟩ := ih
    obtain ⟨hit, r', e, hg⟩ := h r hr
    exact ⟨hit :: hits, .cons ⟨r', e⟩ h1, .cons hg h2⟩

private theorem zero_is : (lit 0 : Ext).Is 0 := by simpa using Ext.Is.lit 0

/-- A reported forward hit is the first crossing. -/
private theorem good_hit {R : Ray ℝ} {hit : HitRecord Ext (Mat Ext)} {th : Thing} (h : Good R hit th)
    (hpos : (lit 0 <. hit.t) = true) :
    ∃ T, hit.t.Is T ∧ 0 < T ∧ th.on (R.at T) ∧ ∀ T' > 0, th.on (R.at T') → T ≤ T' := by
  rcases h.1 with h | ⟨-, h | h⟩
  · exact h
  · rw [hpos] at h; cases h
  · exact h.1.elim

/-- **C80, one ray.** The light field of a scene of flat-coloured things without media. -/
theorem lightField_sees (s : Scene Ext) (hm : s.media = []) (things : List Thing) (R : Ray ℝ)
    (hs : List.Forall₂ (fun o th => Shows o th R) (s.objects ++ s.lights.map Light.object) things)
    (r : Ray Ext) (hr : r.Is R) :
    ∃ c C, c.Is C ∧ Sees things R C ∧ ∀ (rng : Rng Ext S) (n : Nat) (ctx : Ctx Ext S), s.recursionDepth ≠ ctx.depth →
      s.lightField rng (n + 1) .direct r ctx = .ok (c, ctx) := by
  obtain ⟨hits, hrep, hgood⟩ := shows_reports hs hr
  obtain ⟨front, -, hf⟩ := C13_nearest _ r hits hrep
  rcases hf with hf | ⟨-, hno⟩
  · obtain ⟨before, after, e, hpos, h1, h2⟩ := id hf
    obtain ⟨th, hth, hg⟩ := forall₂_left hgood front (by rw [e]; simp)
    obtain ⟨T, hT, hT0, hon, hfirst⟩ := good_hit hg hpos
    obtain ⟨tex, c, hmat, htex, hc⟩ := hg.2 T hT hT0
    refine ⟨c, th.col (R.at T), hc, .inl ⟨th, hth, T, hT0, hon, rfl, ?_⟩, fun rng n ctx hne => ?_⟩
    · intro other ho T' hT' hon'
      obtain ⟨hit, hh, hg'⟩ := forall₂_right hgood other ho
      rcases hg'.1 with ⟨T2, ht2, h20, -, hle⟩ | ⟨hnone, -⟩
      · refine le_trans ?_ (hle T' hT' hon')
        have hp2 : (lit 0 <. hit.t) = true := by rw [zero_is.lt ht2]; simpa using h20
        rw [e] at hh
        rcases List.mem_append.1 hh with hh | hh
        · have := h1 hit hh hp2
          rw [hT.le ht2] at this
          simpa using this
        · rcases List.mem_cons.1 hh with rfl | hh
          · obtain ⟨a, ea⟩ := hT
            obtain ⟨b, eb⟩ := ht2
            rw [ea] at eb
            injection eb with eb
            exact eb.le
          · have := h2 hit hh hp2
            rw [hT.lt ht2] at this
            exact (of_decide_eq_true this).le
      · exact absurd hon' (hnone T' hT')
    · exact C13_shaded rng s hm n .direct r ctx hne hits hrep front hf tex hmat c htex
  · refine ⟨Color.black, ⟨0, 0, 0⟩, ⟨zero_is, zero_is, zero_is⟩, .inr ⟨?_, rfl⟩, fun rng n ctx _ =>
      C13_nothing rng s hm n .direct r ctx hits hrep hno⟩
    intro th hth T hT hon
    obtain ⟨hit, hh, hg⟩ := forall₂_right hgood th hth
    rcases hg.1 with ⟨T2, ht2, h20, -⟩ | ⟨hnone, -⟩
    · have := hno hit hh
      rw [zero_is.lt ht2] at this
      simp [h20] at this
    · exact hnone T hT hon

/-- The image of a pixel that got the same finite colour in all passes. -/
theorem image_const {c : Color Ext} {C : Color ℝ} (hc : c.Is C) (n : Nat) (hn : 0 < n) :
    (accumulate (fun _ => c) Cell.zero n).image.Is C := by
  have nan : c.isNaN = false := by
    unfold Color.isNaN
    rw [hc.1.eq hc.1, hc.2.1.eq hc.2.1, hc.2.2.eq hc.2.2]
    simp
  have key : ∀ k : Nat, (accumulate (fun _ => c) Cell.zero k).n = k ∧
      (accumulate (fun _ => c) Cell.zero k).sum.Is ⟨k * C.R, k * C.G, k * C.B⟩ := by
    intro k
    induction k with
    | zero => exact ⟨rfl, by simpa using ⟨zero_is, zero_is, zero_is⟩⟩
    | succ k ih =>
      simp only [accumulate, Cell.push, nan, Bool.false_eq_true, if_false]
      refine ⟨by rw [ih.1], ?_, ?_, ?_⟩
      · exact Ext.Is.of_eq (ih.2.1.add hc.1) (by push_cast; ring)
      · exact Ext.Is.of_eq (ih.2.2.1.add hc.2.1) (by push_cast; ring)
      · exact Ext.Is.of_eq (ih.2.2.2.add hc.2.2) (by push_cast; ring)
  obtain ⟨e, h1, h2, h3⟩ := key n
  have hn0 : (n : ℝ) ≠ 0 := by exact_mod_cast hn.ne'
  have hk : (lit 1 / ofInt (accumulate (fun _ => c) Cell.zero n).n : Ext).Is (1 / n) := by
    rw [e]
    have := (Ext.Is.lit 1).div (ofInt_is (n : Int)) (by exact_mod_cast hn0)
    exact Ext.Is.of_eq this (by push_cast; rfl)
  refine ⟨?_, ?_, ?_⟩
  · exact Ext.Is.of_eq (hk.mul h1) (by field_simp)
  · exact Ext.Is.of_eq (hk.mul h2) (by field_simp)
  · exact Ext.Is.of_eq (hk.mul h3) (by field_simp)

/-- Pictures of scenes where the light along every line of sight is known: `Q p C` says that `C` is the right colour for
the pixel `p`. -/
theorem picture_of_rays (s : Scene Ext) (hd : 0 < s.recursionDepth) (Q : Pixel → Color ℝ → Prop)
    (V : View) (h0 : 0 < V.fov) (h1 : V.fov < Real.pi) (fov yaw pitch roll : Ext) (eye : Vec Ext) (hf : fov.Is V.fov)
    (hy : yaw.Is V.yaw) (hp : pitch.Is V.pitch) (hr : roll.Is V.roll) (he : eye.Is V.eye) (w h : Nat)
    (hs : ∀ p : Pixel, p.1 < w → p.2 < h →
      ∀ r : Ray Ext, r.Is (V.sight w h p.1 p.2) → ∃ c C, c.Is C ∧ Q p C ∧
        ∀ (rng : Rng Ext S) (n : Nat) (ctx : Ctx Ext S), s.recursionDepth ≠ ctx.depth →
          s.lightField rng (n + 1) .direct r ctx = .ok (c, ctx)) :
    ∃ cam, Cam.projective fov = .ok cam ∧
      ∀ (rng : Rng Ext S) (shifts : List (Ext × Ext)), w * h ≤ shifts.length →
      ∀ (W : Nat), 0 < W → ∀ (seeds : Fin W → S) (nPass : Nat), 0 < nPass →
      ∀ (t : SamplerState Ext (Ctx Ext S) W) (k : Nat),
        Runs (ctxShader (s.imageFunc rng ((cam.yawPitchRoll yaw pitch roll).translate eye))) w h false nPass
          (samplerInit w h (fun i => Ctx.new shifts (seeds i)) fun _ => Cell.zero) k t → t.done →
        ∀ p : Pixel, p.1 < w → p.2 < h → ∃ C, ((t.mem p).image).Is C ∧ Q p C := by
  classical
  obtain ⟨cam, ecam, hcam⟩ := projective_sees (S := S) hf hy hp hr he h0 h1
  refine ⟨cam, ecam, ?_⟩
  intro rng shifts hshift W hW seeds nPass hn t k hrun hdone
  -- the colour of each pixel
  have col : ∀ p : Pixel, ∃ c : Color Ext, p.1 < w → p.2 < h →
      (∃ C, c.Is C ∧ Q p C) ∧
      ∀ ctx : Ctx Ext S, BetweenPixels shifts ctx → ∀ k, ∃ ctx',
        passColor (ctxShader (s.imageFunc rng ((cam.yawPitchRoll yaw pitch roll).translate eye))) w h false ctx p k =
          .ok (c, ctx') ∧ BetweenPixels shifts ctx' := by
    intro p
    by_cases hin : p.1 < w ∧ p.2 < h
    swap
    · exact ⟨Color.black, fun a b => absurd ⟨a, b⟩ hin⟩
    obtain ⟨hx, hy⟩ := hin
    have hw0 : (w : ℝ) ≠ 0 := by exact_mod_cast (lt_of_le_of_lt (Nat.zero_le _) hx).ne'
    obtain ⟨u, v, euv, hu, hv⟩ := indexToCam_is hx hy
    obtain ⟨q, hq, hqI⟩ := hcam u v _ _ hu hv
    have hsight : (⟨V.eye, turned V.yaw V.pitch V.roll (unitVec
        ⟨2 * Real.tan (V.fov / 2) * ((p.1 + 1 / 2) / w - 1 / 2),
          2 * Real.tan (V.fov / 2) * (1 / 2 + (h / 2 - (p.2 + 1 / 2)) / w - 1 / 2), -1⟩)⟩ : Ray ℝ) =
        V.sight w h p.1 p.2 := by
      unfold View.sight pixelDir
      have e1 : 2 * Real.tan (V.fov / 2) * (((p.1 : ℝ) + 1 / 2) / w - 1 / 2) =
          Real.tan (V.fov / 2) * ((2 * p.1 + 1 - w) / w) := by field_simp
      have e2 : 2 * Real.tan (V.fov / 2) * (1 / 2 + ((h : ℝ) / 2 - (p.2 + 1 / 2)) / w - 1 / 2) =
          Real.tan (V.fov / 2) * ((h - (2 * p.2 + 1)) / w) := by field_simp; ring
      rw [e1, e2]
    rw [hsight] at hqI
    obtain ⟨c, C, hc, hsee, hlf⟩ := hs p hx hy q hqI
    refine ⟨c, fun _ _ => ⟨⟨C, hc, hsee⟩, ?_⟩⟩
    intro ctx hctx k
    have hlt : w * p.2 + p.1 < shifts.length := by
      refine lt_of_lt_of_le ?_ hshift
      calc w * p.2 + p.1 < w * p.2 + w := by omega
        _ = w * (p.2 + 1) := by ring
        _ ≤ w * h := Nat.mul_le_mul_left _ hy
    have hget : shifts[w * p.2 + p.1]? = some shifts[w * p.2 + p.1] := List.getElem?_eq_getElem hlt
    obtain ⟨ctx1, e1, hb1⟩ : ∃ ctx1, ctx.init (w * p.2 + p.1) k = .ok ctx1 ∧ BetweenPixels shifts ctx1 := by
      rcases init_between hctx hctx (w * p.2 + p.1) k with ⟨e, e1, -⟩ | ⟨d, -, e1, -, -, hb⟩
      · exfalso
        unfold Ctx.init at e1
        rw [HaltonSeq.init_like hctx.seq1, HaltonSeq.init_like hctx.seq2, HaltonSeq.init_like hctx.seqL] at e1
        simp only [HaltonSeq.init, HaltonSeq.new, hget, ok_bind] at e1
        cases e1
      · exact ⟨d, e1, hb⟩
    obtain ⟨n, hn⟩ : ∃ n, s.recursionDepth.toNat = n + 1 := ⟨s.recursionDepth.toNat - 1, by omega⟩
    refine ⟨ctx1.takeRay.2.putRay ctx1.takeRay.1, ?_, betweenPixels_frame hb1 rfl⟩
    unfold passColor
    rw [euv]
    simp only [ok_bind, ctxShader, e1, Bool.false_eq_true, if_false, Scene.imageFunc, hq, hn]
    rw [hlf rng n _ (by show s.recursionDepth ≠ ctx1.depth; rw [hb1.depth]; exact hd.ne')]
    rfl
  choose g hg using col
  have hdet : Deterministic (ctxShader (s.imageFunc rng ((cam.yawPitchRoll yaw pitch roll).translate eye))) w h false
      (BetweenPixels shifts) (fun p _ => g p) := fun ctx hctx p hx hy k => (hg p hx hy).2 ctx hctx k
  intro p hx hy
  have hres := C03_result hdet (fun i => betweenPixels_new shifts (seeds i)) hW t k hrun hdone p
  rw [if_pos ⟨hx, hy⟩] at hres
  obtain ⟨C, hc, hsee⟩ := (hg p hx hy).1
  refine ⟨C, ?_, hsee⟩
  rw [hres]
  exact image_const hc nPass hn

/-- **C80.** Take a scene without media whose objects, and the bodies of whose lights, show certain things along all
lines of sight; a pinhole camera turned by yaw, pitch and roll and moved to `eye`; recursion depth at least 1; no
anti-aliasing. Then after any positive number of passes, for any number of workers, any schedule, any random source and
any seeds, the picture shows in every pixel the colour of the thing first met along the line of sight through the
centre of the pixel, and black where there is none. -/
theorem C80_picture (s : Scene Ext) (hm : s.media = []) (hd : 0 < s.recursionDepth) (things : List Thing)
    (V : View) (h0 : 0 < V.fov) (h1 : V.fov < Real.pi) (fov yaw pitch roll : Ext) (eye : Vec Ext) (hf : fov.Is V.fov)
    (hy : yaw.Is V.yaw) (hp : pitch.Is V.pitch) (hr : roll.Is V.roll) (he : eye.Is V.eye) (w h : Nat)
    (hs : ∀ p : Pixel, p.1 < w → p.2 < h →
      List.Forall₂ (fun o th => Shows o th (V.sight w h p.1 p.2)) (s.objects ++ s.lights.map Light.object) things) :
    ∃ cam, Cam.projective fov = .ok cam ∧
      ∀ (rng : Rng Ext S) (shifts : List (Ext × Ext)), w * h ≤ shifts.length →
      ∀ (W : Nat), 0 < W → ∀ (seeds : Fin W → S) (nPass : Nat), 0 < nPass →
      ∀ (t : SamplerState Ext (Ctx Ext S) W) (k : Nat),
        Runs (ctxShader (s.imageFunc rng ((cam.yawPitchRoll yaw pitch roll).translate eye))) w h false nPass
          (samplerInit w h (fun i => Ctx.new shifts (seeds i)) fun _ => Cell.zero) k t → t.done →
        ∀ p : Pixel, p.1 < w → p.2 < h → ∃ C, ((t.mem p).image).Is C ∧ Sees things (V.sight w h p.1 p.2) C := by
  exact picture_of_rays s hd (fun p C => Sees things (V.sight w h p.1 p.2) C) V h0 h1 fov yaw pitch roll eye hf hy hp hr he
    w h fun p hx hy r hr => lightField_sees (S := S) s hm things _ (hs p hx hy) r hr

/-- The texture gives finite colours: those of `Col`. -/
def Tex.Paints (tex : Tex Ext) (Col : Vec ℝ → Color ℝ) : Prop := ∀ p P, p.Is P → ∃ c, tex p = .ok c ∧ c.Is (Col P)

/-- A flat quadric that reports first crossings in exact arithmetic shows its surface. -/
private theorem quadric_shows {tex : Tex Ext} {Col : Vec ℝ → Color ℝ} (htex : tex.Paints Col) {s : Quadric Ext (Mat Ext)}
    {Q : Quadric ℝ (Mat Ext)} (hs : s.Is Q) (hmat : s.mat = some (.flat tex)) {on : Vec ℝ → Prop} {R : Ray ℝ}
    (hlead : Q.lead R.dir ≠ 0) (hspec : (∃ t, IsFirst (fun t => on (R.at t)) t ∧ (Q.hit R).t = t) ∨
      ((∀ t, 0 < t → ¬ on (R.at t)) ∧ Q.hit R = HitRecord.miss)) :
    Shows (.quadric s) ⟨on, fun p => Col (p.sub Q.origin)⟩ R := by
  intro r hr
  refine ⟨s.hit r, r, by rfl, ?_⟩
  rcases quadric_follows hs hr hlead with ⟨e, E⟩ | ⟨t, T, ht, e, E⟩
  · rw [e]
    have m0 : (HitRecord.miss : HitRecord Ext (Mat Ext)).t.Is 0 := zero_is
    refine ⟨?_, ?_⟩
    · refine .inr ⟨?_, .inl (by rw [zero_is.lt m0]; simp)⟩
      rcases hspec with ⟨t, ht, et⟩ | ⟨hno, -⟩
      · exfalso
        rw [E] at et
        have h0 := ht.1.1
        simp only [HitRecord.miss, lit_real, Rat.cast_zero] at et
        linarith
      · exact fun T hT => hno T hT
    · intro T hT hT0
      obtain ⟨a, ea⟩ := hT
      obtain ⟨b, eb⟩ := m0
      rw [ea] at eb
      injection eb with eb
      linarith
  · rw [e]
    have et : (s.record r t).t = t := rfl
    have at_is := hr.at ht
    refine ⟨?_, ?_⟩
    · rcases hspec with ⟨t', ht', et'⟩ | ⟨hno, et'⟩
      · have hT : T = t' := by rw [E] at et'; exact et'
        subst hT
        exact .inl ⟨T, ht, ht'.1.1, ht'.1.2, fun T' hT' hon => ht'.2 T' hT' hon⟩
      · have hT : T = 0 := by
          rw [E] at et'
          have := congrArg HitRecord.t et'
          simpa [Quadric.record, HitRecord.miss] using this
        refine .inr ⟨fun T hT => hno T hT, .inl ?_⟩
        rw [et, zero_is.lt ht, hT]
        simp
    · intro T' hT' hT0
      have hTT : T' = T := by
        obtain ⟨a, e1⟩ := hT'
        obtain ⟨b, e2⟩ := ht
        rw [et, e2] at e1
        injection e1 with e1
        exact e1.symm
      subst hTT
      obtain ⟨col, ec, hcol⟩ := htex _ _ (at_is.sub hs.1)
      exact ⟨tex, col, hmat, ec, hcol⟩

/-- **C80, spheres.** A flat sphere shows its surface, painted relative to its centre, along every ray. -/
theorem C80_sphere (tex : Tex Ext) (Col : Vec ℝ → Color ℝ) (htex : tex.Paints Col) (d : Ext) (D : ℝ) (hd : d.Is D)
    (hD : 0 ≤ D) (c : Vec Ext) (C : Vec ℝ) (hc : c.Is C) (R : Ray ℝ) (hR : R.dir ≠ ⟨0, 0, 0⟩) :
    Shows (Obj.sphere (some (.flat tex)) d c) ⟨fun p => AtDistance p C (D / 2), fun p => Col (p.sub C)⟩ R := by
  have hlead : (Obj.sphereQ (some (Mat.flat tex)) D C).lead R.dir ≠ 0 := by
    have := dot_self_pos hR
    simp only [Quadric.lead, Obj.sphereQ, lit_real]
    simp only [Vec.dot] at this
    push_cast
    nlinarith
  have hQ : (Obj.sphereQ (some (Mat.flat tex)) d c).Is (Obj.sphereQ (some (Mat.flat tex)) D C) := by
    have two : (lit 2 : Ext).Is (lit 2 : ℝ) := Ext.Is.lit 2
    have r := hd.div two (by norm_num)
    have one : (lit 1 : Ext).Is (lit 1 : ℝ) := Ext.Is.lit 1
    have t : (tiny : Ext).Is tiny := Ext.Is.lit _
    exact ⟨hc, ⟨one, one, one⟩, r.mul r, ⟨(Vec.Is.add ⟨r.neg, r.neg, r.neg⟩ hc).add ⟨t.neg, t.neg, t.neg⟩,
      (Vec.Is.add ⟨r, r, r⟩ hc).add ⟨t, t, t⟩⟩, rfl⟩
  refine quadric_shows htex hQ rfl hlead ?_
  rcases C25_sphere (some (Mat.flat tex)) D C hD R (by simpa [Vec.zero] using hR) with ⟨t, h1, h2⟩ | h
  · exact .inl ⟨t, h1, by rw [h2]⟩
  · exact .inr h

/-- **C80, cylinders.** A flat cylinder without caps shows its surface along every ray that is not vertical. -/
theorem C80_cylinder (tex : Tex Ext) (Col : Vec ℝ → Color ℝ) (htex : tex.Paints Col) (d h : Ext) (D H : ℝ) (hd : d.Is D)
    (hh : h.Is H) (hD : 0 ≤ D) (c : Vec Ext) (C : Vec ℝ) (hc : c.Is C) (R : Ray ℝ) (hR : R.dir.x ≠ 0 ∨ R.dir.z ≠ 0) :
    Shows (Obj.cylinder (some (.flat tex)) d h c) ⟨OnTube D H C, fun p => Col (p.sub C)⟩ R := by
  have hlead : (Obj.cylinderQ (some (Mat.flat tex)) D H C).lead R.dir ≠ 0 := by
    simp only [Quadric.lead, Obj.cylinderQ, lit_real]
    push_cast
    have : 0 < R.dir.x ^ 2 + R.dir.z ^ 2 := by rcases hR with h | h <;> positivity
    nlinarith
  have hQ : (Obj.cylinderQ (some (Mat.flat tex)) d h c).Is (Obj.cylinderQ (some (Mat.flat tex)) D H C) := by
    have two : (lit 2 : Ext).Is (lit 2 : ℝ) := Ext.Is.lit 2
    have r := hd.div two (by norm_num)
    have k := hh.div two (by norm_num)
    have k' := hh.neg.div two (by norm_num)
    have one : (lit 1 : Ext).Is (lit 1 : ℝ) := Ext.Is.lit 1
    have zero : (lit 0 : Ext).Is (lit 0 : ℝ) := Ext.Is.lit 0
    have t : (tiny : Ext).Is tiny := Ext.Is.lit _
    exact ⟨hc, ⟨one, zero, one⟩, r.mul r, ⟨(Vec.Is.add ⟨r.neg, k', r.neg⟩ hc).add ⟨t.neg, t.neg, t.neg⟩,
      (Vec.Is.add ⟨r, k, r⟩ hc).add ⟨t, t, t⟩⟩, rfl⟩
  refine quadric_shows htex hQ rfl hlead ?_
  rcases C25_cylinder (some (Mat.flat tex)) D H C hD R hR with ⟨t, h1, h2⟩ | h
  · exact .inl ⟨t, h1, by rw [h2]⟩
  · exact .inr h

/-- Objects of one flat colour that report their first crossing. -/
private theorem plain_shows {c : Color Ext} {C : Color ℝ} (hc : c.Is C) {o : Obj Ext (Mat Ext)} {on : Vec ℝ → Prop}
    {R : Ray ℝ} (h : ∀ r : Ray Ext, r.Is R → ∃ hit, o.intersect r = .ok (hit, r) ∧
      ((lit 0 <. hit.t) = true → hit.mat = some (.flat fun _ => .ok c)) ∧ ReportsFirst on R False hit) :
    Shows o ⟨on, fun _ => C⟩ R := by
  intro r hr
  obtain ⟨hit, e, hm, hf⟩ := h r hr
  refine ⟨hit, r, e, hf, fun T hT hT0 => ⟨_, c, hm ?_, rfl, hc⟩⟩
  rw [zero_is.lt hT]
  simpa using hT0

/-- **C80, rectangles.** A horizontal rectangle of one flat colour, along the rays of `C67_rectangle`. -/
theorem C80_rectangle (St : Sorter (Obj Ext (Mat Ext))) (col : Color Ext) (Col : Color ℝ) (hcol : col.Is Col) (w d : Ext)
    (W D : ℝ) (hw : w.Is W) (hd : d.Is D) (hW : 0 < W) (hD : 0 < D) (c : Vec Ext) (C : Vec ℝ) (hc : c.Is C) :
    ∃ o, rectangle St (some (.flat fun _ => .ok col)) w d c = .ok o ∧ ∀ R : Ray ℝ, R.dir.y ≠ 0 →
      (R.dir.x = 0 → |R.start.x - C.x| ≠ W / 2) → (R.dir.z = 0 → |R.start.z - C.z| ≠ D / 2) →
      (∀ T, OnRect W D C (R.at T) → T < 9 * 10 ^ 99) → Shows o ⟨OnRect W D C, fun _ => Col⟩ R := by
  obtain ⟨o, e, h⟩ := C67_rectangle St (some (Mat.flat fun _ => .ok col)) w d W D hw hd hW hD c C hc
  refine ⟨o, e, fun R h1 h2 h3 h4 => plain_shows hcol fun r hr => ?_⟩
  obtain ⟨hit, e1, e2, e3⟩ := h r R hr h1 h2 h3 h4
  exact ⟨hit, e1, fun _ => e2, e3⟩

/-- **C80, disks.** A horizontal disk of one flat colour, along the rays of `C67_disk`. -/
theorem C80_disk (St : Sorter (Obj Ext (Mat Ext))) (col : Color Ext) (Col : Color ℝ) (hcol : col.Is Col) (d : Ext)
    (D : ℝ) (hd : d.Is D) (hD : 0 < D) (c : Vec Ext) (C : Vec ℝ) (hc : c.Is C) :
    ∃ o, disk St (some (.flat fun _ => .ok col)) d c = .ok o ∧ ∀ R : Ray ℝ, R.dir.y ≠ 0 →
      (R.dir.x = 0 → |R.start.x - C.x| ≠ D / 2) → (R.dir.z = 0 → |R.start.z - C.z| ≠ D / 2) →
      (∀ T, OnRect D D C (R.at T) → T < 9 * 10 ^ 99) → Shows o ⟨OnOpenDisk D C, fun _ => Col⟩ R := by
  obtain ⟨o, e, h⟩ := C67_disk St (some (Mat.flat fun _ => .ok col)) d D hd hD c C hc
  refine ⟨o, e, fun R h1 h2 h3 h4 => plain_shows hcol fun r hr => ?_⟩
  obtain ⟨hit, e1, e2, e3⟩ := h r R hr h1 h2 h3 h4
  exact ⟨hit, e1, e2, e3⟩

/-- **C80, meshes.** A mesh of one flat colour with more than 7 faces (a smaller one reports the distance `9e99` for
rays that miss it, see C68), along the rays of `C68_mesh_partial` that are parallel to none of the triangles. -/
theorem C80_mesh (St : Sorter (Obj Ext (Mat Ext))) (col : Color Ext) (Col : Color ℝ) (hcol : col.Is Col)
    (vertices : List (Vec Ext)) (Vs : List (Vec ℝ)) (hV : List.Forall₂ Vec.Is vertices Vs)
    (faces : List (Int × Int × Int)) (hmany : 7 < faces.length) (o : Obj Ext (Mat Ext))
    (h : meshWithUV St (some (.flat fun _ => .ok col)) vertices faces none = .ok o) (R : Ray ℝ)
    (hd : R.dir ≠ ⟨0, 0, 0⟩) (htr : MeshTransverse Vs faces R.dir) (hgen : StartsClear Vs R)
    (hfar : ∀ T, OnMesh Vs faces (R.at T) → T < 9 * 10 ^ 99) : Shows o ⟨OnMesh Vs faces, fun _ => Col⟩ R := by
  refine plain_shows hcol fun r hr => ?_
  obtain ⟨hit, e1, e2, e3⟩ := C68_mesh_partial St _ vertices Vs hV faces none o h r R hr hd hgen
    (by rw [onMeshAcross_eq htr]; exact hfar)
  rw [onMeshAcross_eq htr] at e3
  refine ⟨hit, e1, fun _ => e2, ?_⟩
  rcases e3 with e3 | ⟨e3, e4 | e4⟩
  · exact .inl e3
  · exact .inr ⟨e3, .inl e4⟩
  · omega

/-- Lines of sight have unit direction. -/
theorem sight_unit (V : View) (w h : ℕ) (x y : ℝ) : (V.sight w h x y).dir.dot (V.sight w h x y).dir = 1 := by
  show (turned _ _ _ _).dot (turned _ _ _ _) = 1
  rw [← turned_ypr, orth_ypr]
  exact unitVec_dot (fun h => by have := congrArg Vec.z h; simp [pixelDir] at this)

theorem sight_ne (V : View) (w h : ℕ) (x y : ℝ) : (V.sight w h x y).dir ≠ ⟨0, 0, 0⟩ := by
  intro e
  have := sight_unit V w h x y
  rw [e] at this
  simp [Vec.dot] at this

/-- A flat sphere, and the thing it is. -/
def IsBall (o : Obj Ext (Mat Ext)) (th : Thing) : Prop :=
  ∃ (tex : Tex Ext) (Col : Vec ℝ → Color ℝ) (d : Ext) (D : ℝ) (c : Vec Ext) (C : Vec ℝ),
    tex.Paints Col ∧ d.Is D ∧ 0 ≤ D ∧ c.Is C ∧ o = Obj.sphere (some (.flat tex)) d c ∧
    th = ⟨fun p => AtDistance p C (D / 2), fun p => Col (p.sub C)⟩

/-- **C80 for spheres.** Pictures of any number of painted flat spheres, in any places and sizes, possibly overlapping or
around the camera, are right in every pixel, without further conditions. -/
theorem C80_spheres (s : Scene Ext) (hm : s.media = []) (hl : s.lights = []) (hd : 0 < s.recursionDepth)
    (things : List Thing) (hs : List.Forall₂ IsBall s.objects things)
    (V : View) (h0 : 0 < V.fov) (h1 : V.fov < Real.pi) (fov yaw pitch roll : Ext) (eye : Vec Ext) (hf : fov.Is V.fov)
    (hy : yaw.Is V.yaw) (hp : pitch.Is V.pitch) (hr : roll.Is V.roll) (he : eye.Is V.eye) (w h : Nat) :
    ∃ cam, Cam.projective fov = .ok cam ∧
      ∀ (rng : Rng Ext S) (shifts : List (Ext × Ext)), w * h ≤ shifts.length →
      ∀ (W : Nat), 0 < W → ∀ (seeds : Fin W → S) (nPass : Nat), 0 < nPass →
      ∀ (t : SamplerState Ext (Ctx Ext S) W) (k : Nat),
        Runs (ctxShader (s.imageFunc rng ((cam.yawPitchRoll yaw pitch roll).translate eye))) w h false nPass
          (samplerInit w h (fun i => Ctx.new shifts (seeds i)) fun _ => Cell.zero) k t → t.done →
        ∀ p : Pixel, p.1 < w → p.2 < h → ∃ C, ((t.mem p).image).Is C ∧ Sees things (V.sight w h p.1 p.2) C := by
  refine C80_picture s hm hd things V h0 h1 fov yaw pitch roll eye hf hy hp hr he w h fun p _ _ => ?_
  rw [hl, List.map_nil, List.append_nil]
  refine hs.imp ?_
  rintro o th ⟨tex, Col, d, D, c, C, a1, a2, a3, a4, rfl, rfl⟩
  exact C80_sphere tex Col a1 d D a2 a3 c C a4 _ (sight_ne _ _ _ _ _)

/-- A red ball of diameter 2, five in front of the camera. -/
noncomputable def redBall : Obj Ext (Mat Ext) :=
  Obj.sphere (some (.flat fun _ => .ok ⟨lit 1, lit 0, lit 0⟩)) (lit 2) ⟨lit 0, lit 0, lit (-5)⟩

/-- The ball in space. -/
def redThing : Thing := ⟨fun p => AtDistance p ⟨0, 0, -5⟩ 1, fun _ => ⟨1, 0, 0⟩⟩

/-- The hypotheses of `C80_spheres` are met by this scene, and the middle of its picture is seen red and a corner of it
black. -/
example : List.Forall₂ IsBall (⟨[], [redBall], [], 1⟩ : Scene Ext).objects [redThing] ∧
    (∀ C, Sees [redThing] ((⟨Real.pi / 2, 0, 0, 0, ⟨0, 0, 0⟩⟩ : View).sight 3 3 1 1) C ↔ C = ⟨1, 0, 0⟩) ∧
    (∀ C, Sees [redThing] ((⟨Real.pi / 2, 0, 0, 0, ⟨0, 0, 0⟩⟩ : View).sight 3 3 0 1) C ↔ C = ⟨0, 0, 0⟩) := by
  have turn0 : ∀ v : Vec ℝ, turned 0 0 0 v = v := by intro v; simp [turned, rodrigues, geo]
  have tan4 : Real.tan (Real.pi / 2 / 2) = 1 := by
    rw [show Real.pi / 2 / 2 = Real.pi / 4 by ring, Real.tan_pi_div_four]
  refine ⟨.cons ⟨fun _ => .ok ⟨lit 1, lit 0, lit 0⟩, fun _ => ⟨1, 0, 0⟩, lit 2, 2, _, ⟨0, 0, -5⟩, ?_, by simpa using Ext.Is.lit 2,
    by norm_num, ?_, rfl, by simp [redThing]⟩ .nil, ?_, ?_⟩
  · intro p P _
    exact ⟨_, rfl, by simpa using Ext.Is.lit 1, by simpa using Ext.Is.lit 0, by simpa using Ext.Is.lit 0⟩
  · exact ⟨by simpa using Ext.Is.lit 0, by simpa using Ext.Is.lit 0, by simpa using Ext.Is.lit (-5)⟩
  · have hs : (⟨Real.pi / 2, 0, 0, 0, ⟨0, 0, 0⟩⟩ : View).sight 3 3 1 1 = ⟨⟨0, 0, 0⟩, ⟨0, 0, -1⟩⟩ := by
      simp only [View.sight, turn0, pixelDir, tan4, unitVec]
      norm_num [geo]
    intro C
    rw [hs]
    have on : ∀ T : ℝ, redThing.on ((⟨⟨0, 0, 0⟩, ⟨0, 0, -1⟩⟩ : Ray ℝ).at T) ↔ (5 - T) ^ 2 = 1 := by
      intro T
      simp only [redThing, AtDistance, geo]
      constructor
      · rintro ⟨h, -⟩; nlinarith
      · intro h; exact ⟨by nlinarith, by norm_num⟩
    constructor
    · rintro (⟨th, hth, T, hT, hon, rfl, -⟩ | ⟨h, -⟩)
      · rw [List.mem_singleton.1 hth]; rfl
      · exact absurd ((on 4).2 (by norm_num)) (h redThing (by simp) 4 (by norm_num))
    · rintro rfl
      refine .inl ⟨redThing, by simp, 4, by norm_num, (on 4).2 (by norm_num), rfl, ?_⟩
      intro other ho T' _ hon
      rw [List.mem_singleton.1 ho, on] at hon
      nlinarith
  · intro C
    have hno : ∀ T > 0, ¬ redThing.on (((⟨Real.pi / 2, 0, 0, 0, ⟨0, 0, 0⟩⟩ : View).sight 3 3 0 1).at T) := by
      intro T hT hon
      simp only [View.sight, turn0, pixelDir, tan4, unitVec, redThing, AtDistance] at hon
      generalize 1 / Real.sqrt _ = k at hon
      simp only [geo] at hon
      norm_num at hon
      nlinarith [hon, sq_nonneg (T * k - 45 / 13)]
    constructor
    · rintro (⟨th, hth, T, hT, hon, -⟩ | ⟨-, h⟩)
      · rw [List.mem_singleton.1 hth] at hon
        exact absurd hon (hno T hT)
      · exact h
    · rintro rfl
      exact .inr ⟨fun th hth => by rw [List.mem_singleton.1 hth]; exact hno, rfl⟩

end BR
