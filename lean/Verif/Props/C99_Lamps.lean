import Verif.Lemmas.LampLit
import Verif.Lemmas.Penumbra
import Verif.Props.C97_SkyLight
import Verif.Props.C78_Converge

/-!
C99: pictures of scenes with lamps that have a size are right, and converge to soft shadows. What the program draws, scene
and sampler together, follows the laws of optics with lamps that are seen and that send light from random places on them; as
the number of passes grows a matte surface tends to what it reflects of the light that falls on it from all sides, with the
lamps where they are seen and not hidden by something in the way.
-/

namespace BR
set_option linter.unusedSectionVars false

open MeasureTheory Filter Topology Set

variable {S : Type}

private theorem possible_in {s : Scene Ext} (hm : s.media = []) (hd : 0 ≤ s.recursionDepth) {G : Setting}
    (hl : List.Forall₂ Emits s.lights G.lamps)
    {V : View} (h0 : 0 < V.fov) (h1 : V.fov < Real.pi) {fov yaw pitch roll : Ext} {eye : Vec Ext} (hf : fov.Is V.fov)
    (hy : yaw.Is V.yaw) (hp : pitch.Is V.pitch) (hr : roll.Is V.roll) (he : eye.Is V.eye) {w h : Nat} (aa : Bool)
    (hs : ∀ p : Pixel, p.1 < w → p.2 < h →
      FollowedIn G s s.recursionDepth.toNat .direct (V.sight w h p.1 (sampleRow aa w h p.2)))
    {cam : Cam Ext} (ecam : Cam.projective fov = .ok cam) (rng : Rng Ext S) (hrng : ∀ st, InUnitSq (rng.next2 st).1)
    {shifts : List (Ext × Ext)} (hshift : w * h ≤ shifts.length) (hfin : ∀ x ∈ shifts, (∃ a, x.1.Is a) ∧ ∃ b, x.2.Is b) :
    ∃ sh : Pixel → ℝ × ℝ, Possible (ctxShader (s.imageFunc rng ((cam.yawPitchRoll yaw pitch roll).translate eye))) w h aa
      (BetweenPixels shifts) fun p n c => ∃ C, c.Is C ∧ LooksIn G (Chosen (pathPairs (sh p) n).1 (pathPairs (sh p) n).2)
        s.recursionDepth.toNat .direct (V.sight w h p.1 (sampleRow aa w h p.2)) C := by
  have hlt : ∀ p : Pixel, p.1 < w → p.2 < h → w * p.2 + p.1 < shifts.length := by
    intro p hpx hpy
    refine lt_of_lt_of_le ?_ hshift
    calc w * p.2 + p.1 < w * p.2 + w := by omega
      _ = w * (p.2 + 1) := by ring
      _ ≤ w * h := Nat.mul_le_mul_left _ hpy
  have hex : ∀ p : Pixel, ∃ d : ℝ × ℝ, ∀ (hx : p.1 < w) (hyy : p.2 < h),
      (shifts[w * p.2 + p.1]'(hlt p hx hyy)).1.Is d.1 ∧ (shifts[w * p.2 + p.1]'(hlt p hx hyy)).2.Is d.2 := by
    intro p
    by_cases hp : p.1 < w ∧ p.2 < h
    · obtain ⟨⟨d1, h1⟩, d2, h2⟩ := hfin _ (List.getElem_mem (hlt p hp.1 hp.2))
      exact ⟨(d1, d2), fun _ _ => ⟨h1, h2⟩⟩
    · exact ⟨(0, 0), fun h1 h2 => absurd ⟨h1, h2⟩ hp⟩
  choose sh hsh using hex
  refine ⟨sh, ?_⟩
  intro ctx hctx p hx hyy n
  obtain ⟨q, ctx1, hq, hb, ⟨x, hmem, hget, e1, e2⟩, e⟩ :=
    pixel_seqs (s := s) h0 h1 hf hy hp hr he ecam aa rng hshift hctx p hx hyy n
  have hxe : x = shifts[w * p.2 + p.1]'(hlt p hx hyy) := by
    rw [List.getElem?_eq_getElem (hlt p hx hyy)] at hget
    exact (Option.some.inj hget).symm
  obtain ⟨hx1, hy1⟩ := hsh p hx hyy
  rw [← hxe] at hx1 hy1
  obtain ⟨uv1, g1, u1, v1⟩ := generate2_is ctx1.seq1 (x := (sh p).1) (y := (sh p).2) (by rw [e1]; simp [HaltonSeq.new])
    (by rw [e1]; simp [HaltonSeq.new]) (by rw [e1]; exact hx1) (by rw [e1]; exact hy1)
  obtain ⟨uv2, g2, u2, v2⟩ := generate2_is ctx1.seq2 (x := (sh p).1) (y := (sh p).2) (by rw [e2]; simp [HaltonSeq.new])
    (by rw [e2]; simp [HaltonSeq.new]) (by rw [e2]; exact hx1) (by rw [e2]; exact hy1)
  have eb1 : ctx1.seq1.baseU = 2 ∧ ctx1.seq1.baseV = 3 ∧ ctx1.seq1.index = n := by rw [e1]; exact ⟨rfl, rfl, rfl⟩
  have eb2 : ctx1.seq2.baseU = 5 ∧ ctx1.seq2.baseV = 7 ∧ ctx1.seq2.index = n := by rw [e2]; exact ⟨rfl, rfl, rfl⟩
  rw [eb1.1, eb1.2.2] at u1
  rw [eb1.2.1, eb1.2.2] at v1
  rw [eb2.1, eb2.2.2] at u2
  rw [eb2.2.1, eb2.2.2] at v2
  have hpm := pathPairs_mem (sh p) n
  obtain ⟨c, C, ctx2, ec, hc, hlook, hfr⟩ := lightField_in rng hm hl
    (Chosen (pathPairs (sh p) n).1 (pathPairs (sh p) n).2) s.recursionDepth.toNat .direct hq
    (sight_unit V w h _ _) (hs p hx hyy) ctx1.takeRay.2 (by
      intro i
      have hdep : ctx1.takeRay.2.depth = 0 := hb.depth
      match i with
      | 0 => exact drawsIn_seq1 (by rw [hdep]; rfl) g1 hpm.1 u1 v1
      | 1 => exact drawsIn_seq2 (by rw [hdep]; rfl) g2 hpm.2 u2 v2
      | i + 2 => exact drawsIn_rng hrng (by rw [hdep]; push_cast; show (2 : Int) < 0 + 1 + (i + 2); omega)) (by
      show ctx1.depth + _ = _
      rw [hb.depth]; omega)
  refine ⟨c, ctx2.putRay ctx1.takeRay.1, ?_, betweenPixels_frame hb ?_, C, hc, hlook⟩
  · rw [e, ec]; rfl
  · exact hfr.symm

/-- **C99.** Take a scene of things and lamps of any kind, without media, as `FollowedIn` tells, and a camera with a field of
view below 180°. The picture is drawn without a crash, and each pixel is the mean of colours that the laws of optics allow
along the ray of sight of the pixel, when light is sent from random places on the lamps; for any numbers of workers and
passes, schedules, random sources with values in the unit square, seeds and shifts. -/
theorem C99_picture (s : Scene Ext) (hm : s.media = []) (hd : 0 ≤ s.recursionDepth) (G : Setting)
    (hl : List.Forall₂ Emits s.lights G.lamps)
    (V : View) (h0 : 0 < V.fov) (h1 : V.fov < Real.pi) (fov yaw pitch roll : Ext) (eye : Vec Ext) (hf : fov.Is V.fov)
    (hy : yaw.Is V.yaw) (hp : pitch.Is V.pitch) (hr : roll.Is V.roll) (he : eye.Is V.eye) (w h : Nat) (aa : Bool)
    (hs : ∀ p : Pixel, p.1 < w → p.2 < h →
      FollowedIn G s s.recursionDepth.toNat .direct (V.sight w h p.1 (sampleRow aa w h p.2))) :
    ∃ cam, Cam.projective fov = .ok cam ∧
      ∀ (rng : Rng Ext S), (∀ st, InUnitSq (rng.next2 st).1) →
      ∀ (shifts : List (Ext × Ext)), w * h ≤ shifts.length → (∀ x ∈ shifts, (∃ a, x.1.Is a) ∧ ∃ b, x.2.Is b) →
      ∀ (W : Nat), 0 < W → ∀ (seeds : Fin W → S) (nPass : Nat), 0 < nPass →
      ∀ (t : SamplerState Ext (Ctx Ext S) W) (k : Nat),
        Runs (ctxShader (s.imageFunc rng ((cam.yawPitchRoll yaw pitch roll).translate eye))) w h aa nPass
          (samplerInit w h (fun i => Ctx.new shifts (seeds i)) fun _ => Cell.zero) k t →
        t.crashed = false ∧ (t.done → ∀ p : Pixel, p.1 < w → p.2 < h → ∃ C : ℕ → Color ℝ,
          (∀ k, ∃ a ∈ unitSq, ∃ b ∈ unitSq, LooksIn G (Chosen a b) s.recursionDepth.toNat .direct
            (V.sight w h p.1 (sampleRow aa w h p.2)) (C k)) ∧
          ((t.mem p).image).Is (meanColor C nPass)) := by
  obtain ⟨cam, ecam, -⟩ := projective_sees (S := S) hf hy hp hr he h0 h1
  refine ⟨cam, ecam, ?_⟩
  intro rng hrng shifts hshift hfin W hW seeds nPass hn t k hrun
  obtain ⟨sh, hpos⟩ := possible_in hm hd hl h0 h1 hf hy hp hr he aa hs ecam rng hrng hshift hfin
  refine ⟨(C03_random_safe hpos (fun i => betweenPixels_new shifts (seeds i)) t k hrun).1, fun hdone p hx hyy => ?_⟩
  obtain ⟨g, hg, hmem⟩ := C03_every_pass hpos (fun i => betweenPixels_new shifts (seeds i)) hW t k hrun hdone
  choose C hC using hg p hx hyy
  refine ⟨C, fun k => ⟨_, (pathPairs_mem (sh p) k).1, _, (pathPairs_mem (sh p) k).2, (hC k).2⟩, ?_⟩
  rw [hmem p, if_pos ⟨hx, hyy⟩]
  exact image_mean (fun k => (hC k).1) nPass hn

/-- **C99, convergence.** If the colour of a pixel is determined by the random pairs `a` and `b` at the first two surfaces, in a
tame way, then the pixel tends to the mean over all pairs. -/
theorem C99_converge (s : Scene Ext) (hm : s.media = []) (hd : 0 ≤ s.recursionDepth) (G : Setting)
    (hl : List.Forall₂ Emits s.lights G.lamps)
    (V : View) (h0 : 0 < V.fov) (h1 : V.fov < Real.pi) (fov yaw pitch roll : Ext) (eye : Vec Ext) (hf : fov.Is V.fov)
    (hy : yaw.Is V.yaw) (hp : pitch.Is V.pitch) (hr : roll.Is V.roll) (he : eye.Is V.eye) (w h : Nat) (aa : Bool)
    (hs : ∀ p : Pixel, p.1 < w → p.2 < h →
      FollowedIn G s s.recursionDepth.toNat .direct (V.sight w h p.1 (sampleRow aa w h p.2)))
    (p : Pixel) (hpx : p.1 < w) (hpy : p.2 < h) (col : (ℝ × ℝ) × (ℝ × ℝ) → Color ℝ)
    (hcol : ∀ a ∈ unitSq, ∀ b ∈ unitSq, ∀ C, LooksIn G (Chosen a b) s.recursionDepth.toNat .direct
      (V.sight w h p.1 (sampleRow aa w h p.2)) C → C = col (a, b))
    (tR : Tame (unitSq ×ˢ unitSq) fun q => (col q).R) (tG : Tame (unitSq ×ˢ unitSq) fun q => (col q).G)
    (tB : Tame (unitSq ×ˢ unitSq) fun q => (col q).B) :
    ∃ cam, Cam.projective fov = .ok cam ∧
      ∀ (rng : Rng Ext S), (∀ st, InUnitSq (rng.next2 st).1) →
      ∀ (shifts : List (Ext × Ext)), w * h ≤ shifts.length → (∀ x ∈ shifts, (∃ a, x.1.Is a) ∧ ∃ b, x.2.Is b) →
      ∀ (W : ℕ → ℕ), (∀ N, 0 < W N) → ∀ (seeds : ∀ N, Fin (W N) → S)
        (t : ∀ N, SamplerState Ext (Ctx Ext S) (W N)) (k : ℕ → ℕ),
        (∀ N, Runs (ctxShader (s.imageFunc rng ((cam.yawPitchRoll yaw pitch roll).translate eye))) w h aa N
          (samplerInit w h (fun i => Ctx.new shifts (seeds N i)) fun _ => Cell.zero) (k N) (t N)) →
        (∀ N, (t N).done) →
        ∃ I : ℕ → Color ℝ, (∀ N > 0, (((t N).mem p).image).Is (I N)) ∧
          ColorsTend I ⟨∫ q in unitSq ×ˢ unitSq, (col q).R, ∫ q in unitSq ×ˢ unitSq, (col q).G,
            ∫ q in unitSq ×ˢ unitSq, (col q).B⟩ := by
  obtain ⟨cam, ecam, -⟩ := projective_sees (S := S) hf hy hp hr he h0 h1
  refine ⟨cam, ecam, ?_⟩
  intro rng hrng shifts hshift hfin W hW seeds t k hrun hdone
  obtain ⟨sh, hpos⟩ := possible_in hm hd hl h0 h1 hf hy hp hr he aa hs ecam rng hrng hshift hfin
  refine ⟨fun N => meanColor (fun n => col (pathPairs (sh p) n)) N, ?_, ?_⟩
  · intro N hN
    obtain ⟨g, hg, hmem⟩ := C03_every_pass hpos (fun i => betweenPixels_new shifts (seeds N i)) (hW N) (t N) (k N) (hrun N)
      (hdone N)
    rw [hmem p, if_pos ⟨hpx, hpy⟩]
    refine image_mean (fun n => ?_) N hN
    obtain ⟨C, hC, hlook⟩ := hg p hpx hpy n
    have hmem := pathPairs_mem (sh p) n
    rw [hcol _ hmem.1 _ hmem.2 C hlook] at hC
    exact hC
  · exact ⟨tendsto_pathPairs _ _ tR, tendsto_pathPairs _ _ tG, tendsto_pathPairs _ _ tB⟩

/-! ## Lamps of the program -/

private theorem sub_ne_zero' {P X : Vec ℝ} (h : X ≠ P) : P.sub X ≠ ⟨0, 0, 0⟩ := by
  intro e
  apply h
  simp only [geo] at e ⊢
  refine ⟨?_, ?_, ?_⟩ <;> linarith [e.1, e.2.1, e.2.2]

private theorem length3_sub (P X : Vec ℝ) : length3 (X.sub P) = length3 (P.sub X) := by
  unfold length3
  simp only [geo]
  ring_nf

private theorem length3_dot (d : Vec ℝ) : length3 d ^ 2 = d.dot d := by
  unfold length3
  rw [Real.sq_sqrt (by positivity)]
  simp only [geo]
  ring

/-- **C99, point lights.** A point light of finite data is a lamp without size. -/
theorem C99_bulb (l : Light Ext) (L : Bulb) (h : IsBulb l L) : Emits l (bulbLamp L) := by
  obtain ⟨pos, power, rfl, hpos, hpower⟩ := h
  intro S rng ctx ctx' uv q p P hg hU hV hq hp hne
  refine ⟨pos, _, ctx, rfl, hpos, ?_, .inl rfl⟩
  have hd : (p.sub pos).Is (P.sub L.pos) := hp.sub hpos
  have hd0 := sub_ne_zero' hne
  have hpi := Real.pi_pos
  have hl := dot_self_pos hd0
  have hk : (Light.pointIntensity p pos).Is (1 / (4 * Real.pi) / (P.sub L.pos).dot (P.sub L.pos)) := by
    refine Ext.Is.div (lit1_is.div (Ext.Is.of_eq ((Ext.Is.lit 4).mul pi_is) (by norm_num)) (by positivity)) (hd.dot hd) hl.ne'
  refine (hpower.mul hk).of_eq ?_
  have e : length3 (L.pos.sub P) ^ 2 = (P.sub L.pos).dot (P.sub L.pos) := by rw [length3_sub, length3_dot]
  simp only [bulbLamp, e, Color.mk.injEq]
  refine ⟨?_, ?_, ?_⟩ <;> field_simp

private theorem planarIntensity_is {p x : Vec Ext} {P X : Vec ℝ} (hp : p.Is P) (hx : x.Is X) (hne : X ≠ P) :
    (Light.planarIntensity p x).Is (1 / Real.pi * (max 0 (X.y - P.y) / length3 (X.sub P)) / length3 (X.sub P) ^ 2) := by
  have hd : (p.sub x).Is (P.sub X) := hp.sub hx
  have hd0 := sub_ne_zero' hne
  have hpi := Real.pi_pos
  have hl := dot_self_pos hd0
  have hdown : (⟨lit 0, lit (-1), lit 0⟩ : Vec Ext).Is ⟨0, -1, 0⟩ :=
    ⟨lit0_is, Ext.Is.of_eq (Ext.Is.lit (-1)) (by norm_num), lit0_is⟩
  have hl2 := length3_dot (P.sub X)
  have hlen0 : 0 < length3 (P.sub X) := by
    have : 0 ≤ length3 (P.sub X) := Real.sqrt_nonneg _
    rcases this.lt_or_eq with h | h
    · exact h
    · rw [← h] at hl2; linarith
  have hi := ((lit1_is.div pi_is hpi.ne').div (hd.dot hd) hl.ne').mul (hdown.dot (hd.normalized hd0))
  have e : 1 / Real.pi / (P.sub X).dot (P.sub X) * (⟨0, -1, 0⟩ : Vec ℝ).dot (unitVec (P.sub X)) =
      1 / Real.pi * ((X.y - P.y) / length3 (P.sub X)) / length3 (P.sub X) ^ 2 := by
    rw [hl2]
    have : (⟨0, -1, 0⟩ : Vec ℝ).dot (unitVec (P.sub X)) = (X.y - P.y) / length3 (P.sub X) := by
      unfold unitVec
      rw [← hl2, Real.sqrt_sq hlen0.le]
      simp only [geo]
      ring
    rw [this]
    ring
  rw [e] at hi
  rw [length3_sub P X]
  unfold Light.planarIntensity
  dsimp only
  change (if ((lit 1 / GoFloat.pi) / (p.sub x).dot (p.sub x) * _) <. lit 0 then _ else _ : Ext).Is _
  rw [hi.lt lit0_is]
  have hpos : 0 < 1 / Real.pi / length3 (P.sub X) / length3 (P.sub X) ^ 2 := by positivity
  by_cases h : X.y - P.y < 0
  · rw [if_pos, max_eq_left h.le]
    · exact Ext.Is.of_eq lit0_is (by ring)
    · rw [decide_eq_true_eq]
      have : 1 / Real.pi * ((X.y - P.y) / length3 (P.sub X)) / length3 (P.sub X) ^ 2 =
        (1 / Real.pi / length3 (P.sub X) / length3 (P.sub X) ^ 2) * (X.y - P.y) := by ring
      rw [this]
      exact mul_neg_of_pos_of_neg hpos h
  · rw [if_neg, max_eq_right (not_lt.1 h)]
    · exact hi
    · rw [decide_eq_true_eq, not_lt]
      have := not_lt.1 h
      positivity

/-- **C99, rectangle lights.** -/
theorem C99_rectangle (Srt : Sorter (Obj Ext (Mat Ext))) (b : Color Ext) (w h : Ext) (c : Vec Ext) (l : Light Ext)
    (hl : Light.rectangleLight Srt b w h c = .ok l) (B : Color ℝ) (W H : ℝ) (C : Vec ℝ) (hb : b.Is B) (hw : w.Is W) (hh : h.Is H)
    (hc : c.Is C) : Emits l (rectLamp B W H C) := by
  obtain ⟨rect, -, hl⟩ := bind_eq_ok.1 hl
  cases hl
  intro S rng ctx ctx' uv q p P hg hU hV hq hp hne
  have hhalf : (lit (1 / 2) : Ext).Is (1 / 2) := Ext.Is.of_eq (Ext.Is.lit _) (by norm_num)
  have two : (lit 2 : Ext).Is 2 := Ext.Is.of_eq (Ext.Is.lit _) (by norm_num)
  have hx : (Light.samplePos w h c Light.transfRect uv).Is
      ⟨C.x + (q.1 - 1 / 2) * W, C.y + gap, C.z + (q.2 - 1 / 2) * H⟩ :=
    ⟨Ext.Is.of_eq (((hhalf.mul ((two.mul hU).sub lit1_is)).mul hw).add hc.1) (by ring),
      Ext.Is.of_eq (tiny_is.add hc.2.1) (by ring),
      Ext.Is.of_eq (((hhalf.mul ((two.mul hV).sub lit1_is)).mul hh).add hc.2.2) (by ring)⟩
  refine ⟨_, _, ctx', ?_, hx, ((hb.mul ((hw.mul hh).mul lit1_is)).mul (planarIntensity_is hp hx hne)).of_eq ?_, .inr rfl⟩
  · simp only [Light.sample, hg, ok_bind]
    rfl
  · simp only [rectLamp, patchLight, Color.mk.injEq]
    refine ⟨?_, ?_, ?_⟩ <;> ring

/-- **C99, disk lights.** -/
theorem C99_disk (Srt : Sorter (Obj Ext (Mat Ext))) (b : Color Ext) (d : Ext) (c : Vec Ext) (l : Light Ext)
    (hl : Light.diskLight Srt b d c = .ok l) (B : Color ℝ) (D : ℝ) (C : Vec ℝ) (hb : b.Is B) (hd : d.Is D) (hc : c.Is C) :
    Emits l (diskLamp B D C) := by
  obtain ⟨rect, -, hl⟩ := bind_eq_ok.1 hl
  cases hl
  intro S rng ctx ctx' uv q p P hg hU hV hq hp hne
  have hhalf : (lit (1 / 2) : Ext).Is (1 / 2) := Ext.Is.of_eq (Ext.Is.lit _) (by norm_num)
  have hth : (lit 2 * GoFloat.pi * uv.1 : Ext).Is (2 * Real.pi * q.1) :=
    Ext.Is.of_eq (((Ext.Is.lit 2).mul pi_is).mul hU) (by norm_num)
  have hr := hV.sqrt hq.2.1
  have hx : (Light.samplePos d d c uniformDisk uv).Is
      ⟨C.x + D / 2 * (Real.sqrt q.2 * Real.cos (2 * Real.pi * q.1)), C.y + gap,
        C.z + D / 2 * (Real.sqrt q.2 * Real.sin (2 * Real.pi * q.1))⟩ :=
    ⟨Ext.Is.of_eq (((hhalf.mul (hr.mul hth.cos)).mul hd).add hc.1) (by ring),
      Ext.Is.of_eq (tiny_is.add hc.2.1) (by ring),
      Ext.Is.of_eq (((hhalf.mul (hr.mul hth.sin)).mul hd).add hc.2.2) (by ring)⟩
  have hfour : (GoFloat.pi / lit 4 : Ext).Is (Real.pi / 4) := by
    have four : (lit 4 : Ext).Is 4 := Ext.Is.of_eq (Ext.Is.lit _) (by norm_num)
    exact pi_is.div four (by norm_num)
  refine ⟨_, _, ctx', ?_, hx, ((hb.mul ((hd.mul hd).mul hfour)).mul (planarIntensity_is hp hx hne)).of_eq ?_, .inr rfl⟩
  · simp only [Light.sample, hg, ok_bind]
    rfl
  · simp only [diskLamp, patchLight, Color.mk.injEq]
    refine ⟨?_, ?_, ?_⟩ <;> ring

/-! ## Means -/

/-- **C99, the mean light of a point light.** Where nothing is clear, it is the light of the lamp times the cosine of the angle of
incidence if the lamp is in front of the surface and nothing is in the way, and nothing otherwise. -/
theorem C99_mean_bulb (things : List (List Body)) (hno : ∀ b ∈ things.flatten, ∀ p k, b.look p ≠ .clear k) (L : Bulb) (p n : Vec ℝ) :
    (0 < (L.pos.sub p).dot n ∧ ¬ InTheWay things.flatten p (unitVec (L.pos.sub p)) (length3 (L.pos.sub p)) ∧
      ∀ M, M = (⟨L.power.R / (4 * Real.pi * length3 (L.pos.sub p) ^ 2) * ((L.pos.sub p).dot n / length3 (L.pos.sub p)),
        L.power.G / (4 * Real.pi * length3 (L.pos.sub p) ^ 2) * ((L.pos.sub p).dot n / length3 (L.pos.sub p)),
        L.power.B / (4 * Real.pi * length3 (L.pos.sub p) ^ 2) * ((L.pos.sub p).dot n / length3 (L.pos.sub p))⟩ : Color ℝ) →
      MeanLight (fun R' len => ThroughAll R' len things) p n (bulbLamp L) M) ∨
    (((L.pos.sub p).dot n ≤ 0 ∨ InTheWay things.flatten p (unitVec (L.pos.sub p)) (length3 (L.pos.sub p))) ∧
      MeanLight (fun R' len => ThroughAll R' len things) p n (bulbLamp L) ⟨0, 0, 0⟩) := by
  have const : ∀ K : Color ℝ, (∀ q C, Arrives (fun R' len => ThroughAll R' len things) p n (bulbLamp L q) C → C = K) →
      MeanLight (fun R' len => ThroughAll R' len things) p n (bulbLamp L) K := by
    intro K h
    refine ⟨fun _ => K, fun q _ => h q, tame_const _, tame_const _, tame_const _, ?_⟩
    simp only [integral_const, smul_eq_mul]
    have : (volume.restrict unitSq).real univ = 1 := by
      have : volume unitSq = 1 := by
        rw [unitSq, Measure.volume_eq_prod, Measure.prod_prod]; simp
      rw [measureReal_restrict_apply_univ, Measure.real, this]; rfl
    simp [this]
  by_cases h1 : 0 < (L.pos.sub p).dot n
  · by_cases h2 : InTheWay things.flatten p (unitVec (L.pos.sub p)) (length3 (L.pos.sub p))
    · refine .inr ⟨.inr h2, const _ fun q C hC => ?_⟩
      rcases hC with ⟨h, -⟩ | ⟨-, c, hc, rfl⟩
      · exact absurd h1 (not_lt.2 h)
      · rcases through_opaque hno hc with ⟨h, -⟩ | ⟨-, rfl⟩
        · exact absurd h2 h
        · simp
    · refine .inl ⟨h1, h2, fun M hM => const M fun q C hC => ?_⟩
      rcases hC with ⟨h, -⟩ | ⟨-, c, hc, rfl⟩
      · exact absurd h1 (not_lt.2 h)
      · rcases through_opaque hno hc with ⟨-, rfl⟩ | ⟨h, -⟩
        · rw [hM]; rfl
        · exact absurd h h2
  · refine .inr ⟨.inl (not_lt.1 h1), const _ fun q C hC => ?_⟩
    rcases hC with ⟨-, rfl⟩ | ⟨h, -⟩
    · rfl
    · exact absurd h h1

/-- The chance to see an area is its share of what one sees. -/
theorem chance_share {e e' n : Vec ℝ} (hF : IsFrame e e' n) {bodies : List Body} {p : Vec ℝ} {y : ℝ} (hp : p.y < y)
    {A : Set (ℝ × ℝ)} (hA : MeasurableSet A)
    (hB : MeasurableSet {q | InTheWay bodies p (toward p y q).normalized (toward p y q).len}) :
    (chance fun uv => SeesArea (InTheWay bodies p) A y p (cosineSphere uv.1 uv.2 n)).toReal =
      lampShare e e' n bodies p A y := by
  classical
  set V := A ∩ {q : ℝ × ℝ | ¬ InTheWay bodies p (toward p y q).normalized (toward p y q).len} with hV
  have hVm : MeasurableSet V := hA.inter hB.compl
  -- the directions are measurable
  have hM : MeasurableSet {d : Vec ℝ | MeetsArea V y p d} := by
    have e1 : {d : Vec ℝ | MeetsArea V y p d} =
        {d : Vec ℝ | 0 < d.y} ∩ (fun d : Vec ℝ => (p.x + (y - p.y) / d.y * d.x, p.z + (y - p.y) / d.y * d.z)) ⁻¹' V := by
      ext d
      constructor
      · rintro ⟨t, ht, h1, h2⟩
        have hty : t * d.y = y - p.y := by linarith
        have hdy : 0 < d.y := by
          by_contra hc
          have := mul_nonpos_of_nonneg_of_nonpos ht.le (not_lt.1 hc)
          linarith
        have : (y - p.y) / d.y = t := by rw [← hty]; field_simp
        refine ⟨hdy, ?_⟩
        show (_, _) ∈ V
        rw [this]
        exact h2
      · rintro ⟨hdy, h2⟩
        have hdy : 0 < d.y := hdy
        exact ⟨(y - p.y) / d.y, div_pos (by linarith) hdy, by field_simp; ring, h2⟩
    rw [e1]
    have mx : Measurable fun d : Vec ℝ => d.x := Vec.continuous_x.measurable
    have my : Measurable fun d : Vec ℝ => d.y := Vec.continuous_y.measurable
    have mz : Measurable fun d : Vec ℝ => d.z := Vec.continuous_z.measurable
    refine (measurableSet_lt measurable_const my).inter (Measurable.prodMk ?_ ?_ hVm)
    · exact (((measurable_const.div my).mul mx).const_add _)
    · exact (((measurable_const.div my).mul mz).const_add _)
  have hdu : ∀ θ φ, (direction e e' n θ φ).len2 = 1 := fun θ φ => by simpa [Vec.len2, Vec.dot] using direction_unit hF θ φ
  have hsee : ∀ d : Vec ℝ, d.len2 = 1 → (SeesArea (InTheWay bodies p) A y p d ↔ MeetsArea V y p d) :=
    fun d hd => sees_iff hd _ _
  have h1 : chance (fun uv => SeesArea (InTheWay bodies p) A y p (cosineSphere uv.1 uv.2 n)) =
      ∫⁻ q in unitSq, {d : Vec ℝ | SeesArea (InTheWay bodies p) A y p d}.indicator 1 (cosineSphere q.1 q.2 n) := by
    have hset : MeasurableSet {q : ℝ × ℝ | MeetsArea V y p (cosineSphere q.1 q.2 n)} :=
      (continuous_cosineSphere hF.nn).measurable hM
    have hcong : ∀ q ∈ unitSq, {d : Vec ℝ | SeesArea (InTheWay bodies p) A y p d}.indicator (1 : Vec ℝ → ENNReal)
        (cosineSphere q.1 q.2 n) = {q : ℝ × ℝ | MeetsArea V y p (cosineSphere q.1 q.2 n)}.indicator (1 : ℝ × ℝ → ENNReal) q := by
      intro q hq
      have hu : (cosineSphere q.1 q.2 n).len2 = 1 := by
        have := cosineSphere_unit hF.nn hq
        simpa [Vec.len2, Vec.dot] using this
      by_cases h : MeetsArea V y p (cosineSphere q.1 q.2 n)
      · rw [indicator_of_mem (by exact (hsee _ hu).2 h), indicator_of_mem (by exact h)]; rfl
      · rw [indicator_of_notMem (by exact fun h' => h ((hsee _ hu).1 h')), indicator_of_notMem (by exact h)]
    rw [setLIntegral_congr_fun measurableSet_unitSq hcong, lintegral_indicator_one hset,
      Measure.restrict_apply hset]
    unfold chance
    congr 1
    ext q
    constructor
    · rintro ⟨hq, h⟩
      have hu : (cosineSphere q.1 q.2 n).len2 = 1 := by
        have := cosineSphere_unit hF.nn hq
        simpa [Vec.len2, Vec.dot] using this
      exact ⟨(hsee _ hu).1 h, hq⟩
    · rintro ⟨h, hq⟩
      have hu : (cosineSphere q.1 q.2 n).len2 = 1 := by
        have := cosineSphere_unit hF.nn hq
        simpa [Vec.len2, Vec.dot] using this
      exact ⟨hq, (hsee _ hu).2 h⟩
  rw [h1, C76_hemisphere e e' n hF]
  unfold lampShare cosineMean hemisphere
  have hmeas : AEStronglyMeasurable (fun t : ℝ × ℝ => Real.cos t.1 / Real.pi * Real.sin t.1 *
      if SeesArea (InTheWay bodies p) A y p (direction e e' n t.1 t.2) then 1 else 0)
      (volume.restrict (Ioo 0 (Real.pi / 2) ×ˢ Ioo (-Real.pi) Real.pi)) := by
    have hd : Measurable fun t : ℝ × ℝ => direction e e' n t.1 t.2 := by
      refine Continuous.measurable ?_
      unfold direction
      refine continuous_vec ?_ ?_ ?_ <;> simp only [Vec.add, Vec.mul] <;> fun_prop
    have e1 : (fun t : ℝ × ℝ => Real.cos t.1 / Real.pi * Real.sin t.1 *
        if SeesArea (InTheWay bodies p) A y p (direction e e' n t.1 t.2) then 1 else 0) =
        fun t : ℝ × ℝ => Real.cos t.1 / Real.pi * Real.sin t.1 *
          {t : ℝ × ℝ | MeetsArea V y p (direction e e' n t.1 t.2)}.indicator (fun _ => (1 : ℝ)) t := by
      funext t
      congr 1
      by_cases h : MeetsArea V y p (direction e e' n t.1 t.2)
      · rw [if_pos ((hsee _ (hdu _ _)).2 h), indicator_of_mem (by exact h)]
      · rw [if_neg fun h' => h ((hsee _ (hdu _ _)).1 h'), indicator_of_notMem (by exact h)]
    rw [e1]
    refine Measurable.aestronglyMeasurable ?_
    refine Measurable.mul (by fun_prop) (measurable_const.indicator (hd hM))
  rw [integral_eq_lintegral_of_nonneg_ae ?_ hmeas]
  · congr 1
    refine setLIntegral_congr_fun (measurableSet_Ioo.prod measurableSet_Ioo) fun t ht => ?_
    have hc : 0 < Real.cos t.1 := Real.cos_pos_of_mem_Ioo ⟨by linarith [ht.1.1, Real.pi_pos], ht.1.2⟩
    have hpi := Real.pi_pos
    by_cases h : SeesArea (InTheWay bodies p) A y p (direction e e' n t.1 t.2)
    · rw [indicator_of_mem (by exact h), if_pos h, Pi.one_apply, mul_one, mul_one, ENNReal.ofReal_mul (by positivity)]
    · rw [indicator_of_notMem (by exact h), if_neg h, mul_zero, mul_zero, ENNReal.ofReal_zero]
  · filter_upwards [ae_restrict_mem (measurableSet_Ioo.prod measurableSet_Ioo)] with t ht
    have hc : 0 < Real.cos t.1 := Real.cos_pos_of_mem_Ioo ⟨by linarith [ht.1.1, Real.pi_pos], ht.1.2⟩
    have hs : 0 < Real.sin t.1 := Real.sin_pos_of_pos_of_lt_pi ht.1.1 (by linarith [ht.1.2, Real.pi_pos])
    have hpi := Real.pi_pos
    show 0 ≤ Real.cos t.1 / Real.pi * Real.sin t.1 * _
    split_ifs <;> positivity

/-- The mean light of a horizontal lamp. -/
private theorem mean_patch {things : List (List Body)} (hno : ∀ b ∈ things.flatten, ∀ p k, b.look p ≠ .clear k) {p n e e' : Vec ℝ}
    (hF : IsFrame e e' n) {y : ℝ} (hp : p.y < y) (hout : ∀ b ∈ things.flatten, b.Outlined p)
    (hside : ∀ b ∈ things.flatten, (∀ x, b.on x → x.y < y) ∨ ∀ x, b.on x → y ≤ x.y) (B : Color ℝ) {area : ℝ} (ha : 0 < area)
    {A : Set (ℝ × ℝ)} (hA : MeasurableSet A) {pos : ℝ × ℝ → ℝ × ℝ} (hcont : Continuous pos)
    (hpos : ∀ g : ℝ × ℝ → ENNReal, ∫⁻ p in unitSq, g (pos p) = (ENNReal.ofReal area)⁻¹ * ∫⁻ q in A, g q) {E : Emitter}
    (hE : ∀ q, E q = ⟨⟨(pos q).1, y, (pos q).2⟩, patchLight B area ⟨(pos q).1, y, (pos q).2⟩⟩) :
    MeanLight (fun R' len => ThroughAll R' len things) p n E ⟨B.R * lampShare e e' n things.flatten p A y,
      B.G * lampShare e e' n things.flatten p A y, B.B * lampShare e e' n things.flatten p A y⟩ := by
  obtain ⟨hB, h0⟩ := shadow_null hp hout hside
  have hn : n.len2 = 1 := by simpa [Vec.len2, Vec.dot] using hF.nn
  set V := {q : ℝ × ℝ | ¬ InTheWay things.flatten p (toward p y q).normalized (toward p y q).len} with hV
  have hVm : MeasurableSet V := hB.compl
  have hV0 : volume (A ∩ frontier V) = 0 := by
    have : V = {q | InTheWay things.flatten p (toward p y q).normalized (toward p y q).len}ᶜ := rfl
    rw [this, frontier_compl]
    exact measure_mono_null inter_subset_right h0
  have ht := tame_share ha hn hp A V hVm pos hcont hpos hV0
  have hint : ∫ q in unitSq, V.indicator (sampleShare area p n y) (pos q) = lampShare e e' n things.flatten p A y := by
    rw [integral_eq_lintegral_of_nonneg_ae (.of_forall fun q => indicator_nonneg (fun q _ => share_nonneg ha q) _)
      ht.measurable.aestronglyMeasurable, mean_share ha hn hp A hA _ hB pos hpos]
    exact chance_share hF hp hA hB
  have tame : ∀ k : ℝ, Tame unitSq fun q => k * V.indicator (sampleShare area p n y) (pos q) := by
    intro k
    simpa only [mul_comm k] using ht.mul k
  refine ⟨fun q => ⟨B.R * V.indicator (sampleShare area p n y) (pos q), B.G * V.indicator (sampleShare area p n y) (pos q),
    B.B * V.indicator (sampleShare area p n y) (pos q)⟩, ?_, tame _, tame _, tame _, ?_⟩
  · intro q _ C hC
    rw [hE] at hC
    have hd : (⟨(pos q).1, y, (pos q).2⟩ : Vec ℝ).sub p = toward p y (pos q) := rfl
    have hD := dist2_pos hp (pos q)
    have hlen : length3 (toward p y (pos q)) = Real.sqrt (dist2 p y (pos q)) := rfl
    have hr := Real.sqrt_pos.2 hD
    have hrr := Real.sq_sqrt hD.le
    have hpi := Real.pi_pos
    have hh : 0 < y - p.y := by linarith
    rcases hC with ⟨h, rfl⟩ | ⟨h, c, hc, rfl⟩
    · have h : (toward p y (pos q)).dot n ≤ 0 := h
      have hz : sampleShare area p n y (pos q) = 0 := by
        unfold sampleShare
        rw [max_eq_left]
        · ring
        · exact div_nonpos_of_nonpos_of_nonneg (mul_nonpos_of_nonneg_of_nonpos hh.le h) (by positivity)
      have : V.indicator (sampleShare area p n y) (pos q) = 0 := by
        unfold Set.indicator
        split_ifs
        · exact hz
        · rfl
      simp only [this, mul_zero]
    · have h : 0 < (toward p y (pos q)).dot n := h
      have hc : ThroughAll ⟨p, unitVec (toward p y (pos q))⟩ (length3 (toward p y (pos q))) things
        (patchLight B area ⟨(pos q).1, y, (pos q).2⟩ p) c := hc
      rcases through_opaque hno hc with ⟨hw, rfl⟩ | ⟨hw, rfl⟩
      · rw [← normalized_unitVec, ← len_length3] at hw
        dsimp only
        rw [indicator_of_mem (by exact hw)]
        have hshare : sampleShare area p n y (pos q) = area / Real.pi * ((y - p.y) / Real.sqrt (dist2 p y (pos q))) /
            Real.sqrt (dist2 p y (pos q)) ^ 2 * ((toward p y (pos q)).dot n / Real.sqrt (dist2 p y (pos q))) := by
          unfold sampleShare
          rw [max_eq_right (by positivity)]
          generalize Real.sqrt (dist2 p y (pos q)) = r at hr hrr
          rw [← hrr]
          field_simp
        rw [hshare]
        simp only [patchLight, hd, hlen, Color.mk.injEq]
        rw [max_eq_right (by linarith : (0 : ℝ) ≤ y - p.y)]
        refine ⟨?_, ?_, ?_⟩ <;> ring
      · rw [← normalized_unitVec, ← len_length3] at hw
        dsimp only
        rw [indicator_of_notMem (by exact fun h => h hw)]
        simp
  · simp only [integral_const_mul, hint]

/-- **C99, the mean light of a rectangle light.** At a place below the lamp, where nothing is clear, the outlines of all bodies are
thin and no body reaches through the plane of the lamp, it is the brightness of the lamp times the share of the lamp in what
one sees from there. -/
theorem C99_mean_rectangle (things : List (List Body)) (hno : ∀ b ∈ things.flatten, ∀ p k, b.look p ≠ .clear k) (p n e e' : Vec ℝ)
    (hF : IsFrame e e' n) (B : Color ℝ) (W H : ℝ) (hW : 0 < W) (hH : 0 < H) (C : Vec ℝ) (hp : p.y < C.y + gap)
    (hout : ∀ b ∈ things.flatten, b.Outlined p)
    (hside : ∀ b ∈ things.flatten, (∀ x, b.on x → x.y < C.y + gap) ∨ ∀ x, b.on x → C.y + gap ≤ x.y) (share : ℝ)
    (hshare : share = lampShare e e' n things.flatten p (rectArea W H C) (C.y + gap)) :
    MeanLight (fun R' len => ThroughAll R' len things) p n (rectLamp B W H C) ⟨B.R * share, B.G * share, B.B * share⟩ := by
  subst hshare
  refine mean_patch hno hF hp hout hside B (area := W * H) (by positivity) (A := rectArea W H C) ?_
    (pos := stretch (C.x - W / 2) (C.z - H / 2) W H) (by unfold stretch; fun_prop) ?_ ?_
  · have h1 : MeasurableSet {q : ℝ × ℝ | |q.1 - C.x| < W / 2} := (isOpen_lt (by fun_prop) continuous_const).measurableSet
    have h2 : MeasurableSet {q : ℝ × ℝ | |q.2 - C.z| < H / 2} := (isOpen_lt (by fun_prop) continuous_const).measurableSet
    exact h1.inter h2
  · intro g
    rw [← setLIntegral_congr openSq_ae_eq, lintegral_stretch hW hH _ measurableSet_openSq g, stretch_unitSq hW hH]
    have hr : Ioo (C.x - W / 2) (C.x - W / 2 + W) ×ˢ Ioo (C.z - H / 2) (C.z - H / 2 + H) = rectArea W H C := by
      ext ⟨x, z⟩
      simp only [rectArea, mem_prod, mem_Ioo, mem_ofPred_eq, abs_lt]
      constructor
      · rintro ⟨⟨h1, h2⟩, h3, h4⟩; refine ⟨⟨?_, ?_⟩, ?_, ?_⟩ <;> linarith
      · rintro ⟨⟨h1, h2⟩, h3, h4⟩; refine ⟨⟨?_, ?_⟩, ?_, ?_⟩ <;> linarith
    rw [hr]
  · intro q
    have : (⟨C.x + (q.1 - 1 / 2) * W, C.y + gap, C.z + (q.2 - 1 / 2) * H⟩ : Vec ℝ) =
        ⟨(stretch (C.x - W / 2) (C.z - H / 2) W H q).1, C.y + gap, (stretch (C.x - W / 2) (C.z - H / 2) W H q).2⟩ := by
      simp only [stretch, Vec.mk.injEq, true_and]
      refine ⟨?_, ?_⟩ <;> ring
    simp only [rectLamp, this]

/-- **C99, the mean light of a disk light.** -/
theorem C99_mean_disk (things : List (List Body)) (hno : ∀ b ∈ things.flatten, ∀ p k, b.look p ≠ .clear k) (p n e e' : Vec ℝ)
    (hF : IsFrame e e' n) (B : Color ℝ) (D : ℝ) (hD : 0 < D) (C : Vec ℝ) (hp : p.y < C.y + gap)
    (hout : ∀ b ∈ things.flatten, b.Outlined p)
    (hside : ∀ b ∈ things.flatten, (∀ x, b.on x → x.y < C.y + gap) ∨ ∀ x, b.on x → C.y + gap ≤ x.y) (share : ℝ)
    (hshare : share = lampShare e e' n things.flatten p (diskArea D C) (C.y + gap)) :
    MeanLight (fun R' len => ThroughAll R' len things) p n (diskLamp B D C) ⟨B.R * share, B.G * share, B.B * share⟩ := by
  subst hshare
  have hr : 0 < D / 2 := by linarith
  have hpi := Real.pi_pos
  have hpair : (fun p : ℝ × ℝ => stretch C.x C.z (D / 2) (D / 2) (uniformDisk p.1 p.2)) =
      fun p => stretch C.x C.z (D / 2) (D / 2)
        (Real.sqrt p.2 * Real.cos (2 * Real.pi * p.1), Real.sqrt p.2 * Real.sin (2 * Real.pi * p.1)) :=
    funext fun p => congrArg _ (diskMap_eq p)
  refine mean_patch hno hF hp hout hside B (area := Real.pi * (D / 2) ^ 2) (by positivity) (A := diskArea D C) ?_
    (pos := fun p => stretch C.x C.z (D / 2) (D / 2) (uniformDisk p.1 p.2)) ?_ ?_ ?_
  · exact (isOpen_lt (by fun_prop) continuous_const).measurableSet
  · rw [hpair]
    unfold stretch
    fun_prop
  · intro g
    rw [lintegral_diskMap (fun q => g (stretch C.x C.z (D / 2) (D / 2) q)),
      lintegral_stretch hr hr _ measurableSet_unitDisk g, stretch_unitDisk hr]
    change _ = _ * ∫⁻ q in {q | (q.1 - C.x) ^ 2 + (q.2 - C.z) ^ 2 < (D / 2) ^ 2}, g q
    rw [← mul_assoc, ← ENNReal.ofReal_inv_of_pos Real.pi_pos, ← ENNReal.ofReal_inv_of_pos (by positivity),
      ← ENNReal.ofReal_inv_of_pos (by positivity), ← ENNReal.ofReal_mul (by positivity)]
    congr 2
    field_simp
  · intro q
    have e := congrFun hpair q
    have : (⟨C.x + D / 2 * (Real.sqrt q.2 * Real.cos (2 * Real.pi * q.1)), C.y + gap,
        C.z + D / 2 * (Real.sqrt q.2 * Real.sin (2 * Real.pi * q.1))⟩ : Vec ℝ) =
        ⟨(stretch C.x C.z (D / 2) (D / 2) (uniformDisk q.1 q.2)).1, C.y + gap,
          (stretch C.x C.z (D / 2) (D / 2) (uniformDisk q.1 q.2)).2⟩ := by
      rw [e]
      simp only [stretch]
    simp only [diskLamp, this]

/-! ## Soft shadows -/

private theorem meets_once {bodies : List Body} {R : Ray ℝ} {b b' : Body} {T T' : ℝ} (h : Meets bodies R b T)
    (h' : Meets bodies R b' T') : T' = T :=
  le_antisymm (h'.2.2 b h.1 T h.2.1.1 h.2.1.2.1) (h.2.2 b' h'.1 T' h'.2.1.1 h'.2.1.2.1)

private theorem all_mean {pass : Ray ℝ → ℝ → Color ℝ → Color ℝ → Prop} {p n : Vec ℝ} {lamps : List Emitter} {M : List (Color ℝ)}
    (h : List.Forall₂ (MeanLight pass p n) lamps M) :
    ∃ light : ℝ × ℝ → Color ℝ, (∀ a ∈ unitSq, ∀ A, AllArrive (fun q => q = a) pass p n lamps A → A = light a) ∧
      Tame unitSq (fun q => (light q).R) ∧ Tame unitSq (fun q => (light q).G) ∧ Tame unitSq (fun q => (light q).B) ∧
      total M = ⟨∫ q in unitSq, (light q).R, ∫ q in unitSq, (light q).G, ∫ q in unitSq, (light q).B⟩ := by
  induction h with
  | nil => exact ⟨fun _ => ⟨0, 0, 0⟩, fun a _ A hA => hA, tame_const _, tame_const _, tame_const _, by simp [total]⟩
  | @cons E M lamps Ms h _ ih =>
    obtain ⟨l1, d1, r1, g1, b1, e1⟩ := h
    obtain ⟨l2, d2, r2, g2, b2, e2⟩ := ih
    refine ⟨fun q => ⟨(l1 q).R + (l2 q).R, (l1 q).G + (l2 q).G, (l1 q).B + (l2 q).B⟩, ?_, r1.add r2, g1.add g2, b1.add b2, ?_⟩
    · rintro a ha A ⟨q, A1, A2, rfl, hA1, hA2, rfl⟩
      rw [d1 q ha A1 hA1, d2 q ha A2 hA2]
    · simp only [total]
      rw [e1, e2, integral_add r1.integrable r2.integrable, integral_add g1.integrable g2.integrable,
        integral_add b1.integrable b2.integrable]

/-- **C99, soft shadows.** Take a scene as in `C99_picture` and a pixel where a matte surface is seen that reflects the fraction `k`
of the light (and no other surface at the same place). Let `M` be the mean light of the lamps that falls on it, and
`light ω` what is seen from just above it in the direction `ω` with the lamps in black. If `light` is mild then, as the number
of passes grows, the pixel tends to `k` times the light that falls on the surface from the lamps and from all sides. -/
theorem C99_soft (s : Scene Ext) (hm : s.media = []) (deep : Nat) (hd : s.recursionDepth = deep + 1) (G : Setting)
    (hl : List.Forall₂ Emits s.lights G.lamps)
    (V : View) (h0 : 0 < V.fov) (h1 : V.fov < Real.pi) (fov yaw pitch roll : Ext) (eye : Vec Ext) (hf : fov.Is V.fov)
    (hy : yaw.Is V.yaw) (hp : pitch.Is V.pitch) (hr : roll.Is V.roll) (he : eye.Is V.eye) (w h : Nat) (aa : Bool)
    (hs : ∀ p : Pixel, p.1 < w → p.2 < h → FollowedIn G s (deep + 1) .direct (V.sight w h p.1 (sampleRow aa w h p.2)))
    (p : Pixel) (hpx : p.1 < w) (hpy : p.2 < h) (R : Ray ℝ) (hR : R = V.sight w h p.1 (sampleRow aa w h p.2))
    (b : Body) (T : ℝ) (hmeet : Meets (G.visible .direct).flatten R b T) (k : Color ℝ) (hlook : b.look (R.at T) = .matte k)
    (hsame : ∀ b', Meets (G.visible .direct).flatten R b' T →
      b'.normal (R.at T) = b.normal (R.at T) ∧ b'.look (R.at T) = b.look (R.at T))
    (n : Vec ℝ) (hn : n = facing (b.normal (R.at T)) R.dir) (M : List (Color ℝ))
    (hM : List.Forall₂ (MeanLight (fun R' len => ThroughAll R' len G.things) ((R.at T).add (n.mul gap)) n) G.lamps M)
    (light : Vec ℝ → Color ℝ) (hlight : ∀ ω, AnyAbove n ω → ∀ draw C,
      LooksIn G draw deep .indirect ⟨(R.at T).add (n.mul (2 * gap)), ω⟩ C → C = light ω)
    (mR : MildLight fun ω => (light ω).R) (mG : MildLight fun ω => (light ω).G) (mB : MildLight fun ω => (light ω).B)
    (e e' : Vec ℝ) (hF : IsFrame e e' n) :
    ∃ cam, Cam.projective fov = .ok cam ∧
      ∀ (rng : Rng Ext S), (∀ st, InUnitSq (rng.next2 st).1) →
      ∀ (shifts : List (Ext × Ext)), w * h ≤ shifts.length → (∀ x ∈ shifts, (∃ a, x.1.Is a) ∧ ∃ b, x.2.Is b) →
      ∀ (W : ℕ → ℕ), (∀ N, 0 < W N) → ∀ (seeds : ∀ N, Fin (W N) → S)
        (t : ∀ N, SamplerState Ext (Ctx Ext S) (W N)) (steps : ℕ → ℕ),
        (∀ N, Runs (ctxShader (s.imageFunc rng ((cam.yawPitchRoll yaw pitch roll).translate eye))) w h aa N
          (samplerInit w h (fun i => Ctx.new shifts (seeds N i)) fun _ => Cell.zero) (steps N) (t N)) →
        (∀ N, (t N).done) →
        ∃ I : ℕ → Color ℝ, (∀ N > 0, (((t N).mem p).image).Is (I N)) ∧
          ColorsTend I ⟨k.R * ((total M).R + (gathered e e' n light).R), k.G * ((total M).G + (gathered e e' n light).G),
            k.B * ((total M).B + (gathered e e' n light).B)⟩ := by
  have hnn := hF.nn
  obtain ⟨lit, dlit, tR, tG, tB, etot⟩ := all_mean hM
  let f : ℝ × ℝ → Color ℝ := fun q => ⟨k.R * ((lit q).R + (light (cosineSphere q.1 q.2 n)).R),
    k.G * ((lit q).G + (light (cosineSphere q.1 q.2 n)).G), k.B * ((lit q).B + (light (cosineSphere q.1 q.2 n)).B)⟩
  have tame : ∀ {g : Vec ℝ → ℝ} {a : ℝ × ℝ → ℝ} (c : ℝ), Tame unitSq a → MildLight g →
      Tame unitSq fun q => c * (a q + g (cosineSphere q.1 q.2 n)) := by
    intro g a c ha hg
    have := (ha.add (hg.tame hnn)).mul c
    simpa only [mul_comm c] using this
  have value : ∀ {g : Vec ℝ → ℝ} {a : ℝ × ℝ → ℝ} (c : ℝ), Tame unitSq a → MildLight g →
      ∫ q in unitSq ×ˢ unitSq, c * (a q.1 + g (cosineSphere q.1.1 q.1.2 n)) = c * ((∫ q in unitSq, a q) + cosineMean e e' n g) := by
    intro g a c ha hg
    rw [integral_first (g := fun q => c * (a q + g (cosineSphere q.1 q.2 n))) (tame c ha hg).measurable, integral_const_mul,
      integral_add ha.integrable (hg.tame hnn).integrable, hg.mean hF]
  have hd' : s.recursionDepth.toNat = deep + 1 := by rw [hd]; omega
  have key := C99_converge (S := S) s hm (by rw [hd]; omega) G hl V h0 h1 fov yaw pitch roll eye hf hy hp hr he w h aa
    (by rw [hd']; exact hs) p hpx hpy (fun q => f q.1) (by
      intro a ha b₂ _ C hC
      rw [hd', ← hR] at hC
      rcases hC with ⟨b', T', hm', hg⟩ | ⟨hno, -⟩
      · obtain rfl := meets_once hmeet hm'
        obtain ⟨en, el⟩ := hsame b' hm'
        rw [en, el, hlook] at hg
        obtain ⟨q, A', B, hq, hA', hB, rfl⟩ := hg
        have hq : q = a := hq
        subst hq
        rw [← hn] at hA' hB
        rw [dlit q ha A' hA', hlight _ (unit_above ha.2.1 ha.2.2.le hnn) _ B hB]
      · exact absurd hmeet.2.1.2.1 (hno b hmeet.1 T hmeet.2.1.1))
    (tame k.R tR mR).first (tame k.G tG mG).first (tame k.B tB mB).first
  simp only [f, value _ tR mR, value _ tG mG, value _ tB mB] at key
  rw [etot]
  exact key

end BR
