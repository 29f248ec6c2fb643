import Verif.Lemmas.SightErr
import Verif.Lemmas.ViewAnswer
import Verif.Props.C98_Double

/-! C103: pictures of matte things lit by lamps are right, in double precision. -/

namespace BR
set_option linter.unusedSectionVars false

open Flo

variable {S : Type}

/-- **The rays of a pinhole camera are the right lines of sight**, in double precision. In a picture of at most 65536 by 65536 pixels,
at most 16 times as high as wide, the ray through the centre of each pixel starts within `2^-35` of where the camera stands, and its
direction is within `2^-22` of the exact direction, in each coordinate; and no random numbers are drawn. -/
theorem C103_camera {w h : Nat} (hw : w ≤ 2 ^ 16) (hh : h ≤ 2 ^ 16) (hr : h ≤ 16 * w) {p : Pixel} (hx : p.1 < w) (hy : p.2 < h)
    {fov yaw pitch roll : Flo} {eye : Vec Flo} {V : View} (hV : Aims fov yaw pitch roll eye V) {c : Cam Flo} (hc : Cam.projective fov = .ok c)
    {uv : Flo × Flo} (huv : indexToCam (w : Int) (h : Int) (ofInt p.1 : Flo) (ofInt p.2) = .ok uv) :
    ∃ q v d, (∀ (rng : Rng Flo S) (ctx : Ctx Flo S), ((c.yawPitchRoll yaw pitch roll).translate eye).rayFrom rng ctx uv.1 uv.2 = (q, ctx)) ∧
      q.start.FIs v ∧ q.dir.FIs d ∧ CloseTo (V.sight w h p.1 p.2) v d := by
  obtain ⟨a, b⟩ := Turn.screen_near hw hh hr hx hy huv
  obtain ⟨q, v, d, h1, h2, h3, h4, h5⟩ := Turn.sight_near (S := S) (by omega) (a.weaken (by norm_num) (by norm_num)) (b.weaken (by norm_num) (by norm_num))
    hV.fov hV.yaw hV.pitch hV.roll hV.eye hV.wide hV.narrow hV.near hc
  exact ⟨q, v, d, h1, h2, h3, h4, h5⟩

/-- The same with anti-aliasing, where the ray always goes through the same point below the centre of the pixel. -/
theorem C103_camera_aa {w h : Nat} (hw : w ≤ 2 ^ 16) (hh : h ≤ 2 ^ 16) (hr : h ≤ 16 * w) {p : Pixel} (hx : p.1 < w) (hy : p.2 < h)
    {fov yaw pitch roll : Flo} {eye : Vec Flo} {V : View} (hV : Aims fov yaw pitch roll eye V) {c : Cam Flo} (hc : Cam.projective fov = .ok c)
    {uv : Flo × Flo} (huv : indexToCam (w : Int) (h : Int) (ofInt p.1 : Flo) (ofInt p.2) = .ok uv) {shifts : List (Flo × Flo)} {j : Flo × Flo}
    (hj : (HaltonSeq.new 2 3 1 shifts).generate2 = .ok j) :
    ∃ q v d, (∀ (rng : Rng Flo S) (ctx : Ctx Flo S), ((c.yawPitchRoll yaw pitch roll).translate eye).rayFrom rng ctx
        (uv.1 + pixelSize w h * (j.1 - lit (1 / 2))) (uv.2 + pixelSize w h * (j.2 - lit (1 / 2))) = (q, ctx)) ∧
      q.start.FIs v ∧ q.dir.FIs d ∧ CloseTo (V.sight w h p.1 (sampleRow true w h p.2)) v d := by
  obtain ⟨a, b⟩ := Turn.sample_near hw hh hr hx hy huv hj
  obtain ⟨q, v, d, h1, h2, h3, h4, h5⟩ := Turn.sight_near (S := S) (by omega) a b hV.fov hV.yaw hV.pitch hV.roll hV.eye hV.wide hV.narrow hV.near hc
  exact ⟨q, v, d, h1, h2, h3, h4, h5⟩

/-- The camera of `Aims` can be built. -/
theorem Aims.built {fov yaw pitch roll : Flo} {eye : Vec Flo} {V : View} (hV : Aims fov yaw pitch roll eye V) : ∃ c, Cam.projective fov = .ok c := by
  obtain ⟨p, hp, he⟩ := Turn.pi_near.1
  have h3 : (2 : ℝ) < p := by
    rw [abs_le] at he
    have := Real.pi_gt_three
    norm_num at he
    linarith
  have hf : ∃ f, Cam.fovToFocalLen fov = .ok f := by
    unfold Cam.fovToFocalLen
    rw [if_neg]
    · exact ⟨_, rfl⟩
    · rw [Bool.or_eq_true]
      have := hV.wide
      have := hV.narrow
      rintro (h | h)
      · rw [Ball.le_flo hV.fov Ball.flo_zero, decide_eq_true_eq] at h
        linarith
      · rw [Ball.le_flo hp hV.fov, decide_eq_true_eq] at h
        linarith
  obtain ⟨f, hf⟩ := hf
  unfold Cam.projective Cam.projectiveAperture
  rw [hf]
  exact ⟨_, rfl⟩

theorem turned_ip (y p r : ℝ) (v : Vec ℝ) : Bounce.ip (turned y p r v) (turned y p r v) = Bounce.ip v v := by
  have e : ∀ u t (w : Vec ℝ), Turn.Axis u → Bounce.ip (rodrigues u t w) (rodrigues u t w) = Bounce.ip w w := fun u t w hu => by
    rw [← Turn.rot_mulVec hu, (Turn.rot_orth hu t).mulVec]
  unfold turned
  rw [e _ _ _ (.inr (.inl rfl)), e _ _ _ (.inl rfl), e _ _ _ (.inr (.inr rfl))]

theorem closeTo_glance {fov yaw pitch roll : Flo} {eye : Vec Flo} {V : View} (hV : Aims fov yaw pitch roll eye V) {w h : Nat} {x y : ℝ} {q : Ray Flo}
    {v d : Vec ℝ} (hv : q.start.FIs v) (hd : q.dir.FIs d) (hc : CloseTo (V.sight w h x y) v d) : Glance q v d := by
  have one : Bounce.ip (V.sight w h x y).dir (V.sight w h x y).dir = 1 := by
    unfold View.sight
    rw [turned_ip]
    refine Turn.unitVec_ip ?_
    simp only [Bounce.ip, pixelDir]
    have h1 := mul_self_nonneg (Real.tan (V.fov / 2) * ((2 * x + 1 - w) / w))
    have h2 := mul_self_nonneg (Real.tan (V.fov / 2) * ((h - (2 * y + 1)) / w))
    linarith
  obtain ⟨⟨a1, a2, a3⟩, hd2⟩ := hc
  have u := Bounce.unit_near (v := (V.sight w h x y).dir) (w := d) (e := 0) (f := 1 / 2 ^ 22) (by rw [one]; norm_num) (by norm_num) hd2 (by norm_num)
  obtain ⟨b1, b2, b3⟩ := hV.near
  refine ⟨hv, hd, ⟨?_, ?_, ?_⟩, ?_, ?_⟩
  · simp only [Vec.sub, View.sight] at a1
    rw [abs_le] at *; norm_num at a1 ⊢; constructor <;> linarith
  · simp only [Vec.sub, View.sight] at a2
    rw [abs_le] at *; norm_num at a2 ⊢; constructor <;> linarith
  · simp only [Vec.sub, View.sight] at a3
    rw [abs_le] at *; norm_num at a3 ⊢; constructor <;> linarith
  all_goals
    simp only [Bounce.ip] at u
    rw [abs_le] at u
    norm_num at u
    nlinarith

/-- The program finds the colour `E`, up to `B`, along all rays close to the exact line of sight `R`. -/
def FoundBy (rng : Rng Flo S) (s : Scene Flo) (R : Ray ℝ) (E B : Primary → ℝ) : Prop :=
  ∀ q v d, Glance q v d → CloseTo R v d → ∀ ctx : Ctx Flo S, ctx.depth = 0 → ctx.Ready →
    ∃ col ctx', s.lightField rng s.recursionDepth.toNat .direct q ctx = .ok (col, ctx') ∧ ctx'.frame = ctx.frame ∧
      ∀ k, ∃ x, (col.pick k).Is x ∧ |x - E k| ≤ B k

theorem Steady.found {s : Scene Flo} {R : Ray ℝ} {E B : Primary → ℝ} (hE : Steady s R E B) (hno : s.media = []) (hrec : s.recursionDepth = 1)
    (rng : Rng Flo S) : FoundBy rng s R E B := by
  intro q v d hg hclose ctx h0 hready
  obtain ⟨val, tol, hdis, hbd⟩ := hE v d hclose
  obtain ⟨col, ctx2, e2, hf, hk⟩ := hdis.found hg hno rng ctx (by omega) (by omega) hready .direct
  refine ⟨col, ctx2, by rw [hrec]; exact e2, hf, fun k => ?_⟩
  obtain ⟨x, hx, ex⟩ := hk k
  refine ⟨x, hx, ?_⟩
  have := abs_add_le (x - val k) (val k - E k)
  rw [sub_add_sub_cancel] at this
  have := hbd k
  linarith

/-- Every pass finds, in every pixel, what there is to see, up to the tolerance. -/
theorem picture_possible (s : Scene Flo) {w h : Nat} (hw : w ≤ 2 ^ 16) (hh : h ≤ 2 ^ 16) (hr : h ≤ 16 * w)
    {fov yaw pitch roll : Flo} {eye : Vec Flo} {V : View} (hV : Aims fov yaw pitch roll eye V) {c : Cam Flo} (hc : Cam.projective fov = .ok c)
    (E B : Pixel → Primary → ℝ) (aa : Bool) (rng : Rng Flo S)
    (hE : ∀ p : Pixel, p.1 < w → p.2 < h → FoundBy rng s (V.sight w h p.1 (sampleRow aa w h p.2)) (E p) (B p))
    (shifts : List (Flo × Flo)) (hshift : w * h ≤ shifts.length) :
    Possible (ctxShader (s.imageFunc rng ((c.yawPitchRoll yaw pitch roll).translate eye))) w h aa (BetweenPixels shifts) fun p _ col =>
      ∀ k, ∃ x, (col.pick k).Is x ∧ |x - E p k| ≤ B p k := by
  intro ctx hctx p hx hy k
  obtain ⟨uv, euv⟩ := indexToCam_flo (hw.trans (by norm_num)) (hh.trans (by norm_num)) p hx hy
  have hlt : w * p.2 + p.1 < shifts.length := by
    refine lt_of_lt_of_le ?_ hshift
    calc w * p.2 + p.1 < w * p.2 + w := by omega
      _ = w * (p.2 + 1) := by rw [Nat.mul_succ]
      _ ≤ w * h := Nat.mul_le_mul_left _ hy
  have hget : shifts[w * p.2 + p.1]? = some shifts[w * p.2 + p.1] := List.getElem?_eq_getElem hlt
  obtain ⟨ctx1, e1, hb1⟩ : ∃ ctx1, ctx.init (w * p.2 + p.1) k = .ok ctx1 ∧ BetweenPixels shifts ctx1 := by
    rcases init_between hctx hctx (w * p.2 + p.1) k with ⟨e, e1, -⟩ | ⟨d, -, e1, -, -, hb⟩
    · exfalso
      unfold Ctx.init at e1
      rw [HaltonSeq.init_like hctx.seq1, HaltonSeq.init_like hctx.seq2, HaltonSeq.init_like hctx.seqL] at e1
      simp only [HaltonSeq.init, HaltonSeq.new, hget, ok_bind] at e1
      cases e1
    · exact ⟨d, e1, hb⟩
  obtain ⟨u', v', q, v, d, epass, hq, hv, hd, hclose⟩ : ∃ (u' v' : Flo) (q : Ray Flo) (v d : Vec ℝ),
      passColor (ctxShader (s.imageFunc rng ((c.yawPitchRoll yaw pitch roll).translate eye))) w h aa ctx p k =
        s.imageFunc rng ((c.yawPitchRoll yaw pitch roll).translate eye) ctx1 u' v' ∧
      (∀ (rng : Rng Flo S) (ctx : Ctx Flo S), ((c.yawPitchRoll yaw pitch roll).translate eye).rayFrom rng ctx u' v' = (q, ctx)) ∧
      q.start.FIs v ∧ q.dir.FIs d ∧ CloseTo (V.sight w h p.1 (sampleRow aa w h p.2)) v d := by
    unfold passColor
    rw [euv]
    simp only [ok_bind, ctxShader, e1]
    cases aa with
    | false =>
      obtain ⟨q, v, d, hq, hv, hd, hclose⟩ := C103_camera (S := S) hw hh hr hx hy hV hc euv
      exact ⟨_, _, q, v, d, rfl, hq, hv, hd, hclose⟩
    | true =>
      obtain ⟨j, ej⟩ := generate2_flo ctx1.aa (by rw [hb1.aa]; simp [HaltonSeq.new]) (by rw [hb1.aa]; simp [HaltonSeq.new])
        (by rw [hb1.aa]; simp [HaltonSeq.new]) (by rw [hb1.aa]; simp [HaltonSeq.new])
      obtain ⟨q, v, d, hq, hv, hd, hclose⟩ := C103_camera_aa (S := S) hw hh hr hx hy hV hc euv (hb1.aa ▸ ej)
      refine ⟨_, _, q, v, d, ?_, hq, hv, hd, hclose⟩
      rw [if_pos rfl, ej, ok_bind]
      rfl
  have hg := closeTo_glance hV hv hd hclose
  have hb2 : BetweenPixels shifts ctx1.takeRay.2 := ⟨hb1.depth, hb1.seq1, hb1.seq2, hb1.seqL, hb1.aa⟩
  obtain ⟨col, ctx2, e2, hf, hk⟩ := hE p hx hy q v d hg hclose ctx1.takeRay.2 hb2.depth (between_ready hb2)
  refine ⟨col, ctx2.putRay ctx1.takeRay.1, ?_, betweenPixels_frame hb2 (show _ = ctx2.frame from hf.symm), hk⟩
  rw [epass]
  unfold Scene.imageFunc
  dsimp only
  rw [hq]
  dsimp only
  rw [e2]
  rfl

/-- If the program finds the right colour along all rays close to the lines of sight, its pictures are right. -/
theorem picture_right (s : Scene Flo) {w h : Nat} (hw : w ≤ 2 ^ 16) (hh : h ≤ 2 ^ 16) (hr : h ≤ 16 * w)
    {fov yaw pitch roll : Flo} {eye : Vec Flo} {V : View} (hV : Aims fov yaw pitch roll eye V) {c : Cam Flo} (hc : Cam.projective fov = .ok c)
    (E B : Pixel → Primary → ℝ) (aa : Bool) (rng : Rng Flo S)
    (hE : ∀ p : Pixel, p.1 < w → p.2 < h → FoundBy rng s (V.sight w h p.1 (sampleRow aa w h p.2)) (E p) (B p))
    (hmod : ∀ p k, |E p k| + B p k ≤ 2 ^ 20)
    (shifts : List (Flo × Flo)) (hshift : w * h ≤ shifts.length) {W : Nat} (hW : 0 < W) (seeds : Fin W → S)
    {n : Nat} (h1 : 1 ≤ n) (hn : n ≤ 2 ^ 26) (t : SamplerState Flo (Ctx Flo S) W) (k : Nat)
    (hrun : Runs (ctxShader (s.imageFunc rng ((c.yawPitchRoll yaw pitch roll).translate eye))) w h aa n
      (samplerInit w h (fun i => Ctx.new shifts (seeds i)) fun _ => Cell.zero) k t) :
    t.crashed = false ∧ (t.done → ∀ p : Pixel, p.1 < w → p.2 < h → ∀ ch, ∃ x, ((t.mem p).image.pick ch).Is x ∧
      |x - E p ch| ≤ B p ch + (2 * n + 4) / 2 ^ 53 * (|E p ch| + B p ch) + 1 / 2 ^ 190) := by
  have hpos := picture_possible s hw hh hr hV hc E B aa rng hE shifts hshift
  refine ⟨(C03_random_safe hpos (fun i => betweenPixels_new shifts (seeds i)) t k hrun).1, fun hdone p hx hy => ?_⟩
  have hpos' : Possible (ctxShader (s.imageFunc rng ((c.yawPitchRoll yaw pitch roll).translate eye))) w h aa (BetweenPixels shifts)
      fun p _ col => ∃ C, col.FIs C ∧ ∀ k, |C.pick k - E p k| ≤ B p k := by
    intro ctx hctx p hx hy k
    obtain ⟨col, ctx', e, hb, hk⟩ := hpos ctx hctx p hx hy k
    obtain ⟨R, hR, eR⟩ := hk .red
    obtain ⟨G, hG, eG⟩ := hk .green
    obtain ⟨Bl, hB, eB⟩ := hk .blue
    exact ⟨col, ctx', e, hb, ⟨R, G, Bl⟩, ⟨hR, hG, hB⟩, fun k => by cases k <;> assumption⟩
  have bnd : ∀ {p : Pixel} {C : Color ℝ}, (∀ k, |C.pick k - E p k| ≤ B p k) → ∀ k, |C.pick k| ≤ |E p k| + B p k := by
    intro p C hC k
    have := abs_add_le (C.pick k - E p k) (E p k)
    rw [sub_add_cancel] at this
    have := hC k
    linarith
  obtain ⟨G, hG, X, hX, m1, m2, m3⟩ := C98_picture (P := fun p _ C => ∀ k, |C.pick k - E p k| ≤ B p k)
    (fun p _ C hC => ⟨(bnd hC .red).trans (hmod p .red), (bnd hC .green).trans (hmod p .green), (bnd hC .blue).trans (hmod p .blue)⟩)
    hpos' (fun i => betweenPixels_new shifts (seeds i)) hW h1 hn t k hrun hdone p hx hy
  have fin : ∀ ch {x : ℝ}, NearMean (fun k => (G k).pick ch) n x → |x - E p ch| ≤ B p ch + (2 * n + 4) / 2 ^ 53 * (|E p ch| + B p ch) + 1 / 2 ^ 190 := by
    intro ch x hm
    have n0 : (0 : ℝ) < n := by exact_mod_cast h1
    have s1 : |(∑ k ∈ Finset.range n, (G k).pick ch) / n - E p ch| ≤ B p ch := by
      rw [show (∑ k ∈ Finset.range n, (G k).pick ch) / n - E p ch = (∑ k ∈ Finset.range n, ((G k).pick ch - E p ch)) / n by
        rw [Finset.sum_sub_distrib, Finset.sum_const, Finset.card_range, nsmul_eq_mul]
        field_simp, abs_div, abs_of_pos n0, div_le_iff₀ n0]
      refine (Finset.abs_sum_le_sum_abs _ _).trans ?_
      refine (Finset.sum_le_sum fun k _ => hG k ch).trans ?_
      rw [Finset.sum_const, Finset.card_range, nsmul_eq_mul, mul_comm]
    have s2 : (∑ k ∈ Finset.range n, |(G k).pick ch|) / n ≤ |E p ch| + B p ch := by
      rw [div_le_iff₀ n0]
      refine (Finset.sum_le_sum fun k _ => bnd (hG k) ch).trans ?_
      rw [Finset.sum_const, Finset.card_range, nsmul_eq_mul, mul_comm]
    have s3 := mul_le_mul_of_nonneg_left s2 (show (0 : ℝ) ≤ (2 * n + 4) / 2 ^ 53 by positivity)
    unfold NearMean at hm
    have := abs_add_le (x - (∑ k ∈ Finset.range n, (G k).pick ch) / n) ((∑ k ∈ Finset.range n, (G k).pick ch) / n - E p ch)
    rw [sub_add_sub_cancel] at this
    linarith
  intro ch
  cases ch
  · exact ⟨_, hX.1, fin .red m1⟩
  · exact ⟨_, hX.2.1, fin .green m2⟩
  · exact ⟨_, hX.2.2, fin .blue m3⟩

/-- **Pictures of matte things lit by lamps are right**, in double precision. The scene is made of balls, boxes and level rectangles,
before a backdrop, and lit by lamps without size; the camera is a pinhole camera; light is followed from the lamps to the things and
from there to the camera, but not from thing to thing. Suppose in each pixel all lines close to the exact line of sight show the
colour `E`, but for `B`; with anti-aliasing the line goes through a point below the pixel's centre. Then however many workers there are and however they are scheduled, nothing crashes, and when they
have all returned each pixel is within `B` and the rounding of the mean of the exact colour `E`. -/
theorem C103_picture (s : Scene Flo) (hno : s.media = []) (hrec : s.recursionDepth = 1) {w h : Nat} (hw : w ≤ 2 ^ 16) (hh : h ≤ 2 ^ 16) (hr : h ≤ 16 * w)
    {fov yaw pitch roll : Flo} {eye : Vec Flo} {V : View} (hV : Aims fov yaw pitch roll eye V) {c : Cam Flo} (hc : Cam.projective fov = .ok c)
    (E B : Pixel → Primary → ℝ) (aa : Bool)
    (hE : ∀ p : Pixel, p.1 < w → p.2 < h → Steady s (V.sight w h p.1 (sampleRow aa w h p.2)) (E p) (B p))
    (hmod : ∀ p k, |E p k| + B p k ≤ 2 ^ 20)
    (rng : Rng Flo S) (shifts : List (Flo × Flo)) (hshift : w * h ≤ shifts.length) {W : Nat} (hW : 0 < W) (seeds : Fin W → S)
    {n : Nat} (h1 : 1 ≤ n) (hn : n ≤ 2 ^ 26) (t : SamplerState Flo (Ctx Flo S) W) (k : Nat)
    (hrun : Runs (ctxShader (s.imageFunc rng ((c.yawPitchRoll yaw pitch roll).translate eye))) w h aa n
      (samplerInit w h (fun i => Ctx.new shifts (seeds i)) fun _ => Cell.zero) k t) :
    t.crashed = false ∧ (t.done → ∀ p : Pixel, p.1 < w → p.2 < h → ∀ ch, ∃ x, ((t.mem p).image.pick ch).Is x ∧
      |x - E p ch| ≤ B p ch + (2 * n + 4) / 2 ^ 53 * (|E p ch| + B p ch) + 1 / 2 ^ 190) :=
  picture_right s hw hh hr hV hc E B aa rng (fun p hx hy => (hE p hx hy).found hno hrec rng) hmod shifts hshift hW seeds h1 hn t k hrun

/-! ## A picture -/

/-- A lamp at `(3, 0, 0)`. -/
noncomputable def sideLamp : List Fitting :=
  [⟨⟨lit ((3 : ℤ) : ℚ), lit ((0 : ℤ) : ℚ), lit ((0 : ℤ) : ℚ)⟩, ⟨lit ((100 : ℤ) : ℚ), lit ((100 : ℤ) : ℚ), lit ((100 : ℤ) : ℚ)⟩,
      ⟨⟨3, 0, 0⟩, ⟨100, 100, 100⟩⟩, fun _ => 1⟩]

/-- A white box, one side of which is the plane `z = -4`. -/
noncomputable def wallBlock : BBox Flo :=
  ⟨⟨lit ((-8 : ℤ) : ℚ), lit ((-8 : ℤ) : ℚ), lit ((-8 : ℤ) : ℚ)⟩, ⟨lit ((8 : ℤ) : ℚ), lit ((8 : ℤ) : ℚ), lit ((-4 : ℤ) : ℚ)⟩⟩

noncomputable def whiteFlo : Color Flo := ⟨lit ((1 : ℤ) : ℚ), lit ((1 : ℤ) : ℚ), lit ((1 : ℤ) : ℚ)⟩

/-- The box, lit by the lamp. -/
noncomputable def wallScene : Scene Flo := ⟨sideLamp.map Fitting.light, [Obj.box wallBlock (some (.matte whiteFlo.tex))], [], 1⟩

/-- A camera at the origin that looks straight ahead. -/
noncomputable def aheadView : View := ⟨1, 0, 0, 0, ⟨0, 0, 0⟩⟩

theorem ahead_aims : Aims (lit ((1 : ℤ) : ℚ)) (lit 0) (lit 0) (lit 0) ⟨lit 0, lit 0, lit 0⟩ aheadView :=
  ⟨by simpa [aheadView] using flo_int_is 1 (by norm_num), Ball.flo_zero, Ball.flo_zero, Ball.flo_zero, ⟨Ball.flo_zero, Ball.flo_zero, Ball.flo_zero⟩,
    by norm_num [aheadView], by norm_num [aheadView], by norm_num [aheadView, Within]⟩

theorem ahead_sight : aheadView.sight 1 1 0 0 = ⟨⟨0, 0, 0⟩, ⟨0, 0, -1⟩⟩ := by
  have e : pixelDir 1 1 1 0 0 = ⟨0, 0, -1⟩ := by simp [pixelDir]
  have u : unitVec (⟨0, 0, -1⟩ : Vec ℝ) = ⟨0, 0, -1⟩ := by simp [unitVec, Vec.dot, Vec.mul]
  simp only [View.sight, aheadView, e, u]
  simp [turned, rodrigues, geo]

/-- From all points close to `(0, 0, -4)` on the wall, the lamp is 5 away, nearly. -/
theorem wall_apart {x y : ℝ} (hx : |x| ≤ 1 / 2 ^ 19) (hy : |y| ≤ 1 / 2 ^ 19) :
    4.9999 ≤ apart (⟨3, 0, 0⟩ : Vec ℝ) ⟨x, y, -4⟩ ∧ apart (⟨3, 0, 0⟩ : Vec ℝ) ⟨x, y, -4⟩ ≤ 5.0001 := by
  unfold apart
  rw [abs_le] at hx hy
  norm_num at hx hy
  constructor
  · apply Real.le_sqrt_of_sq_le
    norm_num
    nlinarith [sq_nonneg y, sq_nonneg x]
  · rw [Real.sqrt_le_left (by norm_num)]
    norm_num
    nlinarith

theorem wall_value {a : ℝ} (h1 : 4.9999 ≤ a) (h2 : a ≤ 5.0001) :
    |1 * (100 / (4 * Real.pi * a ^ 2) * (4 / a)) - 100 / (4 * Real.pi * 5 ^ 2) * (4 / 5)| ≤ 1 / 20000 ∧
      1 / 2048 * (100 / (4 * Real.pi * a ^ 2)) + 1 / 2 ^ 100 ≤ 1 / 5000 := by
  have pi := Real.pi_gt_three
  have hp : (0 : ℝ) < Real.pi := by linarith
  have a0 : 0 < a := by norm_num at h1; linarith
  have c1 : (4.9999 : ℝ) ^ 3 ≤ a ^ 3 := pow_le_pow_left₀ (by norm_num) h1 3
  have c2 : a ^ 3 ≤ 5.0001 ^ 3 := pow_le_pow_left₀ a0.le h2 3
  have s1 : (4.9999 : ℝ) ^ 2 ≤ a ^ 2 := pow_le_pow_left₀ (by norm_num) h1 2
  norm_num at c1 c2 s1
  constructor
  · rw [show 1 * (100 / (4 * Real.pi * a ^ 2) * (4 / a)) - 100 / (4 * Real.pi * 5 ^ 2) * (4 / 5) = (100 * (125 - a ^ 3)) / (Real.pi * (a ^ 3 * 125)) by
      field_simp; ring, abs_div, abs_of_pos (by positivity : (0 : ℝ) < Real.pi * (a ^ 3 * 125)), div_le_iff₀ (by positivity)]
    have hn : |100 * (125 - a ^ 3)| ≤ 1 := by
      rw [abs_le]
      constructor <;> linarith
    have hd : 3 * (124 * 125) ≤ Real.pi * (a ^ 3 * 125) := mul_le_mul pi.le (by linarith) (by norm_num) hp.le
    linarith
  · have hd : 4 * (3 * 24) ≤ 4 * Real.pi * a ^ 2 := by
      have := mul_le_mul pi.le (show 24 ≤ a ^ 2 by linarith) (by norm_num) hp.le
      linarith
    have : 100 / (4 * Real.pi * a ^ 2) ≤ 100 / (4 * (3 * 24)) := div_le_div_of_nonneg_left (by norm_num) (by norm_num) hd
    norm_num at this ⊢
    linarith

theorem wall_steady : Steady wallScene (aheadView.sight 1 1 0 0) (fun _ => 100 / (4 * Real.pi * 5 ^ 2) * (4 / 5)) (fun _ => 1 / 4000) := by
  rw [ahead_sight]
  rintro v d ⟨⟨v1, v2, v3⟩, d1, d2, d3⟩
  simp only [Vec.sub, sub_zero] at v1 v2 v3 d1 d2 d3
  have e3 := abs_le.1 d3
  have f3 := abs_le.1 v3
  norm_num at e3 f3
  have dz : d.z < 0 := by linarith
  obtain ⟨X, hX⟩ : ∃ X, X * d.z = -4 - v.z := ⟨(-4 - v.z) / d.z, div_mul_cancel₀ _ dz.ne⟩
  have X1 : 3 ≤ X := by
    by_contra hlt
    nlinarith
  have X2 : X ≤ 5 := by
    by_contra hlt
    nlinarith
  have small : ∀ {p q : ℝ}, |p| ≤ 1 / 2 ^ 35 → |q| ≤ 1 / 2 ^ 22 → |p + X * q| ≤ 1 / 2 ^ 19 := by
    intro p q hp hq
    have h1 : |X * q| ≤ 5 * (1 / 2 ^ 22) := by
      rw [abs_mul, abs_of_nonneg (by linarith : 0 ≤ X)]
      exact mul_le_mul X2 hq (abs_nonneg _) (by norm_num)
    refine (abs_add_le _ _).trans ?_
    norm_num at *
    linarith
  have q1 := small v1 d1
  have q2 := small v2 d2
  obtain ⟨a1, a2⟩ := wall_apart q1 q2
  have eQ : along v d X = ⟨v.x + X * d.x, v.y + X * d.y, -4⟩ := by
    simp only [along, Vec.mk.injEq, true_and]
    linarith
  have r1 := abs_le.1 q1
  have r2 := abs_le.1 q2
  norm_num at r1 r2
  have int : ∀ z : ℤ, |z| ≤ 1000 → (lit (z : ℚ) : Flo).Is z := fun z hz => flo_int_is z (lt_of_le_of_lt hz (by norm_num))
  have one : (lit ((1 : ℤ) : ℚ) : Flo).Is 1 := by simpa using int 1 (by norm_num)
  have m8 : (lit ((-8 : ℤ) : ℚ) : Flo).Is (-8) := by simpa using int (-8) (by norm_num)
  have p8 : (lit ((8 : ℤ) : ℚ) : Flo).Is 8 := by simpa using int 8 (by norm_num)
  have m4 : (lit ((-4 : ℤ) : ℚ) : Flo).Is (-4) := by simpa using int (-4) (by norm_num)
  refine ⟨_, _, Displays.matte (s := wallScene) (before := []) (after := []) (b := .block ⟨-8, -8, -8⟩ ⟨8, 8, -4⟩) (refl := whiteFlo) (ρ := fun _ => 1) (X := X)
    (N := sideNormal 2 true) (lamps := sideLamp) (things := []) rfl (.block ⟨m8, m8, m8⟩ ⟨p8, p8, m4⟩ (by norm_num [Within]) (by norm_num [Within]) (by norm_num))
    (fun k => ⟨by cases k <;> exact one, by norm_num, by norm_num⟩)
    ⟨by linarith, 2, true, ⟨?_, ?_, ?_⟩, rfl, ?_⟩ ?_ rfl (by norm_num [sideLamp]) (fun x _ => trivial) .nil (by simp) ?_, ?_⟩
  · rw [eQ]; norm_num [outside, Vec.get]
  · norm_num [Vec.get]
  · rw [eQ]
    intro j hj
    fin_cases j
    · norm_num [Vec.get]; constructor <;> linarith
    · norm_num [Vec.get]; constructor <;> linarith
    · exact absurd rfl hj
  · rw [sideNormal, if_neg (by decide), if_neg (by decide), if_pos rfl]
    norm_num
    linarith
  · rw [eQ]
    refine ⟨?_, ?_, ?_⟩
    · exact q1.trans (by norm_num)
    · exact q2.trans (by norm_num)
    · norm_num
  · intro x hx
    simp only [sideLamp, List.mem_cons, List.not_mem_nil, or_false] at hx
    subst hx
    refine ⟨?_, .clear (by simp)⟩
    rw [eQ]
    simpa using hundred_lamp (Q := ⟨v.x + X * d.x, v.y + X * d.y, -4⟩) (a := 3) (b := 0) (c := 0) (by norm_num) (by norm_num) (by norm_num)
      (by push_cast; norm_num at a1 ⊢; linarith)
  · intro k
    rw [eQ]
    obtain ⟨w1, w2⟩ := wall_value a1 a2
    generalize hA : apart (⟨3, 0, 0⟩ : Vec ℝ) ⟨v.x + X * d.x, v.y + X * d.y, -4⟩ = a at *
    have g : Color.pick (⟨100, 100, 100⟩ : Color ℝ) k = 100 := by cases k <;> rfl
    have sn : sideNormal 2 true = ⟨0, 0, 1⟩ := by
      rw [sideNormal, if_neg (by decide), if_neg (by decide), if_pos rfl]
      rfl
    have mx : max 0 ((0 - -4 : ℝ) / a) = 4 / a := by
      rw [max_eq_right]
      · norm_num
      · have : 0 < a := by norm_num at a1; linarith
        norm_num
        positivity
    simp only [List.sum_cons, List.sum_nil, add_zero, sideLamp, List.map_cons, List.map_nil, Fitting.gives, Fitting.most, one_mul, zero_mul, squarely, slant, g, sn]
    simp only [hA, mul_zero, mul_one, zero_add, mx]
    norm_num at w1 w2 ⊢
    linarith

/-- The camera of the example exists. -/
example : ∃ c, Cam.projective (lit ((1 : ℤ) : ℚ) : Flo) = .ok c := ahead_aims.built

/-- The camera of the example is close to the exact one. -/
example {c : Cam Flo} (hc : Cam.projective (lit ((1 : ℤ) : ℚ) : Flo) = .ok c) {uv : Flo × Flo}
    (huv : indexToCam ((1 : Nat) : Int) ((1 : Nat) : Int) (ofInt (0 : Nat) : Flo) (ofInt (0 : Nat)) = .ok uv) :
    ∃ q v d, (∀ (rng : Rng Flo S) (ctx : Ctx Flo S),
        ((c.yawPitchRoll (lit 0) (lit 0) (lit 0)).translate ⟨lit 0, lit 0, lit 0⟩).rayFrom rng ctx uv.1 uv.2 = (q, ctx)) ∧
      q.start.FIs v ∧ q.dir.FIs d ∧ CloseTo ⟨⟨0, 0, 0⟩, ⟨0, 0, -1⟩⟩ v d := by
  obtain ⟨q, v, d, h1, h2, h3, h4⟩ := C103_camera (S := S) (w := 1) (h := 1) (p := (0, 0)) (by norm_num) (by norm_num) (by norm_num) (by norm_num) (by norm_num)
    ahead_aims hc huv
  have e := ahead_sight
  simp only [Nat.cast_zero] at h4
  rw [e] at h4
  exact ⟨q, v, d, h1, h2, h3, h4⟩

/-- A picture of one pixel of the lit wall, of 100 passes: for any workers and schedule, nothing crashes and the pixel is within
`1/3000` of `100/(4π5²)·(4/5)`, about 0.2546. -/
example {c : Cam Flo} (hc : Cam.projective (lit ((1 : ℤ) : ℚ) : Flo) = .ok c) (rng : Rng Flo S) (sh : Flo × Flo) {W : Nat} (hW : 0 < W) (seeds : Fin W → S)
    (t : SamplerState Flo (Ctx Flo S) W) (k : Nat)
    (hrun : Runs (ctxShader (wallScene.imageFunc rng ((c.yawPitchRoll (lit 0) (lit 0) (lit 0)).translate ⟨lit 0, lit 0, lit 0⟩))) 1 1 false 100
      (samplerInit 1 1 (fun i => Ctx.new [sh] (seeds i)) fun _ => Cell.zero) k t) (hdone : t.done) (ch : Primary) :
    t.crashed = false ∧ ∃ x, ((t.mem (0, 0)).image.pick ch).Is x ∧ |x - 100 / (4 * Real.pi * 5 ^ 2) * (4 / 5)| ≤ 1 / 3000 := by
  have e0 : |100 / (4 * Real.pi * 5 ^ 2) * (4 / 5)| ≤ 1 := by
    have := Real.pi_gt_three
    rw [abs_of_nonneg (by positivity), ← mul_div_assoc, div_le_iff₀ (by norm_num), div_mul_eq_mul_div, div_le_iff₀ (by positivity)]
    linarith
  obtain ⟨h1, h2⟩ := C103_picture wallScene rfl rfl (w := 1) (h := 1) (by norm_num) (by norm_num) (by norm_num) ahead_aims hc
    (fun _ _ => 100 / (4 * Real.pi * 5 ^ 2) * (4 / 5)) (fun _ _ => 1 / 4000) false
    (fun p hx hy => by
      obtain ⟨x, y⟩ := p
      obtain rfl : x = 0 := by simpa using hx
      obtain rfl : y = 0 := by simpa using hy
      simpa [sampleRow] using wall_steady)
    (fun p k => by norm_num at e0 ⊢; linarith) rng [sh] (by simp) hW seeds (n := 100) (by norm_num) (by norm_num) t k hrun
  obtain ⟨x, hx, hb⟩ := h2 hdone (0, 0) (by norm_num) (by norm_num) ch
  refine ⟨h1, x, hx, hb.trans ?_⟩
  generalize |100 / (4 * Real.pi * 5 ^ 2) * (4 / 5)| = a at *
  norm_num
  linarith

/-- A sky, and nothing else. -/
noncomputable def skyScene : Scene Flo := ⟨[], [Obj.backdrop (some (.flat whiteFlo.tex))], [], 1⟩

/-- An anti-aliased picture of the sky, 640 by 480, of 16 passes by any camera: each pixel is white, but for rounding. -/
example {fov yaw pitch roll : Flo} {eye : Vec Flo} {V : View} (hV : Aims fov yaw pitch roll eye V) {c : Cam Flo} (hc : Cam.projective fov = .ok c)
    (rng : Rng Flo S) (sh : Flo × Flo) {W : Nat} (hW : 0 < W) (seeds : Fin W → S) (t : SamplerState Flo (Ctx Flo S) W) (k : Nat)
    (hrun : Runs (ctxShader (skyScene.imageFunc rng ((c.yawPitchRoll yaw pitch roll).translate eye))) 640 480 true 16
      (samplerInit 640 480 (fun i => Ctx.new (List.replicate (640 * 480) sh) (seeds i)) fun _ => Cell.zero) k t) (hdone : t.done)
    (p : Pixel) (hx : p.1 < 640) (hy : p.2 < 480) (ch : Primary) :
    ∃ x, ((t.mem p).image.pick ch).Is x ∧ |x - 1| ≤ 1 / 2 ^ 45 := by
  have one : (lit ((1 : ℤ) : ℚ) : Flo).Is 1 := by simpa using flo_int_is 1 (by norm_num)
  obtain ⟨x, hx, hb⟩ := (C103_picture skyScene rfl rfl (w := 640) (h := 480) (by norm_num) (by norm_num) (by norm_num) hV hc
    (fun _ _ => 1) (fun _ _ => 0) true
    (fun p _ _ v d _ => ⟨fun _ => 1, fun _ => 0, .plain (.sky (before := []) (after := []) (col := whiteFlo) (lamps := []) (things := []) rfl
      (fun k => by cases k <;> exact one) rfl .nil (by simp)), by simp⟩)
    (by norm_num) rng (List.replicate (640 * 480) sh) (by rw [List.length_replicate]) hW seeds (n := 16) (by norm_num) (by norm_num) t k hrun).2 hdone p hx hy ch
  refine ⟨x, hx, hb.trans ?_⟩
  norm_num

end BR
