import Verif.Spec.Optics
import Verif.Lemmas.Mirror
import Verif.Props.C106_Through

/-! C105: mirrors show what is in front of them, in double precision. -/

namespace BR
set_option linter.unusedSectionVars false

open Flo

variable {S : Type} {r : Ray Flo} {v d : Vec ℝ} {mt : Option (Mat Flo)} {o : Obj Flo (Mat Flo)} {b : Obstacle}

/-- The normal of a thing that is clearly met has length one. -/
theorem Obstacle.MetAt.unit {X : ℝ} {N : Vec ℝ} (hm : b.MetAt v d X N) : N.x ^ 2 + N.y ^ 2 + N.z ^ 2 = 1 := by
  cases b with
  | ball c R =>
    obtain ⟨hR, -, -, -, hX, -, rfl⟩ := hm
    have R0 : R ≠ 0 := by
      rintro rfl
      norm_num at hR
    have e : apart (along v d X) c ^ 2 = R ^ 2 := by rw [hX]
    rw [apart, Real.sq_sqrt (by positivity)] at e
    simp only [outward, hX]
    field_simp
    exact e
  | block lo hi =>
    obtain ⟨-, i, up, -, rfl, -⟩ := hm
    fin_cases i <;> cases up <;> simp [sideNormal]
  | floor W D C =>
    obtain ⟨-, -, -, -, -, rfl⟩ := hm
    unfold sideOf
    split <;> norm_num
  | sky => exact hm.elim

/-- The mirrored direction follows the law of reflection: the part along the normal is reversed and nothing else changes. -/
theorem C105_law {X : ℝ} {N : Vec ℝ} (hm : b.MetAt v d X N) : IsMirror d N (mirrored d N) := by
  have hN := hm.unit
  have e : (mirrored d N).dot N = -d.dot N := by
    simp only [mirrored, Vec.dot]
    linear_combination (-2 * (d.x * N.x + d.y * N.y + d.z * N.z)) * hN
  refine ⟨e, ?_⟩
  rw [e]
  simp only [mirrored, Vec.dot, Vec.sub, Vec.mul, Vec.mk.injEq]
  refine ⟨?_, ?_, ?_⟩ <;> ring

/-- What a ray sent from a mirror looks like. -/
theorem sent_glance {q : Ray Flo} {Q M v' d' : Vec ℝ} (wQ : Within 63 Q) (hM : |M.x ^ 2 + M.y ^ 2 + M.z ^ 2 - 1| ≤ 1 / 32) (hs : SentFrom b Q M v' d')
    (hv : q.start.FIs v') (hd : q.dir.FIs d') : Glance q v' d' := by
  obtain ⟨h1, h2, -⟩ := hs
  have hl := abs_le.1 (near_len hM h2)
  norm_num at hl
  have key : ∀ {a c : ℝ}, |a - c| ≤ 1 / 2 ^ 19 → |c| ≤ 63 → |a| ≤ 64 := by
    intro a c h1 h2
    rw [abs_le] at *
    norm_num at h1
    constructor <;> linarith
  exact ⟨hv, hd, ⟨key h1.1 wQ.1, key h1.2.1 wQ.2.1, key h1.2.2 wQ.2.2⟩, by linarith, by linarith⟩

/-- **A mirror shows what is in front of it**, in double precision. In a scene of balls, boxes, floors and skies with lamps without
size, a line clearly meets a mirror first, not at a grazing angle. Then the light that comes along the ray is that which comes
along another one, times the colour of the mirror; that other ray starts within `2^-19` of where the mirror is met, its direction
is within `2^-12` of the one that the law of reflection gives, and it leads away from the mirror. -/
theorem C105_mirror (rng : Rng Flo S) (s : Scene Flo) (hno : s.media = []) (fld : Field) (h : Glance r v d)
    {before after : List (Obj Flo (Mat Flo))} (hobj : s.objects = before ++ o :: after) {tint : Color Flo} (hb : b.Built (some (.reflective tint)) o)
    {X : ℝ} {N : Vec ℝ} (hm : b.MetAt v d X N) (wQ : Within 63 (along v d X)) (hlen : |d.x ^ 2 + d.y ^ 2 + d.z ^ 2 - 1| ≤ 1 / 32)
    (hg : N.x * d.x + N.y * d.y + N.z * d.z ≤ -(1 / 16)) (lamps : List Fitting) (hlights : s.lights = lamps.map Fitting.light)
    {things : List (Option (Mat Flo) × Obstacle)} (hF : List.Forall₂ (fun o t => t.2.Built t.1 o) (before ++ after) things)
    (hc : ∀ t ∈ things, t.2.Passed v d (X + 1 / 1024)) {ctx : Ctx Flo S} (hdep : s.recursionDepth ≠ ctx.depth) (fuel : ℕ) :
    ∃ q v' d', Glance q v' d' ∧ SentFrom b (along v d X) (mirrored d N) v' d' ∧ ∃ ctx1 : Ctx Flo S,
      ctx1.frame = Ctx.frame { ctx with depth := ctx.depth + 1 } ∧
      (∀ e, s.lightField rng fuel .direct q ctx1 = .error e → s.lightField rng (fuel + 1) fld r ctx = .error e) ∧
      ∀ col ctx2, s.lightField rng fuel .direct q ctx1 = .ok (col, ctx2) →
        ∃ ctx3, s.lightField rng (fuel + 1) fld r ctx = .ok (col.mul3 tint, ctx3) ∧ ctx3.frame = Ctx.frame { ctx2 with depth := ctx2.depth - 1 } := by
  obtain ⟨hit, T, hfront, hi, hmat, -⟩ := C102_front s fld h hobj hb hm wQ lamps hlights hF hc
  obtain ⟨v', d', iv, id, e1, e2, hl⟩ := h.sends hb hm hlen wQ hg hi
  have hs : SentFrom b (along v d X) (mirrored d N) v' d' := ⟨e1, e2, hl⟩
  refine ⟨⟨r.at (hit.t - tiny), reflect r.dir hit.normal.normalized⟩, v', d',
    sent_glance wQ (by rw [mirrored_len hm.unit]; exact hlen) hs iv id, hs, ({ ctx with depth := ctx.depth + 1 } : Ctx Flo S).takeRay.2, rfl, ?_, ?_⟩
  · intro e he
    rw [Scene.lightField] at he
    rw [Scene.lightField, Scene.lightFieldFrom, if_neg hdep, hfront, ok_bind]
    dsimp only
    rw [shadeFront, hmat]
    dsimp only [Mat.shade, withRay]
    rw [he]
    rfl
  · intro col ctx2 he
    rw [Scene.lightField] at he
    refine ⟨{ ctx2.putRay ({ ctx with depth := ctx.depth + 1 } : Ctx Flo S).takeRay.1 with depth := ctx2.depth - 1 }, ?_, rfl⟩
    rw [Scene.lightField, Scene.lightFieldFrom, if_neg hdep, hfront, ok_bind]
    dsimp only
    rw [shadeFront, hmat]
    dsimp only [Mat.shade, withRay]
    rw [he, hno]
    rfl

/-- A colour times the colour of a mirror. -/
theorem tinted {a t : Flo} {x κ E B : ℝ} (ha : a.Is x) (ht : t.Is κ) (κ0 : 0 ≤ κ) (κ1 : κ ≤ 1) (hx : |x - E| ≤ B) (hm : |E| + B ≤ 2 ^ 20) :
    ∃ y, (a * t).Is y ∧ |y - κ * E| ≤ κ * B + (|E| + B) / 2 ^ 53 + 1 / 2 ^ 200 := by
  have hx1 : |x| ≤ |E| + B := by
    have := abs_add_le (x - E) E
    rw [sub_add_cancel] at this
    linarith
  have hxk : |x * κ| ≤ |E| + B := by
    rw [abs_mul, abs_of_nonneg κ0]
    exact (mul_le_of_le_one_right (abs_nonneg _) κ1).trans hx1
  refine ⟨_, Flo.mul_is ha ht (hxk.trans (hm.trans (by norm_num))), ?_⟩
  have h1 := roundBits_err 53 (by norm_num) (x * κ)
  have h2 : |x * κ - κ * E| ≤ κ * B := by
    rw [show x * κ - κ * E = κ * (x - E) by ring, abs_mul, abs_of_nonneg κ0]
    exact mul_le_mul_of_nonneg_left hx κ0
  have h3 := abs_add_le (roundBits 53 (x * κ) - x * κ) (x * κ - κ * E)
  rw [sub_add_sub_cancel] at h3
  have h4 : |x * κ| / 2 ^ 53 ≤ (|E| + B) / 2 ^ 53 := div_le_div_of_nonneg_right hxk (by positivity)
  linarith

/-- **What is seen in mirrors, and in mirrors in mirrors, is right**, in double precision: what there is to see along a line, by way of
`n` mirrors and transparent surfaces at most, is what the program finds when it follows light that far. -/
theorem C105_seen (rng : Rng Flo S) {s : Scene Flo} (hno : s.media = []) {n : ℕ} {val tol : Primary → ℝ} (hs : Shown s n v d val tol) (h : Glance r v d)
    {ctx : Ctx Flo S} (h0 : 0 ≤ ctx.depth) (hrec : s.recursionDepth = ctx.depth + n + 1) (hready : ctx.Ready) (fld : Field) :
    ∃ col ctx', s.lightField rng (n + 1) fld r ctx = .ok (col, ctx') ∧ ctx'.frame = ctx.frame ∧
      ∀ k, ∃ x, (col.pick k).Is x ∧ |x - val k| ≤ tol k := by
  induction hs generalizing r ctx fld with
  | last hd => exact hd.found h hno rng ctx h0 (by simpa using hrec) hready fld
  | plain hg =>
    obtain ⟨col, e, hk⟩ := hg.found h hno rng ctx (by omega) _ fld
    exact ⟨col, ctx, e, rfl, fun k => ⟨_, hk k, by simp⟩⟩
  | @mirror n v d before after o tint b κ X N lamps things val tol E B hobj hb hκ hm wQ hlen hg hlights hF hc _ hB hmod ih =>
    obtain ⟨q, v', d', hq, hsent, ctx1, hf1, -, hok⟩ := C105_mirror rng s hno fld h hobj hb hm wQ hlen hg lamps hlights hF hc
      (ctx := ctx) (by push_cast at hrec; omega) (n + 1)
    have hd1 : ctx1.depth = ctx.depth + 1 := congrArg Frame.depth hf1
    have hr1 : ctx1.Ready := by
      have e1 : ctx1.seq1 = ctx.seq1 := congrArg Frame.seq1 hf1
      have e2 : ctx1.seq2 = ctx.seq2 := congrArg Frame.seq2 hf1
      unfold Ctx.Ready
      rw [e1, e2]
      exact hready
    obtain ⟨col, ctx2, e, hf2, hk⟩ := ih v' d' hsent hq (ctx := ctx1) (by omega) (by push_cast at hrec; omega) hr1 .direct
    obtain ⟨ctx3, e3, hf3⟩ := hok col ctx2 e
    refine ⟨_, ctx3, e3, hf3.trans (frame_back (hf2.trans hf1)), fun k => ?_⟩
    obtain ⟨x, hx, ex⟩ := hk k
    have hxE : |x - E k| ≤ B k := by
      have := abs_add_le (x - val v' d' k) (val v' d' k - E k)
      rw [sub_add_sub_cancel] at this
      have := hB v' d' hsent k
      linarith
    obtain ⟨y, hy, ey⟩ := tinted hx (hκ k).1 (hκ k).2.1 (hκ k).2.2 hxE (hmod k)
    refine ⟨y, ?_, ey⟩
    cases k <;> exact hy
  | @pane n v d before after o tint u b κ X N lamps things val tol E B hobj hb hκ hm wQ hg hlights hF hc _ hB hmod ih =>
    obtain ⟨q, v', hq, hsent, ctx1, hf1, -, hok⟩ := C106_pane rng s hno fld h hobj hb hm wQ hg lamps hlights hF hc
      (ctx := ctx) (by push_cast at hrec; omega) (n + 1)
    have hd1 : ctx1.depth = ctx.depth + 1 := congrArg Frame.depth hf1
    have hr1 : ctx1.Ready := by
      have e1 : ctx1.seq1 = ctx.seq1 := congrArg Frame.seq1 hf1
      have e2 : ctx1.seq2 = ctx.seq2 := congrArg Frame.seq2 hf1
      unfold Ctx.Ready
      rw [e1, e2]
      exact hready
    obtain ⟨col, ctx2, e, hf2, hk⟩ := ih v' hsent hq (ctx := ctx1) (by omega) (by push_cast at hrec; omega) hr1 .indirect
    obtain ⟨ctx3, e3, hf3⟩ := hok col ctx2 e
    refine ⟨_, ctx3, e3, hf3.trans (frame_back (hf2.trans hf1)), fun k => ?_⟩
    obtain ⟨x, hx, ex⟩ := hk k
    have hxE : |x - E k| ≤ B k := by
      have := abs_add_le (x - val v' k) (val v' k - E k)
      rw [sub_add_sub_cancel] at this
      have := hB v' hsent k
      linarith
    obtain ⟨y, hy, ey⟩ := tinted hx (hκ k).1 (hκ k).2.1 (hκ k).2.2 hxE (hmod k)
    refine ⟨y, ?_, ey⟩
    cases k <;> exact hy
  | @out n v d before after o tint u b κ X lamps things val tol E B hobj hb hκ hl wQ hlights hF hc _ hB hmod ih =>
    obtain ⟨q, v', hq, hsent, ctx1, hf1, -, hok⟩ := C106_out rng s hno fld h hobj hb hl wQ lamps hlights hF hc
      (ctx := ctx) (by push_cast at hrec; omega) (n + 1)
    have hd1 : ctx1.depth = ctx.depth + 1 := congrArg Frame.depth hf1
    have hr1 : ctx1.Ready := by
      have e1 : ctx1.seq1 = ctx.seq1 := congrArg Frame.seq1 hf1
      have e2 : ctx1.seq2 = ctx.seq2 := congrArg Frame.seq2 hf1
      unfold Ctx.Ready
      rw [e1, e2]
      exact hready
    obtain ⟨col, ctx2, e, hf2, hk⟩ := ih v' hsent hq (ctx := ctx1) (by omega) (by push_cast at hrec; omega) hr1 .indirect
    obtain ⟨ctx3, e3, hf3⟩ := hok col ctx2 e
    refine ⟨_, ctx3, e3, hf3.trans (frame_back (hf2.trans hf1)), fun k => ?_⟩
    obtain ⟨x, hx, ex⟩ := hk k
    have hxE : |x - E k| ≤ B k := by
      have := abs_add_le (x - val v' k) (val v' k - E k)
      rw [sub_add_sub_cancel] at this
      have := hB v' hsent k
      linarith
    obtain ⟨y, hy, ey⟩ := tinted hx (hκ k).1 (hκ k).2.1 (hκ k).2.2 hxE (hmod k)
    refine ⟨y, ?_, ey⟩
    cases k <;> exact hy

theorem SteadyWith.found {s : Scene Flo} {n : ℕ} {R : Ray ℝ} {E B : Primary → ℝ} (hE : SteadyWith s n R E B) (hno : s.media = [])
    (hrec : s.recursionDepth = n + 1) (rng : Rng Flo S) : FoundBy rng s R E B := by
  intro q v d hg hclose ctx h0 hready
  obtain ⟨val, tol, hdis, hbd⟩ := hE v d hclose
  obtain ⟨col, ctx2, e2, hf, hk⟩ := C105_seen rng hno hdis hg (ctx := ctx) (by omega) (by omega) hready .direct
  refine ⟨col, ctx2, by rw [hrec]; exact e2, hf, fun k => ?_⟩
  obtain ⟨x, hx, ex⟩ := hk k
  refine ⟨x, hx, ?_⟩
  have := abs_add_le (x - val k) (val k - E k)
  rw [sub_add_sub_cancel] at this
  have := hbd k
  linarith

/-- **Pictures with mirrors are right**, in double precision. The scene is made of balls, boxes and level rectangles, matte, glowing,
transparent or mirrors, before a backdrop, and lit by lamps without size; the camera is a pinhole camera; light is followed over `m`
mirrors and transparent surfaces.
Suppose in each pixel all lines close to the exact line of sight show the colour `E`, but for `B`. Then however many workers there
are and however they are scheduled, nothing crashes, and when they have all returned each pixel is within `B` and the rounding of the
mean of the exact colour `E`. -/
theorem C105_picture (s : Scene Flo) (hno : s.media = []) {m : ℕ} (hrec : s.recursionDepth = m + 1) {w h : Nat} (hw : w ≤ 2 ^ 16) (hh : h ≤ 2 ^ 16)
    (hr : h ≤ 16 * w) {fov yaw pitch roll : Flo} {eye : Vec Flo} {V : View} (hV : Aims fov yaw pitch roll eye V) {c : Cam Flo}
    (hc : Cam.projective fov = .ok c) (E B : Pixel → Primary → ℝ) (aa : Bool)
    (hE : ∀ p : Pixel, p.1 < w → p.2 < h → SteadyWith s m (V.sight w h p.1 (sampleRow aa w h p.2)) (E p) (B p))
    (hmod : ∀ p k, |E p k| + B p k ≤ 2 ^ 20)
    (rng : Rng Flo S) (shifts : List (Flo × Flo)) (hshift : w * h ≤ shifts.length) {W : Nat} (hW : 0 < W) (seeds : Fin W → S)
    {n : Nat} (h1 : 1 ≤ n) (hn : n ≤ 2 ^ 26) (t : SamplerState Flo (Ctx Flo S) W) (k : Nat)
    (hrun : Runs (ctxShader (s.imageFunc rng ((c.yawPitchRoll yaw pitch roll).translate eye))) w h aa n
      (samplerInit w h (fun i => Ctx.new shifts (seeds i)) fun _ => Cell.zero) k t) :
    t.crashed = false ∧ (t.done → ∀ p : Pixel, p.1 < w → p.2 < h → ∀ ch, ∃ x, ((t.mem p).image.pick ch).Is x ∧
      |x - E p ch| ≤ B p ch + (2 * n + 4) / 2 ^ 53 * (|E p ch| + B p ch) + 1 / 2 ^ 190) :=
  picture_right s hw hh hr hV hc E B aa rng (fun p hx hy => (hE p hx hy).found hno hrec rng) hmod shifts hshift hW seeds h1 hn t k hrun

/-! ## A picture -/

/-- A box behind the camera, one side of which is the plane `z = 6`. -/
noncomputable def lampBlock : BBox Flo :=
  ⟨⟨lit ((-8 : ℤ) : ℚ), lit ((-8 : ℤ) : ℚ), lit ((6 : ℤ) : ℚ)⟩, ⟨lit ((8 : ℤ) : ℚ), lit ((8 : ℤ) : ℚ), lit ((8 : ℤ) : ℚ)⟩⟩

noncomputable def greyFlo : Color Flo := ⟨lit (1 / 2), lit (1 / 2), lit (1 / 2)⟩

/-- A grey mirror in front of the camera, and a white glowing box behind it. -/
noncomputable def mirrorScene : Scene Flo := ⟨[], [Obj.box wallBlock (some (.reflective greyFlo)), Obj.box lampBlock (some (.flat whiteFlo.tex))], [], 2⟩

theorem int_is (z : ℤ) (hz : |z| ≤ 1000) : (lit (z : ℚ) : Flo).Is z := flo_int_is z (lt_of_le_of_lt hz (by norm_num))

theorem wall_built (m : Option (Mat Flo)) : (Obstacle.block ⟨-8, -8, -8⟩ ⟨8, 8, -4⟩).Built m (Obj.box wallBlock m) := by
  have m8 : (lit ((-8 : ℤ) : ℚ) : Flo).Is (-8) := by simpa using int_is (-8) (by norm_num)
  have p8 : (lit ((8 : ℤ) : ℚ) : Flo).Is 8 := by simpa using int_is 8 (by norm_num)
  have m4 : (lit ((-4 : ℤ) : ℚ) : Flo).Is (-4) := by simpa using int_is (-4) (by norm_num)
  exact .block ⟨m8, m8, m8⟩ ⟨p8, p8, m4⟩ (by norm_num [Within]) (by norm_num [Within]) (by norm_num)

theorem lampBlock_built (m : Option (Mat Flo)) : (Obstacle.block ⟨-8, -8, 6⟩ ⟨8, 8, 8⟩).Built m (Obj.box lampBlock m) := by
  have m8 : (lit ((-8 : ℤ) : ℚ) : Flo).Is (-8) := by simpa using int_is (-8) (by norm_num)
  have p8 : (lit ((8 : ℤ) : ℚ) : Flo).Is 8 := by simpa using int_is 8 (by norm_num)
  have p6 : (lit ((6 : ℤ) : ℚ) : Flo).Is 6 := by simpa using int_is 6 (by norm_num)
  exact .block ⟨m8, m8, p6⟩ ⟨p8, p8, p8⟩ (by norm_num [Within]) (by norm_num [Within]) (by norm_num)

/-- All lines close to the one straight back from the mirror show the glowing box. -/
theorem back_glows {v d : Vec ℝ} (v1 : |v.x| ≤ 1 / 2) (v2 : |v.y| ≤ 1 / 2) (v3 : |v.z - -4| ≤ 1 / 2) (d1 : |d.x| ≤ 1 / 64) (d2 : |d.y| ≤ 1 / 64)
    (d3 : |d.z - 1| ≤ 1 / 64) (hl : (Obstacle.block ⟨-8, -8, -8⟩ ⟨8, 8, -4⟩).LeftBy v d) : Glows mirrorScene v d fun _ => 1 := by
  rw [abs_le] at *
  obtain ⟨X, hX⟩ : ∃ X, X * d.z = 6 - v.z := ⟨(6 - v.z) / d.z, div_mul_cancel₀ _ (by linarith)⟩
  have X1 : 9 ≤ X := by
    by_contra hlt
    nlinarith
  have X2 : X ≤ 11 := by
    by_contra hlt
    nlinarith
  have q1 : -1 ≤ v.x + X * d.x ∧ v.x + X * d.x ≤ 1 := by constructor <;> nlinarith
  have q2 : -1 ≤ v.y + X * d.y ∧ v.y + X * d.y ≤ 1 := by constructor <;> nlinarith
  have eQ : along v d X = ⟨v.x + X * d.x, v.y + X * d.y, 6⟩ := by
    simp only [along, Vec.mk.injEq, true_and]
    linarith
  have one : (lit ((1 : ℤ) : ℚ) : Flo).Is 1 := by simpa using int_is 1 (by norm_num)
  refine Glows.met (before := [_]) (after := []) (col := whiteFlo) (X := X) (N := sideNormal 2 false) (lamps := [])
    (things := [(_, .block ⟨-8, -8, -8⟩ ⟨8, 8, -4⟩)]) rfl (lampBlock_built _) (fun k => by cases k <;> exact one)
    ⟨by linarith, 2, false, ⟨?_, ?_, ?_⟩, rfl, ?_⟩ ?_ rfl (.cons (wall_built _) .nil) ?_
  · rw [eQ]; norm_num [outside, Vec.get]
  · norm_num [Vec.get]
  · rw [eQ]
    intro j hj
    fin_cases j
    · norm_num [Vec.get]; constructor <;> linarith
    · norm_num [Vec.get]; constructor <;> linarith
    · exact absurd rfl hj
  · rw [sideNormal, if_neg (by decide), if_neg (by decide), if_pos rfl]
    norm_num
    linarith
  · rw [eQ]
    refine ⟨abs_le.2 ?_, abs_le.2 ?_, by norm_num⟩ <;> dsimp only <;> constructor <;> linarith
  · intro t ht
    obtain rfl := List.mem_singleton.1 ht
    exact .inr hl

theorem mirror_steady : SteadyWith mirrorScene 1 (aheadView.sight 1 1 0 0) (fun _ => 1 / 2) (fun _ => 1 / 2 ^ 52) := by
  rw [ahead_sight]
  rintro v d ⟨⟨v1, v2, v3⟩, d1, d2, d3⟩
  simp only [Vec.sub, sub_zero] at v1 v2 v3 d1 d2 d3
  rw [abs_le] at *
  norm_num at v1 v2 v3 d1 d2 d3
  obtain ⟨X, hX⟩ : ∃ X, X * d.z = -4 - v.z := ⟨(-4 - v.z) / d.z, div_mul_cancel₀ _ (by linarith)⟩
  have X1 : 3 ≤ X := by
    by_contra hlt
    nlinarith
  have X2 : X ≤ 5 := by
    by_contra hlt
    nlinarith
  have q1 : -(1 / 64) ≤ v.x + X * d.x ∧ v.x + X * d.x ≤ 1 / 64 := by constructor <;> nlinarith
  have q2 : -(1 / 64) ≤ v.y + X * d.y ∧ v.y + X * d.y ≤ 1 / 64 := by constructor <;> nlinarith
  have eQ : along v d X = ⟨v.x + X * d.x, v.y + X * d.y, -4⟩ := by
    simp only [along, Vec.mk.injEq, true_and]
    linarith
  have sn : sideNormal 2 true = ⟨0, 0, 1⟩ := by
    rw [sideNormal, if_neg (by decide), if_neg (by decide), if_pos rfl]
    rfl
  have eM : mirrored d (sideNormal 2 true) = ⟨d.x, d.y, -d.z⟩ := by
    rw [sn]
    simp only [mirrored, Vec.mk.injEq]
    refine ⟨by ring, by ring, by ring⟩
  refine ⟨_, _, Shown.mirror (n := 0) (before := []) (after := [_]) (tint := greyFlo) (κ := fun _ => 1 / 2) (X := X) (N := sideNormal 2 true) (lamps := [])
    (things := [(_, .block ⟨-8, -8, 6⟩ ⟨8, 8, 8⟩)]) (val := fun _ _ _ => 1) (tol := fun _ _ _ => 0) (E := fun _ => 1) (B := fun _ => 0) rfl (wall_built _)
    (fun k => ⟨by cases k <;> exact Turn.half_is, by norm_num, by norm_num⟩)
    ⟨by linarith, 2, true, ⟨?_, ?_, ?_⟩, rfl, ?_⟩ ?_ ?_ ?_ rfl (.cons (lampBlock_built _) .nil) ?_ ?_ ?_ ?_, ?_⟩
  · rw [eQ]; norm_num [outside, Vec.get]
  · norm_num [Vec.get]
  · rw [eQ]
    intro j hj
    fin_cases j
    · norm_num [Vec.get]; constructor <;> linarith
    · norm_num [Vec.get]; constructor <;> linarith
    · exact absurd rfl hj
  · rw [sn]
    norm_num
    linarith
  · rw [eQ]
    refine ⟨abs_le.2 ?_, abs_le.2 ?_, by norm_num⟩ <;> dsimp only <;> constructor <;> linarith
  · rw [abs_le]
    constructor <;> nlinarith
  · rw [sn]
    norm_num
    linarith
  · intro t ht
    obtain rfl := List.mem_singleton.1 ht
    refine .inr ⟨2, false, ?_, ?_⟩
    · norm_num [outside, Vec.get]
      linarith
    · rw [sideNormal, if_neg (by decide), if_neg (by decide), if_pos rfl]
      norm_num
      linarith
  · rintro v' d' ⟨⟨a1, a2, a3⟩, ⟨b1, b2, b3⟩, hl⟩
    rw [eQ] at a1 a2 a3
    rw [eM] at b1 b2 b3
    simp only [Vec.sub] at a1 a2 a3 b1 b2 b3
    rw [abs_le] at a1 a2 a3 b1 b2 b3
    norm_num at a1 a2 a3 b1 b2 b3
    refine .plain (back_glows ?_ ?_ ?_ ?_ ?_ ?_ hl) <;> rw [abs_le] <;> constructor <;> linarith
  · intro v' d' _ k
    norm_num
  · norm_num
  · norm_num

/-- What the mirror of the example shows to a ray straight ahead. -/
example (rng : Rng Flo S) {q : Ray Flo} {v d : Vec ℝ} (hg : Glance q v d) (hc : CloseTo ⟨⟨0, 0, 0⟩, ⟨0, 0, -1⟩⟩ v d) (ctx : Ctx Flo S) (h0 : ctx.depth = 0)
    (hready : ctx.Ready) : ∃ col ctx', mirrorScene.lightField rng 2 .direct q ctx = .ok (col, ctx') ∧ ∃ x, col.G.Is x ∧ |x - 1 / 2| ≤ 1 / 2 ^ 52 := by
  obtain ⟨val, tol, hs, hb⟩ := mirror_steady v d (by rw [ahead_sight]; exact hc)
  obtain ⟨col, ctx', e, -, hk⟩ := C105_seen rng rfl hs hg (ctx := ctx) (by omega) (by rw [h0]; rfl) hready .direct
  obtain ⟨x, hx, ex⟩ := hk .green
  refine ⟨col, ctx', e, x, hx, ?_⟩
  have := abs_add_le (x - val .green) (val .green - 1 / 2)
  rw [sub_add_sub_cancel] at this
  have := hb .green
  linarith

/-- The law of reflection in the example. -/
example : IsMirror ⟨0, 0, 1⟩ (outward ⟨0, 0, 0⟩ (along ⟨0, 0, -3⟩ ⟨0, 0, 1⟩ 2))
    (mirrored ⟨0, 0, 1⟩ (outward ⟨0, 0, 0⟩ (along ⟨0, 0, -3⟩ ⟨0, 0, 1⟩ 2))) := C105_law ball_met

/-- A picture of one pixel of what is seen in the mirror, of 100 passes: for any workers and schedule, nothing crashes and the pixel is
half as bright as the glowing box, but for rounding. -/
example {c : Cam Flo} (hc : Cam.projective (lit ((1 : ℤ) : ℚ) : Flo) = .ok c) (rng : Rng Flo S) (sh : Flo × Flo) {W : Nat} (hW : 0 < W) (seeds : Fin W → S)
    (t : SamplerState Flo (Ctx Flo S) W) (k : Nat)
    (hrun : Runs (ctxShader (mirrorScene.imageFunc rng ((c.yawPitchRoll (lit 0) (lit 0) (lit 0)).translate ⟨lit 0, lit 0, lit 0⟩))) 1 1 false 100
      (samplerInit 1 1 (fun i => Ctx.new [sh] (seeds i)) fun _ => Cell.zero) k t) (hdone : t.done) (ch : Primary) :
    t.crashed = false ∧ ∃ x, ((t.mem (0, 0)).image.pick ch).Is x ∧ |x - 1 / 2| ≤ 1 / 2 ^ 44 := by
  obtain ⟨h1, h2⟩ := C105_picture mirrorScene rfl (m := 1) rfl (w := 1) (h := 1) (by norm_num) (by norm_num) (by norm_num) ahead_aims hc
    (fun _ _ => 1 / 2) (fun _ _ => 1 / 2 ^ 52) false
    (fun p hx hy => by
      obtain ⟨x, y⟩ := p
      obtain rfl : x = 0 := by simpa using hx
      obtain rfl : y = 0 := by simpa using hy
      simpa [sampleRow] using mirror_steady)
    (fun p k => by norm_num [abs_of_pos]) rng [sh] (by simp) hW seeds (n := 100) (by norm_num) (by norm_num) t k hrun
  obtain ⟨x, hx, hb⟩ := h2 hdone (0, 0) (by norm_num) (by norm_num) ch
  refine ⟨h1, x, hx, hb.trans ?_⟩
  norm_num [abs_of_pos]

end BR
