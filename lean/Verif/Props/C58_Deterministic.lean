import Verif.Lemmas.Agree
import Verif.Lemmas.Workers
import Verif.Props.C03_Schedule
import Verif.Num.Ext
import Verif.Lemmas.Halton

/-! C58: shallow renders are deterministic. `rng` and the seeds are arbitrary: the clock-seeded generator and its
hidden state. The pixel shifts come from a generator with a fixed seed and are the same list in all contexts. -/

namespace BR
set_option linter.unusedSectionVars false

section

variable {F S S' : Type} [Add F] [Sub F] [Mul F] [Div F] [Neg F] [GoFloat F]

/-- A camera that uses no lens: everything but a projective camera with positive aperture. -/
def Cam.Pinhole (c : Cam F) : Prop :=
  match c.orig with
  | .projective _ _ aperture => (aperture >. lit 0) = false
  | _ => True

theorem rayFrom_pinhole {cam : Cam F} (hc : cam.Pinhole) (u v : F) :
    ∃ r, (∀ (rng : Rng F S) (c : Ctx F S), cam.rayFrom rng c u v = (r, c)) ∧
      ∀ (rng : Rng F S') (c : Ctx F S'), cam.rayFrom rng c u v = (r, c) := by
  unfold Cam.rayFrom
  unfold Cam.Pinhole at hc
  cases h : cam.orig with
  | projective fl fd ap =>
    rw [h] at hc
    simp only [BaseCam.rayFrom, hc, Bool.false_eq_true, if_false]
    exact ⟨_, fun _ _ => rfl, fun _ _ => rfl⟩
  | isometric s => exact ⟨_, fun _ _ => rfl, fun _ _ => rfl⟩
  | envMap => exact ⟨_, fun _ _ => rfl, fun _ _ => rfl⟩

theorem imageFunc_same {rng : Rng F S} {rng' : Rng F S'} {s : Scene F} {cam : Cam F} (hc : cam.Pinhole)
    (h0 : 0 ≤ s.recursionDepth) (h2 : s.recursionDepth ≤ 2) (fr : Frame F) (hf : fr.depth = 0) (u v : F) :
    Same fr (fun c => s.imageFunc rng cam c u v) (fun c => s.imageFunc rng' cam c u v) := by
  intro c c' e e'
  obtain ⟨r, hr, hr'⟩ := rayFrom_pinhole (S := S) (S' := S') hc u v
  show Agree fr (s.imageFunc rng cam c u v) (s.imageFunc rng' cam c' u v)
  unfold Scene.imageFunc
  simp only [hr, hr']
  refine (lightField_same h2 _ _ _ _ (by omega) (by omega) _ _ (frame_take e) (frame_take e')).bind
    fun x c c' e e' => .ok _ _ _ (frame_put _ e) (frame_put _ e')

/-- A sequence with given bases and shifts, at any position. -/
def HaltonSeq.Like (a b : HaltonSeq F) : Prop :=
  a.baseU = b.baseU ∧ a.baseV = b.baseV ∧ a.stride = b.stride ∧ a.shifts = b.shifts

theorem HaltonSeq.init_like {a b : HaltonSeq F} (h : a.Like b) (pixel pass : Nat) :
    a.init pixel pass = b.init pixel pass := by
  obtain ⟨a1, a2, a3, a4, a5, a6, a7⟩ := a
  obtain ⟨b1, b2, b3, b4, b5, b6, b7⟩ := b
  obtain ⟨h1, h2, h3, h4⟩ := h
  dsimp only at h1 h2 h3 h4
  subst h1 h2 h3 h4
  rfl

theorem HaltonSeq.like_init {a b b' : HaltonSeq F} (pixel pass : Nat) (h : b.init pixel pass = .ok b')
    (hl : b.Like a) : b'.Like a := by
  unfold HaltonSeq.init at h
  split at h
  · cases h
  · cases h; exact hl

/-- A worker's context between pixels: no evaluation in progress, sequences built from the shifts. -/
structure BetweenPixels (shifts : List (F × F)) (c : Ctx F S) : Prop where
  depth : c.depth = 0
  seq1 : c.seq1.Like (.new 2 3 1 shifts)
  seq2 : c.seq2.Like (.new 5 7 1 shifts)
  seqL : c.seqL.Like (.new 5 7 11 shifts)
  aa : c.aa = .new 2 3 1 shifts

theorem betweenPixels_new (shifts : List (F × F)) (seed : S) : BetweenPixels shifts (Ctx.new shifts seed : Ctx F S) :=
  ⟨rfl, ⟨rfl, rfl, rfl, rfl⟩, ⟨rfl, rfl, rfl, rfl⟩, ⟨rfl, rfl, rfl, rfl⟩, rfl⟩

theorem betweenPixels_frame {shifts : List (F × F)} {c : Ctx F S} {c' : Ctx F S'} (h : BetweenPixels shifts c)
    (e : c.frame = c'.frame) : BetweenPixels shifts c' := by
  unfold Ctx.frame at e
  simp only [Frame.mk.injEq] at e
  obtain ⟨e1, e2, e3, e4, e5⟩ := e
  exact ⟨e1 ▸ h.depth, e2 ▸ h.seq1, e3 ▸ h.seq2, e4 ▸ h.seqL, e5 ▸ h.aa⟩

/-- `Init` of two such contexts. -/
theorem init_between {shifts : List (F × F)} {c : Ctx F S} {c' : Ctx F S'} (h : BetweenPixels shifts c)
    (h' : BetweenPixels shifts c') (pixel pass : Nat) :
    (∃ e, c.init pixel pass = .error e ∧ c'.init pixel pass = .error e) ∨
    ∃ d d', c.init pixel pass = .ok d ∧ c'.init pixel pass = .ok d' ∧ d.frame = d'.frame ∧ BetweenPixels shifts d := by
  unfold Ctx.init
  rw [HaltonSeq.init_like h.seq1, HaltonSeq.init_like h'.seq1, HaltonSeq.init_like h.seq2,
    HaltonSeq.init_like h'.seq2, HaltonSeq.init_like h.seqL, HaltonSeq.init_like h'.seqL]
  cases e1 : (HaltonSeq.new 2 3 1 shifts).init pixel pass with
  | error e => exact .inl ⟨e, rfl, rfl⟩
  | ok s1 =>
    cases e2 : (HaltonSeq.new 5 7 1 shifts).init pixel pass with
    | error e => exact .inl ⟨e, rfl, rfl⟩
    | ok s2 =>
      cases e3 : (HaltonSeq.new 5 7 11 shifts).init pixel pass with
      | error e => exact .inl ⟨e, rfl, rfl⟩
      | ok sL =>
        refine .inr ⟨_, _, rfl, rfl, ?_, h.depth, ?_, ?_, ?_, h.aa⟩
        · simp only [Ctx.frame, h.depth, h'.depth, h.aa, h'.aa]
        · exact HaltonSeq.like_init _ _ e1 ⟨rfl, rfl, rfl, rfl⟩
        · exact HaltonSeq.like_init _ _ e2 ⟨rfl, rfl, rfl, rfl⟩
        · exact HaltonSeq.like_init _ _ e3 ⟨rfl, rfl, rfl, rfl⟩

/-- One pass over one pixel, from any two contexts between pixels. -/
theorem passColor_same {rng : Rng F S} {rng' : Rng F S'} {s : Scene F} {cam : Cam F} (hc : cam.Pinhole)
    (h0 : 0 ≤ s.recursionDepth) (h2 : s.recursionDepth ≤ 2) {shifts : List (F × F)} {c : Ctx F S} {c' : Ctx F S'}
    (h : BetweenPixels shifts c) (h' : BetweenPixels shifts c') (w ht : Nat) (aa : Bool) (p : Pixel) (k : Nat) :
    (∃ e, passColor (ctxShader (s.imageFunc rng cam)) w ht aa c p k = .error e ∧
      passColor (ctxShader (s.imageFunc rng' cam)) w ht aa c' p k = .error e) ∨
    ∃ col d d', passColor (ctxShader (s.imageFunc rng cam)) w ht aa c p k = .ok (col, d) ∧
      passColor (ctxShader (s.imageFunc rng' cam)) w ht aa c' p k = .ok (col, d') ∧
      BetweenPixels shifts d ∧ BetweenPixels shifts d' := by
  have fin : ∀ (fr : Frame F) (x : GoM (Color F × Ctx F S)) (y : GoM (Color F × Ctx F S')),
      (∀ c : Ctx F S, c.frame = fr → BetweenPixels shifts c) → Agree fr x y →
      (∃ e, x = .error e ∧ y = .error e) ∨
      ∃ col d d', x = .ok (col, d) ∧ y = .ok (col, d') ∧ BetweenPixels shifts d ∧ BetweenPixels shifts d' := by
    intro fr x y hfr ha
    cases ha with
    | error e => exact .inl ⟨e, rfl, rfl⟩
    | ok a c c' e e' =>
      exact .inr ⟨a, c, c', rfl, rfl, hfr c e, betweenPixels_frame (hfr c e) (e.trans e'.symm)⟩
  unfold passColor
  cases hi : indexToCam (F := F) w ht (ofInt p.1) (ofInt p.2) with
  | error e => exact .inl ⟨e, rfl, rfl⟩
  | ok uv =>
    simp only [ok_bind, ctxShader]
    rcases init_between h h' (w * p.2 + p.1) k with ⟨e, e1, e2⟩ | ⟨d, d', e1, e2, ed, hb⟩
    · rw [e1, e2]; exact .inl ⟨e, rfl, rfl⟩
    · rw [e1, e2]
      simp only [ok_bind]
      have hfr : ∀ c : Ctx F S, c.frame = d.frame → BetweenPixels shifts c := fun c e => betweenPixels_frame hb e.symm
      have hdep : d.frame.depth = 0 := hb.depth
      cases aa with
      | false =>
        simp only [Bool.false_eq_true, if_false]
        exact fin _ _ _ hfr (imageFunc_same hc h0 h2 _ hdep _ _ d d' rfl ed.symm)
      | true =>
        simp only [if_true]
        have haa : d'.aa = d.aa := (congrArg Frame.aa ed).symm
        rw [haa]
        refine fin d.frame _ _ hfr ?_
        simp only [bind_assoc, pure_bind']
        refine Agree.bindPure fun uv => ?_
        exact imageFunc_same hc h0 h2 _ hdep _ _ d d' rfl ed.symm

/-- **C58, one sample.** With a pinhole camera and recursion depth at most 2, sampling a pixel in a pass gives the
same colour, or the same panic, whatever the random source and its state. -/
theorem C58_pixel (rng : Rng F S) (rng' : Rng F S') (seed : S) (seed' : S') (s : Scene F) (cam : Cam F)
    (hc : cam.Pinhole) (h0 : 0 ≤ s.recursionDepth) (h2 : s.recursionDepth ≤ 2) (shifts : List (F × F))
    (w ht : Nat) (aa : Bool) (p : Pixel) (k : Nat) :
    (passColor (ctxShader (s.imageFunc rng cam)) w ht aa (Ctx.new shifts seed) p k).map Prod.fst =
    (passColor (ctxShader (s.imageFunc rng' cam)) w ht aa (Ctx.new shifts seed') p k).map Prod.fst := by
  rcases passColor_same (rng := rng) (rng' := rng') hc h0 h2 (betweenPixels_new shifts seed) (betweenPixels_new shifts seed')
    w ht aa p k with ⟨e, e1, e2⟩ | ⟨col, d, d', e1, e2, -⟩
  · rw [e1, e2]; rfl
  · rw [e1, e2]; rfl

/-- The image function of a shallow render is deterministic in the sense of C03, if it does not panic for one
random source. -/
theorem shallow_deterministic (rng : Rng F S) (rng' : Rng F S') (seed' : S') (s : Scene F) (cam : Cam F)
    (hc : cam.Pinhole) (h0 : 0 ≤ s.recursionDepth) (h2 : s.recursionDepth ≤ 2) (shifts : List (F × F))
    (w ht : Nat) (aa : Bool) (g : Pixel → Nat → Color F)
    (hg : ∀ p : Pixel, p.1 < w → p.2 < ht → ∀ k,
      (passColor (ctxShader (s.imageFunc rng' cam)) w ht aa (Ctx.new shifts seed') p k).map Prod.fst = .ok (g p k)) :
    Deterministic (ctxShader (s.imageFunc rng cam)) w ht aa (BetweenPixels shifts) g := by
  intro ctx hctx p hx hy k
  have := hg p hx hy k
  rcases passColor_same (rng := rng) (rng' := rng') hc h0 h2 hctx (betweenPixels_new shifts seed') w ht aa p k with
    ⟨e, e1, e2⟩ | ⟨col, d, d', e1, e2, hd, -⟩
  · rw [e2] at this; cases this
  · rw [e2] at this
    change Except.ok col = Except.ok (g p k) at this
    cases this
    exact ⟨d, e1, hd⟩

/-- **C58.** Two renders of the same shallow scene, with different random sources, different seeds for every worker,
different numbers of workers and different schedules, end with the same accumulators: the images are equal bit for
bit. The scene is assumed not to panic for some random source and seed; by `C58_pixel` it then panics for none. -/
theorem C58_image (rng : Rng F S) (rng' : Rng F S') (s : Scene F) (cam : Cam F) (hc : cam.Pinhole)
    (h0 : 0 ≤ s.recursionDepth) (h2 : s.recursionDepth ≤ 2) (shifts : List (F × F)) (w ht : Nat) (aa : Bool)
    (hok : ∃ seed : S, ∀ p : Pixel, p.1 < w → p.2 < ht → ∀ k, ∃ x,
      passColor (ctxShader (s.imageFunc rng cam)) w ht aa (Ctx.new shifts seed) p k = .ok x)
    {W W' : Nat} (hW : 0 < W) (hW' : 0 < W') (seeds : Fin W → S) (seeds' : Fin W' → S') (nPass : Nat)
    (mem : Pixel → Cell F) (t : SamplerState F (Ctx F S) W) (t' : SamplerState F (Ctx F S') W') (k k' : Nat)
    (hr : Runs (ctxShader (s.imageFunc rng cam)) w ht aa nPass
      (samplerInit w ht (fun i => Ctx.new shifts (seeds i)) mem) k t)
    (hr' : Runs (ctxShader (s.imageFunc rng' cam)) w ht aa nPass
      (samplerInit w ht (fun i => Ctx.new shifts (seeds' i)) mem) k' t')
    (hdone : t.done) (hdone' : t'.done) : t.mem = t'.mem := by
  classical
  obtain ⟨seed, hok⟩ := hok
  let g : Pixel → Nat → Color F := fun p k =>
    match passColor (ctxShader (s.imageFunc rng cam)) w ht aa (Ctx.new shifts seed) p k with
    | .ok x => x.1
    | .error _ => .black
  have hg : ∀ p : Pixel, p.1 < w → p.2 < ht → ∀ k,
      (passColor (ctxShader (s.imageFunc rng cam)) w ht aa (Ctx.new shifts seed) p k).map Prod.fst = .ok (g p k) := by
    intro p hx hy k
    obtain ⟨x, hx⟩ := hok p hx hy k
    simp only [g, hx]; rfl
  have d1 := shallow_deterministic rng rng seed s cam hc h0 h2 shifts w ht aa g hg
  have d2 := shallow_deterministic rng' rng seed s cam hc h0 h2 shifts w ht aa g hg
  funext p
  rw [C03_result d1 (fun i => betweenPixels_new _ _) hW t k hr hdone p,
    C03_result d2 (fun i => betweenPixels_new _ _) hW' t' k' hr' hdone' p]

/-- No such render crashes. -/
theorem C58_no_crash (rng : Rng F S) (rng' : Rng F S') (s : Scene F) (cam : Cam F) (hc : cam.Pinhole)
    (h0 : 0 ≤ s.recursionDepth) (h2 : s.recursionDepth ≤ 2) (shifts : List (F × F)) (w ht : Nat) (aa : Bool)
    (hok : ∃ seed : S, ∀ p : Pixel, p.1 < w → p.2 < ht → ∀ k, ∃ x,
      passColor (ctxShader (s.imageFunc rng cam)) w ht aa (Ctx.new shifts seed) p k = .ok x)
    {W' : Nat} (seeds' : Fin W' → S') (nPass : Nat)
    (mem : Pixel → Cell F) (t' : SamplerState F (Ctx F S') W') (k' : Nat)
    (hr' : Runs (ctxShader (s.imageFunc rng' cam)) w ht aa nPass
      (samplerInit w ht (fun i => Ctx.new shifts (seeds' i)) mem) k' t') : t'.crashed = false := by
  classical
  obtain ⟨seed, hok⟩ := hok
  have hg : ∀ p : Pixel, p.1 < w → p.2 < ht → ∀ k,
      (passColor (ctxShader (s.imageFunc rng cam)) w ht aa (Ctx.new shifts seed) p k).map Prod.fst =
        .ok (match passColor (ctxShader (s.imageFunc rng cam)) w ht aa (Ctx.new shifts seed) p k with
          | .ok x => x.1
          | .error _ => .black) := by
    intro p hx hy k
    obtain ⟨x, hx⟩ := hok p hx hy k
    simp only [hx]; rfl
  exact C03_no_crash (shallow_deterministic rng' rng seed s cam hc h0 h2 shifts w ht aa _ hg)
    (fun i => betweenPixels_new _ _) t' k' hr'

end

/-! ## Non-vacuity -/

theorem haltonLoop_ext_ok {b : Nat} (hb : 2 ≤ b) (fuel i : Nat) (f r : Ext) (hi : i ≤ fuel) :
    ∃ x, haltonLoop b fuel f r i = .ok x := by
  induction fuel generalizing i f r with
  | zero => exact ⟨r, by rw [haltonLoop, if_neg (by omega)]⟩
  | succ fuel ih =>
    rw [haltonLoop]
    split_ifs with h0 h1
    · omega
    · refine ih _ _ _ ?_
      have hb0 : ((b : Int) : ℝ) ≠ 0 := by positivity
      have e : GoFloat.trunc (GoFloat.floor (ofInt (i : Int) / (ofInt (b : Int) : Ext))) =
          GoFloat.trunc (GoFloat.floor ((ofInt (i : Int) : ℝ) / ofInt (b : Int))) := by
        rw [Ext.ofInt_ext, Ext.ofInt_ext, Ext.num_div_num _ _ _ _ hb0]
        rfl
      rw [e, trunc_floor_div]
      have := Nat.div_lt_self h0 (show 1 < b by omega)
      omega
    · exact ⟨r, rfl⟩

theorem generate2_ext_ok (s : HaltonSeq Ext) (hu : 2 ≤ s.baseU) (hv : 2 ≤ s.baseV) : ∃ uv, s.generate2 = .ok uv := by
  obtain ⟨u, e1⟩ := haltonLoop_ext_ok hu (s.index + 1) (s.index + 1) (lit 1) (lit 0) le_rfl
  obtain ⟨v, e2⟩ := haltonLoop_ext_ok hv (s.index + 1) (s.index + 1) (lit 1) (lit 0) le_rfl
  unfold HaltonSeq.generate2 halton
  rw [e1, e2]
  exact ⟨_, rfl⟩

/-- A scene surrounded by a matte wall, with recursion depth 2. -/
noncomputable def matteRoom : Scene Ext :=
  { lights := [], objects := [.backdrop (some (.matte (Color.white : Color Ext).tex))], media := [], recursionDepth := 2 }

theorem matteRoom_front (f : Field) (r : Ray Ext) :
    intersectFrontmost (matteRoom.seen f) r =
      .ok (⟨lit (10 ^ 99), r.dir, r.dir, some (.matte (Color.white : Color Ext).tex)⟩, r) := by
  have : matteRoom.seen f = [.backdrop (some (.matte (Color.white : Color Ext).tex))] := by cases f <;> rfl
  rw [this]
  simp only [intersectFrontmost, intersectLoop, Obj.intersect, ok_bind, frontDefault]
  simp

theorem ctx_generate2_ok {S : Type} (rng : Rng Ext S) (c : Ctx Ext S) (hd : c.depth = 1 ∨ c.depth = 2)
    (h1 : c.seq1.baseU = 2 ∧ c.seq1.baseV = 3) (h2 : c.seq2.baseU = 5 ∧ c.seq2.baseV = 7) :
    ∃ uv, c.generate2 rng = .ok (uv, c) := by
  obtain ⟨a, ea⟩ := generate2_ext_ok c.seq1 (by omega) (by omega)
  obtain ⟨b, eb⟩ := generate2_ext_ok c.seq2 (by omega) (by omega)
  unfold Ctx.generate2
  rw [if_neg (by omega)]
  rcases hd with h | h
  · rw [if_pos h, ea]; exact ⟨a, rfl⟩
  · rw [if_neg (by omega), if_pos h, eb]; exact ⟨b, rfl⟩

theorem matteRoom_ok {S : Type} (rng : Rng Ext S) (n : Nat) (f : Field) (r : Ray Ext) (c : Ctx Ext S)
    (h1 : c.seq1.baseU = 2 ∧ c.seq1.baseV = 3) (h2 : c.seq2.baseU = 5 ∧ c.seq2.baseV = 7)
    (h0 : 0 ≤ c.depth) (hd : c.depth + n = 2) :
    ∃ col c', matteRoom.lightField rng n f r c = .ok (col, c') ∧ c'.depth = c.depth := by
  induction n generalizing f r c with
  | zero => exact ⟨Color.black, c, by
      rw [Scene.lightField, Scene.lightFieldFrom, if_pos (by change 2 = _; omega)], rfl⟩
  | succ n ih =>
    obtain ⟨uv, e1⟩ := ctx_generate2_ok rng ({ c with depth := c.depth + 1 } : Ctx Ext S).takeRay.2
      (by show c.depth + 1 = 1 ∨ c.depth + 1 = 2; omega) h1 h2
    obtain ⟨col, c', e2, e3⟩ := ih .indirect
      ⟨((r.at (lit (10 ^ 99))).madd tiny (flipTowards r.dir.normalized r.dir)).madd tiny (flipTowards r.dir.normalized r.dir),
        cosineSphere uv.1 uv.2 (flipTowards r.dir.normalized r.dir)⟩
      (({ c with depth := c.depth + 1 } : Ctx Ext S).takeRay.2) h1 h2 (by simp [Ctx.takeRay]; omega)
      (by simp [Ctx.takeRay]; omega)
    unfold Scene.lightField at e2 ⊢
    rw [Scene.lightFieldFrom, if_neg (by change (2 : Int) ≠ _; omega)]
    dsimp only
    rw [matteRoom_front, ok_bind]
    simp only [shadeFront, Mat.shade, shadeMatte]
    have hl : matteRoom.lights = [] := rfl
    have hm : matteRoom.media = [] := rfl
    simp only [hl, directLoop, ok_bind]
    rw [e1, ok_bind, e2, ok_bind]
    simp only [Color.tex, ok_bind, pure_ok, hm, mediaLoop]
    refine ⟨_, _, rfl, ?_⟩
    simp only [Ctx.takeRay] at e3
    simp only [Ctx.putRay]
    omega

theorem indexToCam_ok_ext {w h : Nat} (p : Pixel) (hx : p.1 < w) (hy : p.2 < h) :
    ∃ uv : Ext × Ext, indexToCam (w : Int) (h : Int) (ofInt p.1 : Ext) (ofInt p.2) = .ok uv := by
  unfold indexToCam
  have h1 : (p.1 : ℝ) + 1 ≤ w := by exact_mod_cast hx
  have h2 : (p.2 : ℝ) + 1 ≤ h := by exact_mod_cast hy
  have h3 : (0 : ℝ) ≤ p.1 := Nat.cast_nonneg _
  have h4 : (0 : ℝ) ≤ p.2 := Nat.cast_nonneg _
  rw [if_neg]
  · exact ⟨_, rfl⟩
  · simp only [Ext.lit_ext, Ext.ofInt_ext, Ext.num_sub_num, Ext.lt_num, Bool.or_eq_true, decide_eq_true_eq]
    push_cast
    rintro (((h | h) | h) | h) <;> linarith

/-- The hypotheses of `C58_image` are met by a scene that draws from both sequences, for every image size with enough
shifts, every random source, and an environment camera. -/
example {S : Type} (rng : Rng Ext S) (seed : S) (w h : Nat) (shifts : List (Ext × Ext)) (hs : shifts.length = w * h)
    (p : Pixel) (hx : p.1 < w) (hy : p.2 < h) (k : Nat) :
    (Cam.environmentMap : Cam Ext).Pinhole ∧ matteRoom.recursionDepth = 2 ∧
    ∃ x, passColor (ctxShader (matteRoom.imageFunc rng Cam.environmentMap)) w h true (Ctx.new shifts seed) p k = .ok x := by
  refine ⟨trivial, rfl, ?_⟩
  obtain ⟨uv, euv⟩ := indexToCam_ok_ext p hx hy
  have hlt : w * p.2 + p.1 < shifts.length := by
    rw [hs]
    calc w * p.2 + p.1 < w * p.2 + w := by omega
      _ = w * (p.2 + 1) := by ring
      _ ≤ w * h := Nat.mul_le_mul_left _ hy
  have hget : shifts[w * p.2 + p.1]? = some shifts[w * p.2 + p.1] := List.getElem?_eq_getElem hlt
  unfold passColor
  rw [euv]
  simp only [ok_bind, ctxShader, Ctx.init, Ctx.new, HaltonSeq.init, HaltonSeq.new, hget, pure_ok, if_true]
  obtain ⟨a, ea⟩ := generate2_ext_ok (HaltonSeq.new 2 3 1 shifts : HaltonSeq Ext) (by simp [HaltonSeq.new]) (by simp [HaltonSeq.new])
  simp only [HaltonSeq.new] at ea
  rw [ea, ok_bind]
  simp only [ok_bind, Scene.imageFunc]
  generalize hctx : (Ctx.mk _ _ _ _ _ _ _ : Ctx Ext S) = c0
  obtain ⟨r, hr, -⟩ := rayFrom_pinhole (S := S) (S' := S) (show (Cam.environmentMap : Cam Ext).Pinhole from trivial)
    (uv.1 + pixelSize w h * (a.1 - lit (1 / 2))) (uv.2 + pixelSize w h * (a.2 - lit (1 / 2)))
  simp only [hr]
  obtain ⟨col, c', e, -⟩ := matteRoom_ok rng 2 .direct r c0.takeRay.2 (by rw [← hctx]; exact ⟨rfl, rfl⟩)
    (by rw [← hctx]; exact ⟨rfl, rfl⟩) (by rw [← hctx]; exact le_rfl) (by rw [← hctx]; rfl)
  have hrec : matteRoom.recursionDepth.toNat = 2 := rfl
  rw [hrec, e]
  exact ⟨_, rfl⟩

end BR
