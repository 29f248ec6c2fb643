import Verif.Lemmas.Outlines
import Verif.Props.C96_Floor

/-!
C97: pictures of lit scenes converge. With more and more passes, each pixel tends to one colour: where a matte surface is
seen, to its reflectance times all the light that falls on it, from the lamps and from all sides. Without lamps, that is the
light of the sky that is not blocked.
-/

namespace BR
set_option linter.unusedSectionVars false

open MeasureTheory Filter Topology Set

variable {S : Type}

/-- **C97.** Take a scene as in `C95_picture`, and a pixel whose colour is determined by the directions from which light is
scattered at the first two surfaces: the laws of optics leave one colour `col (a, b)` if these are chosen by the pairs `a` and
`b`, whatever is chosen later. If this colour depends on the pairs in a tame way then, as the number of passes grows, the
pixel tends to the mean of `col` over all pairs; for any numbers of workers, schedules, random sources with values in the unit
square, seeds and shifts. -/
theorem C97_picture (s : Scene Ext) (hm : s.media = []) (hd : 0 ≤ s.recursionDepth) (sky : Option (Vec ℝ → Color ℝ))
    (things : List (List Body)) (lamps : List Bulb) (hl : List.Forall₂ IsBulb s.lights lamps)
    (V : View) (h0 : 0 < V.fov) (h1 : V.fov < Real.pi) (fov yaw pitch roll : Ext) (eye : Vec Ext) (hf : fov.Is V.fov)
    (hy : yaw.Is V.yaw) (hp : pitch.Is V.pitch) (hr : roll.Is V.roll) (he : eye.Is V.eye) (w h : Nat) (aa : Bool)
    (hs : ∀ p : Pixel, p.1 < w → p.2 < h →
      Followed sky s.objects things lamps s.recursionDepth.toNat (V.sight w h p.1 (sampleRow aa w h p.2)))
    (p : Pixel) (hpx : p.1 < w) (hpy : p.2 < h) (col : (ℝ × ℝ) × (ℝ × ℝ) → Color ℝ)
    (hcol : ∀ a ∈ unitSq, ∀ b ∈ unitSq, ∀ C, LooksBy (skyColor sky) things lamps (ByPairs a b) s.recursionDepth.toNat
      (V.sight w h p.1 (sampleRow aa w h p.2)) C → C = col (a, b))
    (tR : Tame (unitSq ×ˢ unitSq) fun q => (col q).R) (tG : Tame (unitSq ×ˢ unitSq) fun q => (col q).G)
    (tB : Tame (unitSq ×ˢ unitSq) fun q => (col q).B) :
    ∃ cam, Cam.projective fov = .ok cam ∧
      ∀ (rng : Rng Ext S), (∀ st, UnitPair (rng.next2 st).1) →
      ∀ (shifts : List (Ext × Ext)), w * h ≤ shifts.length → (∀ x ∈ shifts, (∃ a, x.1.Is a) ∧ ∃ b, x.2.Is b) →
      ∀ (W : ℕ → ℕ), (∀ N, 0 < W N) → ∀ (seeds : ∀ N, Fin (W N) → S)
        (t : ∀ N, SamplerState Ext (Ctx Ext S) (W N)) (k : ℕ → ℕ),
        (∀ N, Runs (ctxShader (s.imageFunc rng ((cam.yawPitchRoll yaw pitch roll).translate eye))) w h aa N
          (samplerInit w h (fun i => Ctx.new shifts (seeds N i)) fun _ => Cell.zero) (k N) (t N)) →
        (∀ N, (t N).done) →
        ∃ I : ℕ → Color ℝ, (∀ N > 0, (((t N).mem p).image).Is (I N)) ∧
          ColorsTend I ⟨∫ q in unitSq ×ˢ unitSq, (col q).R, ∫ q in unitSq ×ˢ unitSq, (col q).G,
            ∫ q in unitSq ×ˢ unitSq, (col q).B⟩ := by
  obtain ⟨cam, ecam, -⟩ := projective_sees (S := S) hf hy hp hr he h0 h1
  refine ⟨cam, ecam, ?_⟩
  intro rng hrng shifts hshift hfin W hW seeds t k hrun hdone
  have hlt : w * p.2 + p.1 < shifts.length := by
    refine lt_of_lt_of_le ?_ hshift
    calc w * p.2 + p.1 < w * p.2 + w := by omega
      _ = w * (p.2 + 1) := by ring
      _ ≤ w * h := Nat.mul_le_mul_left _ hpy
  obtain ⟨⟨d1, hd1⟩, d2, hd2⟩ := hfin _ (List.getElem_mem hlt)
  have hpos : Possible (ctxShader (s.imageFunc rng ((cam.yawPitchRoll yaw pitch roll).translate eye))) w h aa
      (BetweenPixels shifts) fun p' n c => ∃ C, c.Is C ∧ (p' = p → C = col (pathPairs (d1, d2) n)) := by
    intro ctx hctx p' hx hyy n
    obtain ⟨q, ctx1, hq, hb, ⟨sh, hmem, hget, e1, e2⟩, e⟩ :=
      pixel_seqs (s := s) h0 h1 hf hy hp hr he ecam aa rng hshift hctx p' hx hyy n
    obtain ⟨⟨x, hx1⟩, y, hy1⟩ := hfin sh hmem
    obtain ⟨uv1, g1, u1, v1⟩ := generate2_is ctx1.seq1 (x := x) (y := y) (by rw [e1]; simp [HaltonSeq.new])
      (by rw [e1]; simp [HaltonSeq.new]) (by rw [e1]; exact hx1) (by rw [e1]; exact hy1)
    obtain ⟨uv2, g2, u2, v2⟩ := generate2_is ctx1.seq2 (x := x) (y := y) (by rw [e2]; simp [HaltonSeq.new])
      (by rw [e2]; simp [HaltonSeq.new]) (by rw [e2]; exact hx1) (by rw [e2]; exact hy1)
    have eb1 : ctx1.seq1.baseU = 2 ∧ ctx1.seq1.baseV = 3 ∧ ctx1.seq1.index = n := by rw [e1]; exact ⟨rfl, rfl, rfl⟩
    have eb2 : ctx1.seq2.baseU = 5 ∧ ctx1.seq2.baseV = 7 ∧ ctx1.seq2.index = n := by rw [e2]; exact ⟨rfl, rfl, rfl⟩
    rw [eb1.1, eb1.2.2] at u1
    rw [eb1.2.1, eb1.2.2] at v1
    rw [eb2.1, eb2.2.2] at u2
    rw [eb2.2.1, eb2.2.2] at v2
    obtain ⟨c, C, ctx2, ec, hc, hlook, hfr⟩ := lightField_looksBy rng hm hl
      (ByPairs (pathPairs (x, y) n).1 (pathPairs (x, y) n).2) s.recursionDepth.toNat .direct hq
      (sight_unit V w h _ _) (hs p' hx hyy) ctx1.takeRay.2 (by
        intro i
        have hdep : ctx1.takeRay.2.depth = 0 := hb.depth
        match i with
        | 0 => exact draws_seq1 (by rw [hdep]; rfl) g1 u1 v1 (Int.fract_nonneg _) (Int.fract_lt_one _).le
        | 1 => exact draws_seq2 (by rw [hdep]; rfl) g2 u2 v2 (Int.fract_nonneg _) (Int.fract_lt_one _).le
        | i + 2 => exact draws_rng hrng (by rw [hdep]; push_cast; show (2 : Int) < 0 + 1 + (i + 2); omega)) (by
        show ctx1.depth + _ = _
        rw [hb.depth]; omega)
    refine ⟨c, ctx2.putRay ctx1.takeRay.1, ?_, betweenPixels_frame hb ?_, C, hc, ?_⟩
    · rw [e, ec]; rfl
    · exact hfr.symm
    · rintro rfl
      have hsh : sh = shifts[w * p'.2 + p'.1] := by
        rw [List.getElem?_eq_getElem hlt] at hget
        exact (Option.some.inj hget).symm
      subst hsh
      obtain rfl := hx1.unique hd1
      obtain rfl := hy1.unique hd2
      have hmem := pathPairs_mem (x, y) n
      exact hcol _ hmem.1 _ hmem.2 C hlook
  refine ⟨fun N => meanColor (fun n => col (pathPairs (d1, d2) n)) N, ?_, ?_⟩
  · intro N hN
    obtain ⟨g, hg, hmem⟩ := C03_every_pass hpos (fun i => betweenPixels_new shifts (seeds N i)) (hW N) (t N) (k N) (hrun N)
      (hdone N)
    rw [hmem p, if_pos ⟨hpx, hpy⟩]
    refine image_mean (fun n => ?_) N hN
    obtain ⟨C, hC, e⟩ := hg p hpx hpy n
    rw [e rfl] at hC
    exact hC
  · exact ⟨tendsto_pathPairs _ _ tR, tendsto_pathPairs _ _ tG, tendsto_pathPairs _ _ tB⟩

/-- On the last surface that light is followed to, it does not matter from where light would be scattered. -/
private theorem gives_last {scatter : Vec ℝ → Vec ℝ → Prop} {pass : Ray ℝ → ℝ → Color ℝ → Color ℝ → Prop} {lamps : List Bulb}
    {next : Ray ℝ → Color ℝ → Prop} (hnext : ∀ R C, next R C ↔ C = ⟨0, 0, 0⟩) {R : Ray ℝ} {T : ℝ} {N : Vec ℝ} {X : Surface} {C : Color ℝ}
    (h : Gives scatter pass lamps next R T N X C) : Gives AnyAbove pass lamps next R T N X C := by
  induction X generalizing C with
  | glow c => exact h
  | matte k =>
    obtain ⟨ω, A, B, -, hA, hB, e⟩ := h
    have : ∃ ω, AnyAbove (facing N R.dir) ω := by
      rcases le_total 0 (facing N R.dir).x with h0 | h0
      · exact ⟨⟨1, 0, 0⟩, by simp [Vec.dot], by simpa [Vec.dot] using h0⟩
      · exact ⟨⟨-1, 0, 0⟩, by simp [Vec.dot], by simpa [Vec.dot] using h0⟩
    obtain ⟨ω', hω⟩ := this
    exact ⟨ω', A, B, hω, hA, (hnext _ _).2 ((hnext _ _).1 hB), e⟩
  | mirror k => exact h
  | varnish n X ih =>
    obtain ⟨w, A, B, ci, ct, ρ, h1, h2, h3, h4, h5, h6⟩ := h
    exact ⟨w, A, B, ci, ct, ρ, h1, h2, h3, h4, ih h5, h6⟩
  | glass n1 n2 => exact h
  | clear k => exact h
  | mix a X b Y ih1 ih2 =>
    obtain ⟨A, B, h1, h2, e⟩ := h
    exact ⟨A, B, fun h => ih1 (h1 h), fun h => ih2 (h2 h), e⟩
  | sides X Y ih1 ih2 =>
    rcases h with ⟨h1, h2⟩ | ⟨h1, h2⟩
    · exact .inl ⟨h1, ih1 h2⟩
    · exact .inr ⟨h1, ih2 h2⟩

private theorem meets_same {bodies : List Body} {R : Ray ℝ} {b b' : Body} {T T' : ℝ} (h : Meets bodies R b T)
    (h' : Meets bodies R b' T') : T' = T :=
  le_antisymm (h'.2.2 b h.1 T h.2.1.1 h.2.1.2.1) (h.2.2 b' h'.1 T' h'.2.1.1 h'.2.1.2.1)

theorem tame_const (c : ℝ) : Tame unitSq fun _ => c :=
  ⟨measurable_const, ⟨|c|, fun _ _ => le_rfl⟩, Eventually.of_forall fun _ => continuousAt_const⟩

/-- **C97, matte surfaces.** Take a scene as in `C95_picture`, with light followed over at most two surfaces, and a pixel where
a matte surface is seen that reflects the fraction `k` of the light (and no other surface at the same place). Let `A` be the
light of the lamps that falls on it, and `light ω` what is seen from just above it in the direction `ω` when light is
followed over one surface. If `light` is mild then, as the number of passes grows, the pixel tends to `k` times the light that falls on the
surface from the lamps and from all sides. -/
theorem C97_matte (s : Scene Ext) (hm : s.media = []) (hd : s.recursionDepth = 2) (sky : Option (Vec ℝ → Color ℝ))
    (things : List (List Body)) (lamps : List Bulb) (hl : List.Forall₂ IsBulb s.lights lamps)
    (V : View) (h0 : 0 < V.fov) (h1 : V.fov < Real.pi) (fov yaw pitch roll : Ext) (eye : Vec Ext) (hf : fov.Is V.fov)
    (hy : yaw.Is V.yaw) (hp : pitch.Is V.pitch) (hr : roll.Is V.roll) (he : eye.Is V.eye) (w h : Nat) (aa : Bool)
    (hs : ∀ p : Pixel, p.1 < w → p.2 < h → Followed sky s.objects things lamps 2 (V.sight w h p.1 (sampleRow aa w h p.2)))
    (p : Pixel) (hpx : p.1 < w) (hpy : p.2 < h) (R : Ray ℝ) (hR : R = V.sight w h p.1 (sampleRow aa w h p.2))
    (b : Body) (T : ℝ) (hmeet : Meets things.flatten R b T) (k : Color ℝ) (hlook : b.look (R.at T) = .matte k)
    (hsame : ∀ b', Meets things.flatten R b' T → b'.normal (R.at T) = b.normal (R.at T) ∧ b'.look (R.at T) = b.look (R.at T))
    (n : Vec ℝ) (hn : n = facing (b.normal (R.at T)) R.dir) (A : Color ℝ)
    (hA : ∀ A', AllFallsOn (fun R' len => ThroughAll R' len things) ((R.at T).add (n.mul gap)) n lamps A' → A' = A)
    (light : Vec ℝ → Color ℝ) (hlight : ∀ ω, AnyAbove n ω → ∀ C,
      LooksAll (skyColor sky) things lamps 1 ⟨(R.at T).add (n.mul (2 * gap)), ω⟩ C → C = light ω)
    (mR : MildLight fun ω => (light ω).R) (mG : MildLight fun ω => (light ω).G) (mB : MildLight fun ω => (light ω).B)
    (e e' : Vec ℝ) (hF : IsFrame e e' n) :
    ∃ cam, Cam.projective fov = .ok cam ∧
      ∀ (rng : Rng Ext S), (∀ st, UnitPair (rng.next2 st).1) →
      ∀ (shifts : List (Ext × Ext)), w * h ≤ shifts.length → (∀ x ∈ shifts, (∃ a, x.1.Is a) ∧ ∃ b, x.2.Is b) →
      ∀ (W : ℕ → ℕ), (∀ N, 0 < W N) → ∀ (seeds : ∀ N, Fin (W N) → S)
        (t : ∀ N, SamplerState Ext (Ctx Ext S) (W N)) (steps : ℕ → ℕ),
        (∀ N, Runs (ctxShader (s.imageFunc rng ((cam.yawPitchRoll yaw pitch roll).translate eye))) w h aa N
          (samplerInit w h (fun i => Ctx.new shifts (seeds N i)) fun _ => Cell.zero) (steps N) (t N)) →
        (∀ N, (t N).done) →
        ∃ I : ℕ → Color ℝ, (∀ N > 0, (((t N).mem p).image).Is (I N)) ∧
          ColorsTend I ⟨k.R * (A.R + (gathered e e' n light).R), k.G * (A.G + (gathered e e' n light).G),
            k.B * (A.B + (gathered e e' n light).B)⟩ := by
  have hnn := hF.nn
  let f : ℝ × ℝ → Color ℝ := fun q => ⟨k.R * (A.R + (light (cosineSphere q.1 q.2 n)).R),
    k.G * (A.G + (light (cosineSphere q.1 q.2 n)).G), k.B * (A.B + (light (cosineSphere q.1 q.2 n)).B)⟩
  have tame : ∀ {g : Vec ℝ → ℝ} (a c : ℝ), MildLight g → Tame unitSq fun q => c * (a + g (cosineSphere q.1 q.2 n)) := by
    intro g a c hg
    have := ((tame_const a).add (hg.tame hnn)).mul c
    simpa only [mul_comm c] using this
  have value : ∀ {g : Vec ℝ → ℝ} (a c : ℝ), MildLight g →
      ∫ q in unitSq ×ˢ unitSq, c * (a + g (cosineSphere q.1.1 q.1.2 n)) = c * (a + cosineMean e e' n g) := by
    intro g a c hg
    rw [integral_first (g := fun q => c * (a + g (cosineSphere q.1 q.2 n))) (tame a c hg).measurable, integral_const_mul,
      integral_add (tame_const a).integrable (hg.tame hnn).integrable, hg.mean hF, integral_const]
    simp
  have hd' : s.recursionDepth.toNat = 2 := by rw [hd]; rfl
  have key := C97_picture (S := S) s hm (by rw [hd]; norm_num) sky things lamps hl V h0 h1 fov yaw pitch roll eye hf hy hp hr he w h aa
    (by rw [hd']; exact hs) p hpx hpy (fun q => f q.1) (by
      intro a ha b₂ _ C hC
      rw [hd', ← hR] at hC
      rcases hC with ⟨b', T', hm', hg⟩ | ⟨hno, -⟩
      · obtain rfl := meets_same hmeet hm'
        obtain ⟨en, el⟩ := hsame b' hm'
        rw [en, el, hlook] at hg
        obtain ⟨ω, A', B, hω, hA', hB, rfl⟩ := hg
        rw [← hn] at hω hA' hB
        obtain rfl := hA A' hA'
        have hω : ω = cosineSphere a.1 a.2 n := hω
        have habove : AnyAbove n ω := by
          rw [hω]
          exact unit_above ha.2.1 ha.2.2.le hnn
        have hB' : LooksAll (skyColor sky) things lamps 1 ⟨(R.at T').add (n.mul (2 * gap)), ω⟩ B := by
          rcases hB with ⟨b3, T3, h3, hg3⟩ | h3
          · exact .inl ⟨b3, T3, h3, gives_last (fun _ _ => Iff.rfl) hg3⟩
          · exact .inr h3
        rw [hlight ω habove B hB', hω]
      · exact absurd hmeet.2.1.2.1 (hno b hmeet.1 T hmeet.2.1.1))
    (tame A.R k.R mR).first (tame A.G k.G mG).first (tame A.B k.B mB).first
  simp only [f, value _ _ mR, value _ _ mG, value _ _ mB] at key
  exact key

/-! ## Outlines -/

/-- **C97, balls.** The outline of a ball makes up no solid angle, from wherever it is seen. -/
theorem C97_ball (X : ℝ) (hX : 0 < X) (Q : Vec ℝ) (look : Vec ℝ → Surface) (p : Vec ℝ) : (ballBody X Q look).Outlined p := by
  set r := X / 2 with hr
  have hr0 : 0 < r := by rw [hr]; linarith
  set c : Vec ℝ := p.sub Q with hc
  set A := c.dot c - r ^ 2 with hA
  have hfrom : ∀ ω, ω ∈ (ballBody X Q look).from p ↔ ∃ T > 0, ω.dot ω * T ^ 2 + 2 * c.dot ω * T + A = 0 := by
    intro ω
    refine exists_congr fun T => and_congr_right fun hT => ?_
    show AtDistance _ _ _ ↔ _
    rw [AtDistance, ← hr, and_iff_left hr0.le, ← sub_eq_zero]
    have : ((⟨p, ω⟩ : Ray ℝ).at T |>.x) - Q.x = c.x + T * ω.x ∧ ((⟨p, ω⟩ : Ray ℝ).at T |>.y) - Q.y = c.y + T * ω.y ∧
        ((⟨p, ω⟩ : Ray ℝ).at T |>.z) - Q.z = c.z + T * ω.z := by
      simp only [Ray.at, Vec.madd, hc, Vec.sub]
      refine ⟨?_, ?_, ?_⟩ <;> ring
    rw [this.1, this.2.1, this.2.2, hA]
    simp only [Vec.dot]
    rw [← sub_eq_zero]
    constructor <;> intro h <;> linear_combination h
  have dnn : ∀ ω : Vec ℝ, 0 ≤ ω.dot ω := fun ω => by
    simp only [Vec.dot]; nlinarith [mul_self_nonneg ω.x, mul_self_nonneg ω.y, mul_self_nonneg ω.z]
  have dzero : ∀ ω : Vec ℝ, ω.dot ω = 0 → c.dot ω = 0 := by
    intro ω h
    simp only [Vec.dot] at h ⊢
    have hx : ω.x = 0 := by nlinarith [mul_self_nonneg ω.x, mul_self_nonneg ω.y, mul_self_nonneg ω.z]
    have hy : ω.y = 0 := by nlinarith [mul_self_nonneg ω.x, mul_self_nonneg ω.y, mul_self_nonneg ω.z]
    have hz : ω.z = 0 := by nlinarith [mul_self_nonneg ω.x, mul_self_nonneg ω.y, mul_self_nonneg ω.z]
    rw [hx, hy, hz]; ring
  have hpos : ∀ ω : Vec ℝ, c.dot ω ≠ 0 → 0 < ω.dot ω := fun ω h =>
    lt_of_le_of_ne (dnn ω) fun h' => h (dzero ω h'.symm)
  have cB := continuous_dot c
  have cD := continuous_dot_self
  -- the first root
  have root : ∀ ω : Vec ℝ, 0 < ω.dot ω → A * ω.dot ω ≤ (c.dot ω) ^ 2 →
      0 < -(c.dot ω) + Real.sqrt ((c.dot ω) ^ 2 - A * ω.dot ω) → ω ∈ (ballBody X Q look).from p := by
    intro ω hD hdisc hnum
    have hs := Real.sq_sqrt (sub_nonneg.2 hdisc)
    generalize Real.sqrt ((c.dot ω) ^ 2 - A * ω.dot ω) = q at hs hnum
    refine (hfrom ω).2 ⟨(-(c.dot ω) + q) / ω.dot ω, div_pos hnum hD, ?_⟩
    field_simp
    linear_combination hs
  rcases lt_trichotomy A 0 with hA0 | hA0 | hA0
  · -- inside
    have e : (ballBody X Q look).from p = {ω : Vec ℝ | 0 < ω.dot ω} := by
      ext ω
      constructor
      · intro h
        obtain ⟨T, hT, e⟩ := (hfrom ω).1 h
        refine lt_of_le_of_ne (dnn ω) fun h' => ?_
        rw [← h', dzero ω h'.symm] at e
        linarith
      · intro (h : 0 < ω.dot ω)
        have hneg : A * ω.dot ω < 0 := mul_neg_of_neg_of_pos hA0 h
        refine root ω h (by nlinarith [sq_nonneg (c.dot ω)]) ?_
        have : |c.dot ω| < Real.sqrt ((c.dot ω) ^ 2 - A * ω.dot ω) := by
          rw [← Real.sqrt_sq_eq_abs]
          exact Real.sqrt_lt_sqrt (sq_nonneg _) (by linarith)
        linarith [le_abs_self (c.dot ω)]
    have ho : IsOpen {ω : Vec ℝ | 0 < ω.dot ω} := isOpen_lt continuous_const cD
    refine ⟨by rw [e]; exact ho.measurableSet, noArea_empty.mono fun ω hω h => ?_⟩
    rw [e] at h
    exact (frontier_off ho subset_rfl isOpen_empty (empty_subset _) h).1 (by show 0 < ω.dot ω; rw [hω]; norm_num)
  · -- on the ball
    have hcne : c ≠ ⟨0, 0, 0⟩ := by
      intro h
      rw [h] at hA
      simp only [Vec.dot] at hA
      nlinarith
    have e : (ballBody X Q look).from p = {ω : Vec ℝ | c.dot ω < 0} ∪ {ω : Vec ℝ | ω.dot ω = 0} := by
      ext ω
      rw [hfrom, hA0]
      constructor
      · rintro ⟨T, hT, e⟩
        rcases eq_or_lt_of_le (dnn ω) with h | h
        · exact .inr h.symm
        · left
          show c.dot ω < 0
          have : 2 * c.dot ω * T = -(ω.dot ω * T ^ 2) := by linarith
          have : 0 < ω.dot ω * T ^ 2 := by positivity
          nlinarith
      · rintro (h | h)
        · have h : c.dot ω < 0 := h
          have hD := hpos ω h.ne
          exact ⟨-(2 * c.dot ω) / ω.dot ω, div_pos (by linarith) hD, by field_simp; ring⟩
        · have h : ω.dot ω = 0 := h
          exact ⟨1, one_pos, by rw [h, dzero ω h]; ring⟩
    have h1 : IsOpen {ω : Vec ℝ | c.dot ω < 0} := isOpen_lt cB continuous_const
    have h2 : IsOpen {ω : Vec ℝ | 0 < c.dot ω} := isOpen_lt continuous_const cB
    refine ⟨by rw [e]; exact h1.measurableSet.union (isClosed_eq cD continuous_const).measurableSet,
      (noArea_plane hcne 0).mono fun ω hω h => ?_⟩
    rw [e] at h
    obtain ⟨k1, k2⟩ := frontier_off h1 subset_union_left h2 (by
      rintro ω' (h' : 0 < c.dot ω') (h'' | h'')
      · exact lt_asymm h' h''
      · exact h'.ne' (dzero _ h'')) h
    exact le_antisymm (not_lt.1 k2) (not_lt.1 k1)
  · -- outside
    have hcne : c ≠ ⟨0, 0, 0⟩ := by
      intro h
      rw [h] at hA
      simp only [Vec.dot] at hA
      nlinarith
    have e : (ballBody X Q look).from p = {ω : Vec ℝ | c.dot ω < 0} ∩ {ω : Vec ℝ | A * ω.dot ω ≤ (c.dot ω) ^ 2} := by
      ext ω
      constructor
      · intro h
        obtain ⟨T, hT, e⟩ := (hfrom ω).1 h
        refine ⟨?_, ?_⟩
        · show c.dot ω < 0
          have : 0 ≤ ω.dot ω * T ^ 2 := mul_nonneg (dnn ω) (sq_nonneg _)
          by_contra hge
          have : 0 ≤ 2 * c.dot ω * T := by have := not_lt.1 hge; positivity
          linarith
        · show A * ω.dot ω ≤ (c.dot ω) ^ 2
          have : (c.dot ω) ^ 2 - A * ω.dot ω = (ω.dot ω * T + c.dot ω) ^ 2 := by linear_combination (-ω.dot ω) * e
          nlinarith [sq_nonneg (ω.dot ω * T + c.dot ω)]
      · rintro ⟨h1, h2⟩
        have h1 : c.dot ω < 0 := h1
        refine root ω (hpos ω h1.ne) h2 ?_
        have := Real.sqrt_nonneg ((c.dot ω) ^ 2 - A * ω.dot ω)
        linarith
    have cQ : Continuous fun ω : Vec ℝ => A * ω.dot ω := continuous_const.mul cD
    have cS : Continuous fun ω : Vec ℝ => (c.dot ω) ^ 2 := cB.pow 2
    refine ⟨by rw [e]; exact (isOpen_lt cB continuous_const).measurableSet.inter (isClosed_le cQ cS).measurableSet,
      ((noArea_plane hcne 0).union ((noArea_plane hcne (Real.sqrt A)).union (noArea_plane hcne (-Real.sqrt A)))).mono
        fun ω hω h => ?_⟩
    rw [e] at h
    obtain ⟨k1, k2⟩ := frontier_off (U := {ω : Vec ℝ | c.dot ω < 0} ∩ {ω : Vec ℝ | A * ω.dot ω < (c.dot ω) ^ 2})
      (V := {ω : Vec ℝ | 0 < c.dot ω} ∪ {ω : Vec ℝ | (c.dot ω) ^ 2 < A * ω.dot ω})
      ((isOpen_lt cB continuous_const).inter (isOpen_lt cQ cS))
      (inter_subset_inter_right _ fun ω' (h' : A * ω'.dot ω' < (c.dot ω') ^ 2) => le_of_lt h')
      ((isOpen_lt continuous_const cB).union (isOpen_lt cS cQ)) (by
        rintro ω' (h' | h') ⟨h1, h2⟩
        · exact lt_asymm (show c.dot ω' < 0 from h1) h'
        · exact not_lt.2 (show A * ω'.dot ω' ≤ (c.dot ω') ^ 2 from h2) h') h
    rcases lt_trichotomy (c.dot ω) 0 with h0 | h0 | h0
    · right
      have hge : ¬ A * ω.dot ω < (c.dot ω) ^ 2 := fun h' => k1 ⟨h0, h'⟩
      have hle : ¬ (c.dot ω) ^ 2 < A * ω.dot ω := fun h' => k2 (.inr h')
      rw [hω, mul_one] at hge hle
      have hsq : (c.dot ω) ^ 2 = Real.sqrt A ^ 2 := by rw [Real.sq_sqrt hA0.le]; linarith
      rcases sq_eq_sq_iff_eq_or_eq_neg.1 hsq with h' | h'
      · exact .inl h'
      · exact .inr h'
    · exact .inl h0
    · exact absurd (.inl h0) k2

/-- **C97, rectangles.** The same for a horizontal rectangle, seen from outside its plane. -/
theorem C97_rectangle (W D : ℝ) (C : Vec ℝ) (look : Vec ℝ → Surface) (p : Vec ℝ) (hp : p.y ≠ C.y) :
    (rectBody W D C look).Outlined p := by
  set h := C.y - p.y with hh
  have hh0 : h ≠ 0 := sub_ne_zero.2 (Ne.symm hp)
  have hsq : 0 < h ^ 2 := by positivity
  have side : ∀ a b : ℝ, ∀ v : ℝ, v ≠ 0 → (⟨v, a, b⟩ : Vec ℝ) ≠ ⟨0, 0, 0⟩ := by
    intro a b v hv h
    simp only [Vec.mk.injEq] at h
    exact hv h.1
  have side' : ∀ a b : ℝ, ∀ v : ℝ, v ≠ 0 → (⟨b, a, v⟩ : Vec ℝ) ≠ ⟨0, 0, 0⟩ := by
    intro a b v hv h
    simp only [Vec.mk.injEq] at h
    exact hv h.2.2
  refine outlined_cone ⟨0, h, 0⟩ [⟨-h ^ 2, (W / 2 - (p.x - C.x)) * h, 0⟩, ⟨h ^ 2, (W / 2 + (p.x - C.x)) * h, 0⟩,
    ⟨0, (D / 2 - (p.z - C.z)) * h, -h ^ 2⟩, ⟨0, (D / 2 + (p.z - C.z)) * h, h ^ 2⟩] ?_ ?_ ?_
  · intro h'
    simp only [Vec.mk.injEq] at h'
    exact hh0 h'.2.1
  · intro x hx
    simp only [List.mem_cons, List.not_mem_nil, or_false] at hx
    rcases hx with rfl | rfl | rfl | rfl
    · exact side _ _ _ (by linarith)
    · exact side _ _ _ hsq.ne'
    · exact side' _ _ _ (by linarith)
    · exact side' _ _ _ hsq.ne'
  · intro ω
    simp only [List.forall_mem_cons, List.not_mem_nil, false_imp_iff, implies_true, and_true, Vec.dot]
    constructor
    · rintro ⟨T, hT, h1, h2, h3⟩
      simp only [Ray.at, Vec.madd] at h1 h2 h3
      rw [abs_le] at h2 h3
      have e : h = T * ω.y := by rw [hh]; linarith
      have hm : 0 < h * ω.y := by
        have : h * h = T * (h * ω.y) := by rw [e]; ring
        have : 0 < T * (h * ω.y) := by rw [← this]; nlinarith
        exact (pos_iff_pos_of_mul_pos this).1 hT
      have ex : h ^ 2 = T * (h * ω.y) := by rw [e]; ring
      refine ⟨by linarith, ?_, ?_, ?_, ?_⟩
      · rw [ex]; nlinarith [mul_nonneg hm.le (by linarith : 0 ≤ W / 2 - (p.x + T * ω.x - C.x))]
      · rw [ex]; nlinarith [mul_nonneg hm.le (by linarith : 0 ≤ W / 2 + (p.x + T * ω.x - C.x))]
      · rw [ex]; nlinarith [mul_nonneg hm.le (by linarith : 0 ≤ D / 2 - (p.z + T * ω.z - C.z))]
      · rw [ex]; nlinarith [mul_nonneg hm.le (by linarith : 0 ≤ D / 2 + (p.z + T * ω.z - C.z))]
    · rintro ⟨h0, h1, h2, h3, h4⟩
      have hm : 0 < h * ω.y := by linarith
      have hy : ω.y ≠ 0 := fun h' => by rw [h', mul_zero] at hm; exact lt_irrefl _ hm
      have ex : h ^ 2 = h ^ 2 / (h * ω.y) * (h * ω.y) := (div_mul_cancel₀ _ hm.ne').symm
      set T := h ^ 2 / (h * ω.y) with hT
      have hTy : T * ω.y = h := by rw [hT]; field_simp
      rw [ex] at h1 h2 h3 h4
      refine ⟨T, div_pos hsq hm, ?_, ?_, ?_⟩
      · simp only [Ray.at, Vec.madd]; rw [hTy, hh]; ring
      · simp only [Ray.at, Vec.madd]
        rw [abs_le]
        constructor
        · refine le_of_mul_le_mul_right ?_ hm; linarith
        · refine le_of_mul_le_mul_right ?_ hm; linarith
      · simp only [Ray.at, Vec.madd]
        rw [abs_le]
        constructor
        · refine le_of_mul_le_mul_right ?_ hm; linarith
        · refine le_of_mul_le_mul_right ?_ hm; linarith

/-- **C97, triangles.** The same for any triangle, seen from outside its plane. -/
theorem C97_triangle (A B C : Vec ℝ) (b : Body) (hb : ∀ q, b.on q ↔ InTriangle A B C q) (p : Vec ℝ)
    (hp : (triNormal A B C).dot (A.sub p) ≠ 0) : b.Outlined p := by
  set x := A.sub p with hx
  set y := B.sub p with hy
  set z := C.sub p with hz
  set δ := x.dot (y.cross z) with hδ
  have hδ0 : δ ≠ 0 := by
    have : (triNormal A B C).dot x = δ := by
      simp only [hδ, hx, hy, hz, triNormal, geo]; ring
    rwa [← this]
  -- weights in a direction
  let m0 : Vec ℝ := (y.cross z).mul (1 / δ)
  let m1 : Vec ℝ := (z.cross x).mul (1 / δ)
  let m2 : Vec ℝ := (x.cross y).mul (1 / δ)
  have dual : ∀ l0 l1 l2 : ℝ, m0.dot (combine l0 l1 l2 x y z) = l0 ∧ m1.dot (combine l0 l1 l2 x y z) = l1 ∧
      m2.dot (combine l0 l1 l2 x y z) = l2 := by
    intro l0 l1 l2
    have e0 : m0.dot (combine l0 l1 l2 x y z) = l0 * δ / δ := by simp only [m0, combine, hδ, geo]; ring
    have e1 : m1.dot (combine l0 l1 l2 x y z) = l1 * δ / δ := by simp only [m1, combine, hδ, geo]; ring
    have e2 : m2.dot (combine l0 l1 l2 x y z) = l2 * δ / δ := by simp only [m2, combine, hδ, geo]; ring
    rw [e0, e1, e2]
    refine ⟨?_, ?_, ?_⟩ <;> field_simp
  have span : ∀ ω : Vec ℝ, ω = combine (m0.dot ω) (m1.dot ω) (m2.dot ω) x y z := by
    intro ω
    have : combine (m0.dot ω) (m1.dot ω) (m2.dot ω) x y z = ω.mul (δ / δ) := by
      simp only [m0, m1, m2, combine, hδ, geo]
      refine ⟨?_, ?_, ?_⟩ <;> ring
    rw [this, div_self hδ0]
    simp only [Vec.mul, one_mul]
  have hne : ∀ v w : Vec ℝ, v.dot w = 1 → v ≠ ⟨0, 0, 0⟩ := by
    rintro v w h rfl
    simp [Vec.dot] at h
  refine outlined_cone ((m0.add m1).add m2) [m0, m1, m2] ?_ ?_ ?_
  · refine hne _ (combine 1 0 0 x y z) ?_
    obtain ⟨d0, d1, d2⟩ := dual 1 0 0
    have : ((m0.add m1).add m2).dot (combine 1 0 0 x y z) = m0.dot (combine 1 0 0 x y z) + m1.dot (combine 1 0 0 x y z) +
        m2.dot (combine 1 0 0 x y z) := by simp only [Vec.dot, Vec.add]; ring
    rw [this, d0, d1, d2]; norm_num
  · intro v hv
    simp only [List.mem_cons, List.not_mem_nil, or_false] at hv
    rcases hv with rfl | rfl | rfl
    · exact hne _ _ (dual 1 0 0).1
    · exact hne _ _ (dual 0 1 0).2.1
    · exact hne _ _ (dual 0 0 1).2.2
  · intro ω
    simp only [List.forall_mem_cons, List.not_mem_nil, false_imp_iff, implies_true, and_true]
    have hsum : ((m0.add m1).add m2).dot ω = m0.dot ω + m1.dot ω + m2.dot ω := by simp only [Vec.dot, Vec.add]; ring
    rw [hsum]
    constructor
    · rintro ⟨T, hT, hon⟩
      obtain ⟨l0, l1, l2, ⟨h0, h1, h2, hs⟩, e⟩ := (hb _).1 hon
      have e' : ω = combine (l0 / T) (l1 / T) (l2 / T) x y z := by
        have ex := congrArg Vec.x e
        have ey := congrArg Vec.y e
        have ez := congrArg Vec.z e
        simp only [Ray.at, combine, geo] at ex ey ez
        have hT' : T ≠ 0 := hT.ne'
        obtain rfl : l0 = 1 - l1 - l2 := by linarith
        simp only [combine, hx, hy, hz, geo, Vec.ext_iff]
        refine ⟨?_, ?_, ?_⟩
        · field_simp; linear_combination ex
        · field_simp; linear_combination ey
        · field_simp; linear_combination ez
      obtain ⟨d0, d1, d2⟩ := dual (l0 / T) (l1 / T) (l2 / T)
      rw [← e'] at d0 d1 d2
      rw [d0, d1, d2]
      refine ⟨?_, by positivity, by positivity, by positivity⟩
      rw [← add_div, ← add_div, hs]
      positivity
    · rintro ⟨hs, h0, h1, h2⟩
      have hω := span ω
      set a0 := m0.dot ω
      set a1 := m1.dot ω
      set a2 := m2.dot ω
      have hs' : a0 + a1 + a2 ≠ 0 := hs.ne'
      refine ⟨1 / (a0 + a1 + a2), by positivity, (hb _).2 ⟨a0 / (a0 + a1 + a2), a1 / (a0 + a1 + a2), a2 / (a0 + a1 + a2),
        ⟨by positivity, by positivity, by positivity, by field_simp⟩, ?_⟩⟩
      have ex := congrArg Vec.x hω
      have ey := congrArg Vec.y hω
      have ez := congrArg Vec.z hω
      simp only [combine, hx, hy, hz, geo] at ex ey ez
      simp only [Ray.at, combine, geo]
      refine ⟨?_, ?_, ?_⟩
      · field_simp; linear_combination ex
      · field_simp; linear_combination ey
      · field_simp; linear_combination ez

/-! ## Light of the sky -/

/-- Matte things without lamps: the light that comes from one surface further is that of the sky. -/
private theorem looks_sky {sky : Vec ℝ → Color ℝ} {things : List (List Body)}
    (hmatte : ∀ b ∈ things.flatten, ∀ q, b.on q → ∃ k, b.look q = .matte k) {p ω : Vec ℝ} {C : Color ℝ}
    (h : LooksAll sky things [] 1 ⟨p, ω⟩ C) : C = fromSky sky things.flatten p ω := by
  unfold fromSky
  rcases h with ⟨b, T, ⟨hb, ⟨hT, hon, -⟩, -⟩, hg⟩ | ⟨hno, rfl⟩
  · rw [if_pos ⟨b, hb, T, hT, hon⟩]
    obtain ⟨k, hk⟩ := hmatte b hb _ hon
    rw [hk] at hg
    obtain ⟨ω', A, B, -, hA, hB, rfl⟩ := hg
    obtain rfl : A = ⟨0, 0, 0⟩ := hA
    obtain rfl : B = ⟨0, 0, 0⟩ := hB
    simp
  · rw [if_neg]
    rintro ⟨b, hb, T, hT, hon⟩
    exact hno b hb T hT hon

/-- **C97, sky light.** Take a scene as in `C95_picture` without lamps, all of whose surfaces are matte, with light followed over two
surfaces; and a pixel where a surface is seen that reflects the fraction `k` of the light. If the sky is mild and the bodies have
outlines then, as the number of passes grows, the pixel tends to `k` times the light that falls on the surface from the parts of
the sky that are not blocked by the bodies. -/
theorem C97_sky (s : Scene Ext) (hm : s.media = []) (hd : s.recursionDepth = 2) (hno : s.lights = [])
    (sky : Option (Vec ℝ → Color ℝ)) (things : List (List Body))
    (hmatte : ∀ b ∈ things.flatten, ∀ q, b.on q → ∃ k, b.look q = .matte k)
    (mR : MildLight fun ω => (skyColor sky ω).R) (mG : MildLight fun ω => (skyColor sky ω).G)
    (mB : MildLight fun ω => (skyColor sky ω).B)
    (V : View) (h0 : 0 < V.fov) (h1 : V.fov < Real.pi) (fov yaw pitch roll : Ext) (eye : Vec Ext) (hf : fov.Is V.fov)
    (hy : yaw.Is V.yaw) (hp : pitch.Is V.pitch) (hr : roll.Is V.roll) (he : eye.Is V.eye) (w h : Nat) (aa : Bool)
    (hs : ∀ p : Pixel, p.1 < w → p.2 < h → Followed sky s.objects things [] 2 (V.sight w h p.1 (sampleRow aa w h p.2)))
    (p : Pixel) (hpx : p.1 < w) (hpy : p.2 < h) (R : Ray ℝ) (hR : R = V.sight w h p.1 (sampleRow aa w h p.2))
    (b : Body) (T : ℝ) (hmeet : Meets things.flatten R b T) (k : Color ℝ) (hlook : b.look (R.at T) = .matte k)
    (hsame : ∀ b', Meets things.flatten R b' T → b'.normal (R.at T) = b.normal (R.at T) ∧ b'.look (R.at T) = b.look (R.at T))
    (n : Vec ℝ) (hn : n = facing (b.normal (R.at T)) R.dir) (P : Vec ℝ) (hP : P = (R.at T).add (n.mul (2 * gap)))
    (hout : ∀ b ∈ things.flatten, b.Outlined P) (e e' : Vec ℝ) (hF : IsFrame e e' n) :
    ∃ cam, Cam.projective fov = .ok cam ∧
      ∀ (rng : Rng Ext S), (∀ st, UnitPair (rng.next2 st).1) →
      ∀ (shifts : List (Ext × Ext)), w * h ≤ shifts.length → (∀ x ∈ shifts, (∃ a, x.1.Is a) ∧ ∃ b, x.2.Is b) →
      ∀ (W : ℕ → ℕ), (∀ N, 0 < W N) → ∀ (seeds : ∀ N, Fin (W N) → S)
        (t : ∀ N, SamplerState Ext (Ctx Ext S) (W N)) (steps : ℕ → ℕ),
        (∀ N, Runs (ctxShader (s.imageFunc rng ((cam.yawPitchRoll yaw pitch roll).translate eye))) w h aa N
          (samplerInit w h (fun i => Ctx.new shifts (seeds N i)) fun _ => Cell.zero) (steps N) (t N)) →
        (∀ N, (t N).done) →
        ∃ I : ℕ → Color ℝ, (∀ N > 0, (((t N).mem p).image).Is (I N)) ∧
          ColorsTend I ⟨k.R * (gathered e e' n (fromSky (skyColor sky) things.flatten P)).R,
            k.G * (gathered e e' n (fromSky (skyColor sky) things.flatten P)).G,
            k.B * (gathered e e' n (fromSky (skyColor sky) things.flatten P)).B⟩ := by
  classical
  obtain ⟨o1, o2⟩ := outlined_list hout
  have mild : ∀ (g : Color ℝ → ℝ), g ⟨0, 0, 0⟩ = 0 → MildLight (fun ω => g (skyColor sky ω)) →
      MildLight fun ω => g (fromSky (skyColor sky) things.flatten P ω) := by
    intro g hg0 hg
    have e : (fun ω => g (fromSky (skyColor sky) things.flatten P ω)) =
        fun ω => if ω ∈ {ω | ∃ b ∈ things.flatten, ω ∈ b.from P} then 0 else g (skyColor sky ω) := by
      funext ω
      unfold fromSky
      by_cases hb : ∃ b ∈ things.flatten, ω ∈ b.from P
      · rw [if_pos hb, if_pos (show ω ∈ {ω | ∃ b ∈ things.flatten, ω ∈ b.from P} from hb), hg0]
      · rw [if_neg hb, if_neg (show ω ∉ {ω | ∃ b ∈ things.flatten, ω ∈ b.from P} from hb)]
    rw [e]
    exact hg.blocked o1 o2
  have key := C97_matte (S := S) s hm hd sky things [] (by rw [hno]; exact .nil) V h0 h1 fov yaw pitch roll eye hf hy hp hr he w h aa
    hs p hpx hpy R hR b T hmeet k hlook hsame n hn ⟨0, 0, 0⟩ (fun A' h => h) (fromSky (skyColor sky) things.flatten P) (by
      intro ω _ C hC
      rw [← hP] at hC
      exact looks_sky hmatte hC) (mild Color.R rfl mR) (mild Color.G rfl mG) (mild Color.B rfl mB) e e' hF
  simpa only [zero_add] using key

/-- Under an even sky, only the share of the sky that is not blocked matters. -/
theorem C97_even (a b n : Vec ℝ) (L : Color ℝ) (bodies : List Body) (p : Vec ℝ) :
    gathered a b n (fromSky (fun _ => L) bodies p) =
      ⟨L.R * skyShare a b n bodies p, L.G * skyShare a b n bodies p, L.B * skyShare a b n bodies p⟩ := by
  classical
  have one : ∀ g : Color ℝ → ℝ, g ⟨0, 0, 0⟩ = 0 →
      cosineMean a b n (fun ω => g (fromSky (fun _ => L) bodies p ω)) = g L * skyShare a b n bodies p := by
    intro g hg
    unfold skyShare cosineMean
    rw [← integral_const_mul]
    congr 1
    funext t
    unfold fromSky
    dsimp only
    by_cases hb : ∃ b' ∈ bodies, direction a b n t.1 t.2 ∈ b'.from p
    · rw [if_pos hb, if_pos hb, hg]; ring
    · rw [if_neg hb, if_neg hb]; ring
  simp only [gathered, one Color.R rfl, one Color.G rfl, one Color.B rfl]

/-- The share is the chance that a direction, chosen as for a matte surface, is free. -/
theorem skyShare_eq {a b n : Vec ℝ} (hF : IsFrame a b n) {bodies : List Body} {p : Vec ℝ} (hout : ∀ b ∈ bodies, b.Outlined p) :
    skyShare a b n bodies p =
      1 - (volume.restrict unitSq).real {q | ∃ b ∈ bodies, cosineSphere q.1 q.2 n ∈ b.from p} := by
  classical
  obtain ⟨o1, o2⟩ := outlined_list hout
  have hmild := (mildLight_of_continuous (continuous_const (y := (1 : ℝ)))).blocked o1 o2
  have hset : MeasurableSet {q : ℝ × ℝ | ∃ b ∈ bodies, cosineSphere q.1 q.2 n ∈ b.from p} :=
    (continuous_cosineSphere hF.nn).measurable o1
  have e : skyShare a b n bodies p = cosineMean a b n fun ω => if ω ∈ {ω | ∃ b ∈ bodies, ω ∈ b.from p} then 0 else (1 : ℝ) := by
    unfold skyShare
    congr 1
  rw [e, ← hmild.mean hF, ← probReal_compl_eq_one_sub hset, ← integral_indicator_one hset.compl]
  congr 1
  funext q
  by_cases hq : ∃ b ∈ bodies, cosineSphere q.1 q.2 n ∈ b.from p
  · rw [if_pos (show _ ∈ {ω | ∃ b ∈ bodies, ω ∈ b.from p} from hq), indicator_of_notMem (show q ∉ _ᶜ from fun h => h hq)]
  · rw [if_neg (show _ ∉ {ω | ∃ b ∈ bodies, ω ∈ b.from p} from hq), indicator_of_mem (show q ∈ _ᶜ from hq)]
    rfl

/-- **C97, open sky.** Where nothing is in the way above a surface, all of the sky is seen. -/
theorem C97_open {a b n : Vec ℝ} (hF : IsFrame a b n) (bodies : List Body) (p : Vec ℝ) (hout : ∀ b ∈ bodies, b.Outlined p)
    (hfree : ∀ b ∈ bodies, ∀ ω, AnyAbove n ω → ω ∉ b.from p) : skyShare a b n bodies p = 1 := by
  rw [skyShare_eq hF hout, measureReal_def, Measure.restrict_apply₀']
  · rw [show {q : ℝ × ℝ | ∃ b ∈ bodies, cosineSphere q.1 q.2 n ∈ b.from p} ∩ unitSq = ∅ from ?_]
    · simp
    · ext q
      simp only [mem_inter_iff, mem_ofPred_eq, mem_empty_iff_false, iff_false, not_and]
      rintro ⟨b', hb', h⟩ hq
      exact hfree b' hb' _ (unit_above hq.2.1 hq.2.2.le hF.nn) h
  · exact (measurableSet_Ico.prod measurableSet_Ico).nullMeasurableSet

/-- **C97, overhead.** A ball of diameter `X` whose centre is at a distance `H` straight above a surface blocks the share
`(X / 2 / H)²` of an even sky, if nothing else is in the way. -/
theorem C97_overhead {a b n : Vec ℝ} (hF : IsFrame a b n) (X H : ℝ) (hX : 0 < X) (hH : X / 2 < H) (p : Vec ℝ)
    (look : Vec ℝ → Surface) (bodies : List Body) (hmem : ballBody X (p.add (n.mul H)) look ∈ bodies)
    (hout : ∀ b ∈ bodies, b.Outlined p)
    (hfree : ∀ b ∈ bodies, ∀ ω, AnyAbove n ω → ω ∈ b.from p → ω ∈ (ballBody X (p.add (n.mul H)) look).from p) :
    skyShare a b n bodies p = 1 - (X / 2 / H) ^ 2 := by
  have hn := hF.nn
  have hH0 : 0 < H := by linarith
  set r := X / 2 with hr
  have hr0 : 0 < r := by rw [hr]; linarith
  -- which directions are blocked
  have hblock : ∀ ω : Vec ℝ, AnyAbove n ω →
      (ω ∈ (ballBody X (p.add (n.mul H)) look).from p ↔ H ^ 2 - r ^ 2 ≤ H ^ 2 * (ω.dot n) ^ 2) := by
    rintro ω ⟨hu, hup⟩
    have hdist : ∀ T, (ballBody X (p.add (n.mul H)) look).on ((⟨p, ω⟩ : Ray ℝ).at T) ↔
        T ^ 2 - 2 * H * ω.dot n * T + (H ^ 2 - r ^ 2) = 0 := by
      intro T
      show AtDistance _ _ _ ↔ _
      rw [AtDistance, ← hr, and_iff_left hr0.le, ← sub_eq_zero]
      simp only [Ray.at, Vec.madd, Vec.add, Vec.mul, Vec.dot] at hu hn ⊢
      constructor <;> intro h
      · linear_combination h - T ^ 2 * hu - H ^ 2 * hn
      · linear_combination h + T ^ 2 * hu + H ^ 2 * hn
    constructor
    · rintro ⟨T, hT, h⟩
      have e := (hdist T).1 h
      nlinarith [sq_nonneg (T - H * ω.dot n)]
    · intro h
      have hs := Real.sq_sqrt (sub_nonneg.2 h)
      have hpos : 0 < H ^ 2 - r ^ 2 := by nlinarith
      have hup' : 0 < ω.dot n := by
        refine lt_of_le_of_ne hup fun h0 => ?_
        rw [← h0] at h
        norm_num at h
        linarith
      refine ⟨H * ω.dot n + Real.sqrt (H ^ 2 * (ω.dot n) ^ 2 - (H ^ 2 - r ^ 2)), ?_, (hdist _).2 ?_⟩
      · have := Real.sqrt_nonneg (H ^ 2 * (ω.dot n) ^ 2 - (H ^ 2 - r ^ 2))
        have : 0 < H * ω.dot n := mul_pos hH0 hup'
        linarith
      · linear_combination hs
  set t := Real.arcsin (r / H) with ht
  have hq1 : r / H < 1 := (div_lt_one hH0).2 hH
  have hq0 : 0 < r / H := div_pos hr0 hH0
  have hsin : Real.sin t = r / H := Real.sin_arcsin (by linarith) hq1.le
  have ht0 : 0 ≤ t := Real.arcsin_nonneg.2 hq0.le
  have ht1 : t ≤ Real.pi / 2 := Real.arcsin_le_pi_div_two _
  have hcos : 0 ≤ Real.cos t := Real.cos_nonneg_of_mem_Icc ⟨by linarith [Real.pi_pos], ht1⟩
  have hcs : H ^ 2 - r ^ 2 = H ^ 2 * Real.cos t ^ 2 := by
    have := Real.sin_sq_add_cos_sq t
    rw [hsin] at this
    field_simp at this
    linarith
  have hiff : ∀ ω : Vec ℝ, AnyAbove n ω → ((∃ b ∈ bodies, ω ∈ b.from p) ↔ Real.cos t ≤ ω.dot n) := by
    intro ω hω
    have h1 : (∃ b ∈ bodies, ω ∈ b.from p) ↔ ω ∈ (ballBody X (p.add (n.mul H)) look).from p :=
      ⟨fun ⟨b, hb, h⟩ => hfree b hb ω hω h, fun h => ⟨_, hmem, h⟩⟩
    rw [h1, hblock ω hω, hcs, mul_le_mul_iff_right₀ (by positivity)]
    exact pow_le_pow_iff_left₀ hcos hω.2 two_ne_zero
  have hne : n ≠ ⟨0, 0, 0⟩ := by
    intro h
    rw [h] at hn
    simp [Vec.dot] at hn
  have hms : MeasurableSet unitSq := measurableSet_Ico.prod measurableSet_Ico
  rw [skyShare_eq hF hout]
  congr 1
  have hae : {q : ℝ × ℝ | ∃ b ∈ bodies, cosineSphere q.1 q.2 n ∈ b.from p} =ᵐ[volume.restrict unitSq]
      {q : ℝ × ℝ | Real.cos t < (cosineSphere q.1 q.2 n).dot n} := by
    have h0 := chance_of_noArea (isClosed_eq (continuous_dot n) continuous_const).measurableSet (noArea_plane hne (Real.cos t)) hn
    filter_upwards [h0, ae_restrict_mem hms] with q hq hmem
    have habove : AnyAbove n (cosineSphere q.1 q.2 n) := unit_above hmem.2.1 hmem.2.2.le hn
    have hq : n.dot (cosineSphere q.1 q.2 n) ≠ Real.cos t := hq
    rw [show n.dot (cosineSphere q.1 q.2 n) = (cosineSphere q.1 q.2 n).dot n by simp only [Vec.dot]; ring] at hq
    refine propext ((hiff _ habove).trans ?_)
    exact ⟨fun h => lt_of_le_of_ne h (Ne.symm hq), fun h => le_of_lt h⟩
  rw [measureReal_congr hae, measureReal_def, Measure.restrict_apply' hms]
  have := C76_angle n hn t ht0 ht1
  rw [chance, show {p | p ∈ unitSq ∧ Real.cos t < (cosineSphere p.1 p.2 n).dot n} =
    {q : ℝ × ℝ | Real.cos t < (cosineSphere q.1 q.2 n).dot n} ∩ unitSq by ext q; exact and_comm, hsin] at this
  rw [this, ENNReal.toReal_ofReal (sq_nonneg _)]

/-! ## A floor under the sky -/

/-- **C97, floors.** Take a scene as in `C96_picture` of a matte floor, matte balls and a continuous sky, without lamps, with light
followed over two surfaces. At a pixel where a surface is seen that reflects the fraction `k` of the light, and no other at the
same place, the picture tends to `k` times the light that falls on the surface from the sky that is not blocked. -/
theorem C97_floor (St : Sorter (Obj Ext (Mat Ext))) (s : Scene Ext) (hmed : s.media = []) (hd : s.recursionDepth = 2)
    (hno : s.lights = []) (m : Mat Ext) (look : Vec ℝ → Surface) (hm : ∀ p P, p.Is P → m.Appears p (look P)) (wid dep : Ext)
    (W D : ℝ) (hwid : wid.Is W) (hdep : dep.Is D) (hW : 0 < W) (hD : 0 < D) (c : Vec Ext) (C : Vec ℝ) (hc : c.Is C)
    (hreach : ∀ p, (rectBody W D C look).on p → InReach p) (floor : Obj Ext (Mat Ext))
    (hfloor : rectangle St (some m) wid dep c = .ok floor) (col : Vec ℝ → Color ℝ) (hsky : ∃ o ∈ s.objects, IsSky col o)
    (cR : Continuous fun ω => (col ω).R) (cG : Continuous fun ω => (col ω).G) (cB : Continuous fun ω => (col ω).B)
    (things : List (List Body)) (hobj : List.Forall₂ (AroundFloor W D C look col floor) s.objects things)
    (hballs : ∀ b ∈ things.flatten, b = rectBody W D C look ∨ ∃ X Q look', 0 < X ∧ b = ballBody X Q look')
    (hmatte : ∀ b ∈ things.flatten, ∀ q, b.on q → ∃ k, b.look q = .matte k)
    (V : View) (h0 : 0 < V.fov) (h1 : V.fov < Real.pi) (heye : OffRect 0 W D C V.eye) (hnear : InReach V.eye)
    (fov yaw pitch roll : Ext) (eye : Vec Ext) (hf : fov.Is V.fov)
    (hy : yaw.Is V.yaw) (hp : pitch.Is V.pitch) (hr : roll.Is V.roll) (he : eye.Is V.eye) (w h : Nat) (aa : Bool)
    (p : Pixel) (hpx : p.1 < w) (hpy : p.2 < h) (R : Ray ℝ) (hR : R = V.sight w h p.1 (sampleRow aa w h p.2))
    (b : Body) (T : ℝ) (hmeet : Meets things.flatten R b T) (k : Color ℝ) (hlook : b.look (R.at T) = .matte k)
    (hsame : ∀ b', Meets things.flatten R b' T → b'.normal (R.at T) = b.normal (R.at T) ∧ b'.look (R.at T) = b.look (R.at T))
    (n : Vec ℝ) (hn : n = facing (b.normal (R.at T)) R.dir) (P : Vec ℝ) (hP : P = (R.at T).add (n.mul (2 * gap)))
    (e e' : Vec ℝ) (hF : IsFrame e e' n) :
    ∃ cam, Cam.projective fov = .ok cam ∧
      ∀ (rng : Rng Ext S), (∀ st, UnitPair (rng.next2 st).1) →
      ∀ (shifts : List (Ext × Ext)), w * h ≤ shifts.length → (∀ x ∈ shifts, (∃ a, x.1.Is a) ∧ ∃ b, x.2.Is b) →
      ∀ (W : ℕ → ℕ), (∀ N, 0 < W N) → ∀ (seeds : ∀ N, Fin (W N) → S)
        (t : ∀ N, SamplerState Ext (Ctx Ext S) (W N)) (steps : ℕ → ℕ),
        (∀ N, Runs (ctxShader (s.imageFunc rng ((cam.yawPitchRoll yaw pitch roll).translate eye))) w h aa N
          (samplerInit w h (fun i => Ctx.new shifts (seeds N i)) fun _ => Cell.zero) (steps N) (t N)) →
        (∀ N, (t N).done) →
        ∃ I : ℕ → Color ℝ, (∀ N > 0, (((t N).mem p).image).Is (I N)) ∧
          ColorsTend I ⟨k.R * (gathered e e' n (fromSky col things.flatten P)).R,
            k.G * (gathered e e' n (fromSky col things.flatten P)).G,
            k.B * (gathered e e' n (fromSky col things.flatten P)).B⟩ := by
  have hg : 0 < gap := by unfold gap; norm_num
  obtain ⟨o, eo, hpres⟩ := C96_rectangle St m look hm wid dep W D hwid hdep hW hD c C hc
  rw [hfloor] at eo
  cases eo
  -- the point above the surface is not in the plane of the floor
  have hPy : P.y ≠ C.y := by
    have hnn := hF.nn
    obtain ⟨hb, ⟨-, hon, -⟩, -⟩ := hmeet
    obtain ⟨th, hth, hb⟩ := List.mem_flatten.1 hb
    obtain ⟨o, -, hcase⟩ := forall₂_right hobj th hth
    have eP : P.y = (R.at T).y + n.y * (2 * gap) := by rw [hP]; simp only [geo]; ring
    rcases hcase with ⟨-, rfl⟩ | ⟨rfl, -⟩ | ⟨-, hc⟩
    · rw [List.mem_singleton] at hb
      subst hb
      have hy := hon.1
      have hny : n.y = 1 ∨ n.y = -1 := by
        rw [hn]
        unfold facing
        split_ifs
        · exact .inr rfl
        · exact .inl rfl
      rw [eP, hy]
      rcases hny with h | h <;> rw [h] <;> intro h' <;> linarith
    · cases hb
    · obtain ⟨-, ⟨hy, -, -⟩, -⟩ := hc b hb _ hon
      intro h'
      have hny : |n.y| ≤ 1 := by
        simp only [Vec.dot] at hnn
        exact abs_le_of_sq_le_sq (by nlinarith [mul_self_nonneg n.x, mul_self_nonneg n.z]) (by norm_num)
      rw [show (R.at T).y - C.y = -(n.y * (2 * gap)) by rw [← h', eP]; ring, abs_neg, abs_mul,
        abs_of_pos (show 0 < 2 * gap by linarith)] at hy
      nlinarith
  refine C97_sky s hmed hd hno (some col) things hmatte (mildLight_of_continuous cR) (mildLight_of_continuous cG)
    (mildLight_of_continuous cB) V h0 h1 fov yaw pitch roll eye hf hy hp hr he w h aa ?_ p hpx hpy R hR b T hmeet k hlook hsame n hn P hP
    ?_ e e' hF
  · intro p _ _
    refine followed_floor hpres hreach hobj hsky (fun _ _ L hL => by cases hL) (fun L hL => by cases hL) _ _
      (sight_unit V w h _ _) ?_ ?_
    · obtain ⟨k1, k2, k3⟩ := heye
      refine ⟨fun e => ?_, .inl ⟨fun _ e => ?_, fun _ e => ?_⟩⟩
      · change V.eye.y = C.y at e
        rw [e, sub_self, abs_zero] at k1
        exact lt_irrefl _ k1
      · change |V.eye.x - C.x| = W / 2 at e
        rw [e, sub_self, abs_zero] at k2
        exact lt_irrefl _ k2
      · change |V.eye.z - C.z| = D / 2 at e
        rw [e, sub_self, abs_zero] at k3
        exact lt_irrefl _ k3
    · obtain ⟨r1, r2, r3⟩ := hnear
      have big : (10 : ℝ) ^ 98 ≤ 2 * 10 ^ 98 := by norm_num
      exact ⟨r1.trans big, r2.trans big, r3.trans big⟩
  · intro b' hb'
    rcases hballs b' hb' with rfl | ⟨X, Q, look', hX, rfl⟩
    · exact C97_rectangle W D C look P hPy
    · exact C97_ball X hX Q look' P

/-! ## Non-vacuity -/

private theorem e0 : (lit 0 : Ext).Is 0 := by simpa using Ext.Is.lit 0
private theorem e1 : (lit 1 : Ext).Is 1 := by simpa using Ext.Is.lit 1
private theorem e2 : (lit 2 : Ext).Is 2 := by simpa using Ext.Is.lit 2
private theorem e5 : (lit 5 : Ext).Is 5 := by simpa using Ext.Is.lit 5
private theorem e10 : (lit 10 : Ext).Is 10 := by simpa using Ext.Is.lit 10
private theorem fin_is' (q : ℝ) : (Ext.fin q).Is q := ⟨false, rfl⟩

private noncomputable def chalk : Mat Ext := .matte fun _ => .ok ⟨lit 1, lit 1, lit 1⟩

/-- A chalk floor, a chalk ball above it, and a white sky. -/
private noncomputable def yard (floor : Obj Ext (Mat Ext)) : Scene Ext where
  lights := []
  objects := [floor, Obj.sphere (some chalk) (lit 2) ⟨lit 0, lit 5, lit 0⟩,
    .backdrop (some (.flat fun _ => .ok ⟨lit 1, lit 1, lit 1⟩))]
  media := []
  recursionDepth := 2

private noncomputable def yardFloor : Body := rectBody 10 10 ⟨0, -1, 0⟩ fun _ => .matte ⟨1, 1, 1⟩

private noncomputable def yardBall : Body := ballBody 2 ⟨0, 5, 0⟩ fun _ => .matte ⟨1, 1, 1⟩

private noncomputable def yardThings : List (List Body) := [[yardFloor], [yardBall], []]

/-- Between the floor and the ball, looking down. -/
private noncomputable def yardView : View := ⟨Real.pi / 2, 0, -(Real.pi / 2), 0, ⟨0, 0, 0⟩⟩

private theorem yard_sight : yardView.sight 1 1 0 (sampleRow false 1 1 0) = ⟨⟨0, 0, 0⟩, ⟨0, -1, 0⟩⟩ := by
  have tan4 : Real.tan (Real.pi / 2 / 2) = 1 := by
    rw [show Real.pi / 2 / 2 = Real.pi / 4 by ring, Real.tan_pi_div_four]
  simp only [View.sight, yardView, turned, rodrigues, pixelDir, tan4, unitVec, sampleRow]
  norm_num [geo]

private theorem yard_mem {b : Body} : b ∈ yardThings.flatten ↔ b = yardFloor ∨ b = yardBall := by
  simp [yardThings]

/-- The hypotheses of `C97_floor`, `C97_even` and `C97_overhead` are met by a chalk floor below a chalk ball under a white sky:
straight below the ball, at a distance of nearly six radii, the picture of the floor tends to `1 - 1 / (6 - 2 gap)²`. -/
example (St : Sorter (Obj Ext (Mat Ext))) : ∃ floor,
    rectangle St (some chalk) (lit 10) (lit 10) ⟨lit 0, Ext.fin (-1), lit 0⟩ = .ok floor ∧
    ∃ cam, Cam.projective (Ext.fin (Real.pi / 2)) = .ok cam ∧
      ∀ (rng : Rng Ext S), (∀ st, UnitPair (rng.next2 st).1) →
      ∀ (shifts : List (Ext × Ext)), 1 * 1 ≤ shifts.length → (∀ x ∈ shifts, (∃ a, x.1.Is a) ∧ ∃ b, x.2.Is b) →
      ∀ (W : ℕ → ℕ), (∀ N, 0 < W N) → ∀ (seeds : ∀ N, Fin (W N) → S)
        (t : ∀ N, SamplerState Ext (Ctx Ext S) (W N)) (steps : ℕ → ℕ),
        (∀ N, Runs (ctxShader ((yard floor).imageFunc rng
            ((cam.yawPitchRoll (Ext.fin 0) (Ext.fin (-(Real.pi / 2))) (Ext.fin 0)).translate ⟨lit 0, lit 0, lit 0⟩))) 1 1 false N
          (samplerInit 1 1 (fun i => Ctx.new shifts (seeds N i)) fun _ => Cell.zero) (steps N) (t N)) →
        (∀ N, (t N).done) →
        ∃ I : ℕ → Color ℝ, (∀ N > 0, (((t N).mem (0, 0)).image).Is (I N)) ∧
          ColorsTend I ⟨1 - (1 / (6 - 2 * gap)) ^ 2, 1 - (1 / (6 - 2 * gap)) ^ 2, 1 - (1 / (6 - 2 * gap)) ^ 2⟩ := by
  have g0 : 0 < gap := by unfold gap; norm_num
  have g1 : gap < 1 / 100 := by unfold gap; norm_num
  obtain ⟨floor, ef, -⟩ := C96_rectangle St chalk (fun _ => .matte ⟨1, 1, 1⟩)
    (fun _ _ _ => .matte rfl ⟨e1, e1, e1⟩) (lit 10) (lit 10) 10 10 e10 e10 (by norm_num) (by norm_num)
    ⟨lit 0, Ext.fin (-1), lit 0⟩ ⟨0, -1, 0⟩ ⟨e0, fin_is' _, e0⟩
  refine ⟨floor, ef, ?_⟩
  have big : (5 : ℝ) ≤ 10 ^ 98 := by norm_num
  have sky : IsSky (fun _ => ⟨1, 1, 1⟩) (.backdrop (some (.flat fun _ => .ok ⟨lit 1, lit 1, lit 1⟩))) :=
    ⟨_, rfl, fun _ _ _ => ⟨_, rfl, e1, e1, e1⟩⟩
  have hfac : facing ⟨0, 1, 0⟩ ⟨0, -1, 0⟩ = ⟨0, 1, 0⟩ := by
    unfold facing
    rw [if_neg]
    simp only [geo]; norm_num
  have hat : (⟨⟨0, 0, 0⟩, ⟨0, -1, 0⟩⟩ : Ray ℝ).at 1 = ⟨0, -1, 0⟩ := by simp only [geo]; norm_num
  have hfloor1 : yardFloor.on ((⟨⟨0, 0, 0⟩, ⟨0, -1, 0⟩⟩ : Ray ℝ).at 1) := by
    rw [hat]
    simp only [yardFloor, rectBody]
    norm_num
  have noball : ∀ T > 0, ¬ yardBall.on ((⟨⟨0, 0, 0⟩, ⟨0, -1, 0⟩⟩ : Ray ℝ).at T) := by
    intro T hT h
    have := (show AtDistance _ _ _ from h).1
    simp only [geo, Ray.at, Vec.madd] at this
    nlinarith
  have onlyfloor : ∀ T, yardFloor.on ((⟨⟨0, 0, 0⟩, ⟨0, -1, 0⟩⟩ : Ray ℝ).at T) → T = 1 := by
    intro T h
    have := h.1
    simp only [Ray.at, Vec.madd] at this
    linarith
  have hmeet : Meets yardThings.flatten ⟨⟨0, 0, 0⟩, ⟨0, -1, 0⟩⟩ yardFloor 1 := by
    refine ⟨yard_mem.2 (.inl rfl), ⟨one_pos, hfloor1, fun T' _ h => (onlyfloor T' h).ge⟩, ?_⟩
    intro b hb T' hT' hon
    rcases yard_mem.1 hb with rfl | rfl
    · exact (onlyfloor T' hon).ge
    · exact absurd hon (noball T' hT')
  have hF : IsFrame ⟨1, 0, 0⟩ ⟨0, 0, 1⟩ ⟨0, 1, 0⟩ := by
    constructor <;> simp [Vec.dot]
  have key := C97_floor (S := S) St (yard floor) rfl rfl rfl chalk (fun _ => .matte ⟨1, 1, 1⟩)
    (fun _ _ _ => .matte rfl ⟨e1, e1, e1⟩) (lit 10) (lit 10) 10 10 e10 e10 (by norm_num) (by norm_num)
    ⟨lit 0, Ext.fin (-1), lit 0⟩ ⟨0, -1, 0⟩ ⟨e0, fin_is' _, e0⟩ (by
      rintro p ⟨h1, h2, h3⟩
      simp only [sub_zero] at h2 h3
      exact ⟨by linarith, by rw [h1]; norm_num, by linarith⟩) floor ef (fun _ => ⟨1, 1, 1⟩) ⟨_, by simp [yard], sky⟩
    continuous_const continuous_const continuous_const yardThings (by
      refine .cons (.inl ⟨rfl, rfl⟩) (.cons ?_ (.cons (.inr (.inl ⟨rfl, sky⟩)) .nil))
      refine C96_sphere _ _ (fun _ _ _ => .matte rfl ⟨e1, e1, e1⟩) _ 2 e2 (by norm_num) _ ⟨0, 5, 0⟩ ⟨e0, e5, e0⟩ _ _ _ _ _
        _ ⟨?_, ?_, ?_⟩ ⟨?_, ?_, ?_⟩
      · norm_num; linarith
      · norm_num; linarith
      · norm_num; linarith
      all_goals norm_num) (by
      intro b hb
      rcases yard_mem.1 hb with rfl | rfl
      · exact .inl rfl
      · exact .inr ⟨2, _, _, by norm_num, rfl⟩) (by
      intro b hb q _
      rcases yard_mem.1 hb with rfl | rfl <;> exact ⟨_, rfl⟩) yardView
    (by simp only [yardView]; positivity) (by simp only [yardView]; linarith [Real.pi_pos]) (by norm_num [OffRect, yardView])
    (by simp [InReach, yardView]) (Ext.fin (Real.pi / 2)) (Ext.fin 0) (Ext.fin (-(Real.pi / 2))) (Ext.fin 0) ⟨lit 0, lit 0, lit 0⟩
    (fin_is' _) (fin_is' _) (fin_is' _) (fin_is' _) ⟨e0, e0, e0⟩ 1 1 false (0, 0) (by norm_num) (by norm_num)
    ⟨⟨0, 0, 0⟩, ⟨0, -1, 0⟩⟩ (by simp only [Nat.cast_zero]; exact yard_sight.symm) yardFloor 1 hmeet ⟨1, 1, 1⟩ rfl (by
      intro b' hb'
      rcases yard_mem.1 hb'.1 with rfl | rfl
      · exact ⟨rfl, rfl⟩
      · exact absurd hb'.2.1.2.1 (noball 1 one_pos)) ⟨0, 1, 0⟩ hfac.symm ⟨0, 2 * gap - 1, 0⟩ (by
      rw [hat]; simp only [geo]; refine ⟨by norm_num, by ring, by norm_num⟩) ⟨1, 0, 0⟩ ⟨0, 0, 1⟩ hF
  have hshare : skyShare ⟨1, 0, 0⟩ ⟨0, 0, 1⟩ ⟨0, 1, 0⟩ yardThings.flatten ⟨0, 2 * gap - 1, 0⟩ = 1 - (1 / (6 - 2 * gap)) ^ 2 := by
    have hc : (⟨0, 2 * gap - 1, 0⟩ : Vec ℝ).add ((⟨0, 1, 0⟩ : Vec ℝ).mul (6 - 2 * gap)) = ⟨0, 5, 0⟩ := by
      simp only [geo]; refine ⟨by norm_num, by ring, by norm_num⟩
    have := C97_overhead hF 2 (6 - 2 * gap) (by norm_num) (by linarith) ⟨0, 2 * gap - 1, 0⟩ (fun _ => .matte ⟨1, 1, 1⟩)
      yardThings.flatten (by rw [hc]; exact yard_mem.2 (.inr rfl)) (by
        intro b hb
        rcases yard_mem.1 hb with rfl | rfl
        · exact C97_rectangle _ _ _ _ _ (by intro h; simp only at h; linarith)
        · exact C97_ball _ (by norm_num) _ _ _) (by
        rintro b hb ω ⟨-, hup⟩ hfrom
        rw [hc]
        rcases yard_mem.1 hb with rfl | rfl
        · exfalso
          obtain ⟨T, hT, h, -, -⟩ := hfrom
          simp only [Ray.at, Vec.madd] at h
          simp only [Vec.dot] at hup
          nlinarith
        · exact hfrom)
    rw [this]
    norm_num
  rw [C97_even, hshare] at key
  simpa only [one_mul] using key

/-- `C97_triangle`: a triangle in the plane `z = 1`, seen from the origin. -/
example : (⟨InTriangle ⟨0, 0, 1⟩ ⟨1, 0, 1⟩ ⟨0, 1, 1⟩, fun _ => ⟨0, 0, 1⟩, fun _ => .matte ⟨1, 1, 1⟩⟩ : Body).Outlined ⟨0, 0, 0⟩ :=
  C97_triangle ⟨0, 0, 1⟩ ⟨1, 0, 1⟩ ⟨0, 1, 1⟩ _ (fun _ => Iff.rfl) _ (by norm_num [triNormal, geo])

/-- `C97_open`: above a floor. -/
example : skyShare ⟨1, 0, 0⟩ ⟨0, 0, 1⟩ ⟨0, 1, 0⟩ [yardFloor] ⟨0, 0, 0⟩ = 1 := by
  refine C97_open (by constructor <;> simp [Vec.dot]) _ _ ?_ ?_ <;> intro b hb <;> rw [List.mem_singleton] at hb <;> subst hb
  · exact C97_rectangle _ _ _ _ _ (by norm_num)
  · rintro ω ⟨-, hup⟩ ⟨T, hT, h, -, -⟩
    simp only [Ray.at, Vec.madd] at h
    simp only [Vec.dot] at hup
    nlinarith

end BR
