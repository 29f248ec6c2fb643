import Verif.Lemmas.TameShare
import Verif.Props.C03_Schedule
import Mathlib.Data.List.Forall2

/-!
C78: more passes converge. The means over the passes of a pixel tend to the means over all random choices: for the pairs
drawn at the first two depths, for the light of lamps, and for the pictures of the sampler.
-/

namespace BR

open MeasureTheory Filter Topology Set

/-- The pairs of a pixel: the mean over the passes of any tame quantity tends to its integral over the unit square,
whatever the shift of the pixel. -/
theorem C78_pairs (s : HaltonSeq ℝ) (hu : 2 ≤ s.baseU) (hv : 2 ≤ s.baseV) (hco : Nat.Coprime s.baseU s.baseV)
    (pixel : ℕ) (pair : ℕ → ℝ × ℝ) (hp : ∀ n, GivesPair s pixel n (pair n)) (f : ℝ × ℝ → ℝ) (hf : Tame unitSq f) :
    Tendsto (mean fun n => f (pair n)) atTop (𝓝 (∫ uv in unitSq, f uv)) := by
  have hlt : pixel < s.shifts.length := by
    obtain ⟨s', h1, -⟩ := hp 0
    exact (C10_init s pixel 0).1 ⟨s', h1⟩
  have e : pair = fun n => (Int.fract (radInv s.baseU (n + 1) + s.shifts[pixel].1),
      Int.fract (radInv s.baseV (n + 1) + s.shifts[pixel].2)) := by
    funext n
    obtain ⟨s', h1, h2⟩ := hp n
    have h3 := C10_value s s' hu hv pixel n _ _ (List.getElem?_eq_getElem hlt) h1
    rw [h2, Except.ok.injEq] at h3
    exact h3
  rw [e]
  exact tendsto_pair hu hv hco _ _ f hf

/-- In how many of the passes the pair has a property: the share tends to the chance. -/
theorem C78_chance (s : HaltonSeq ℝ) (hu : 2 ≤ s.baseU) (hv : 2 ≤ s.baseV) (hco : Nat.Coprime s.baseU s.baseV)
    (pixel : ℕ) (pair : ℕ → ℝ × ℝ) (hp : ∀ n, GivesPair s pixel n (pair n)) (E : ℝ × ℝ → Prop) [DecidablePred E]
    (hE : MeasurableSet {p | E p}) (h0 : volume (unitSq ∩ frontier {p | E p}) = 0) :
    Tendsto (fun N : ℕ => (((Finset.range N).filter fun n => E (pair n)).card : ℝ) / N) atTop (𝓝 (chance E).toReal) := by
  have h := C78_pairs s hu hv hco pixel pair hp _ (tame_indicator hE h0)
  rw [setIntegral_indicator hE, setIntegral_const, smul_eq_mul, mul_one] at h
  have e1 : volume.real (unitSq ∩ {p | E p}) = (chance E).toReal := rfl
  rw [e1] at h
  refine h.congr fun N => ?_
  rw [mean, Finset.card_filter]
  push_cast
  congr 1
  refine Finset.sum_congr rfl fun n _ => ?_
  by_cases hn : E (pair n)
  · rw [if_pos hn, indicator_of_mem (by exact hn)]
  · rw [if_neg hn, indicator_of_notMem (by exact hn)]

/-- What the sampler's contexts keep: the sequences of `NewCtx`. -/
private def Kept {S : Type} (shifts : List (ℝ × ℝ)) (c : Ctx ℝ S) : Prop :=
  (c.seq1.baseU = 2 ∧ c.seq1.baseV = 3 ∧ c.seq1.shifts = shifts) ∧
  (c.seq2.baseU = 5 ∧ c.seq2.baseV = 7 ∧ c.seq2.shifts = shifts) ∧ c.seqL.shifts = shifts ∧
  c.aa = .new 2 3 1 shifts

private theorem kept_new {S : Type} (shifts : List (ℝ × ℝ)) (seed : S) : Kept shifts (Ctx.new shifts seed) :=
  ⟨⟨rfl, rfl, rfl⟩, ⟨rfl, rfl, rfl⟩, rfl, rfl⟩

private theorem kept_init {S : Type} {shifts : List (ℝ × ℝ)} {c : Ctx ℝ S} (hc : Kept shifts c) (pixel n : ℕ)
    (hp : pixel < shifts.length) :
    ∃ c', c.init pixel n = .ok c' ∧ Kept shifts c' ∧ c'.seq1.generate2 = .ok (pathPairs shifts[pixel] n).1 ∧
      c'.seq2.generate2 = .ok (pathPairs shifts[pixel] n).2 := by
  obtain ⟨⟨h1, h2, h3⟩, ⟨h4, h5, h6⟩, h7, h8⟩ := hc
  have e1 : c.seq1.shifts[pixel]? = some (shifts[pixel].1, shifts[pixel].2) := by rw [h3]; exact List.getElem?_eq_getElem hp
  have e2 : c.seq2.shifts[pixel]? = some (shifts[pixel].1, shifts[pixel].2) := by rw [h6]; exact List.getElem?_eq_getElem hp
  have eL : c.seqL.shifts[pixel]? = some (shifts[pixel].1, shifts[pixel].2) := by rw [h7]; exact List.getElem?_eq_getElem hp
  have i1 : c.seq1.init pixel n = .ok { c.seq1 with shiftU := shifts[pixel].1, shiftV := shifts[pixel].2, index := n } := by
    rw [HaltonSeq.init, e1]
  have i2 : c.seq2.init pixel n = .ok { c.seq2 with shiftU := shifts[pixel].1, shiftV := shifts[pixel].2, index := n } := by
    rw [HaltonSeq.init, e2]
  have iL : c.seqL.init pixel n = .ok { c.seqL with shiftU := shifts[pixel].1, shiftV := shifts[pixel].2, index := n } := by
    rw [HaltonSeq.init, eL]
  have hi : c.init pixel n = .ok { c with
      seq1 := { c.seq1 with shiftU := shifts[pixel].1, shiftV := shifts[pixel].2, index := n }
      seq2 := { c.seq2 with shiftU := shifts[pixel].1, shiftV := shifts[pixel].2, index := n }
      seqL := { c.seqL with shiftU := shifts[pixel].1, shiftV := shifts[pixel].2, index := n } } := by
    rw [Ctx.init, i1, i2, iL]; rfl
  refine ⟨_, hi, ⟨⟨h1, h2, h3⟩, ⟨h4, h5, h6⟩, h7, h8⟩, ?_, ?_⟩
  · have := C10_value _ _ (by rw [h1]) (by rw [h2]; norm_num) pixel n _ _ e1 i1
    rw [h1, h2] at this
    exact this
  · have := C10_value _ _ (by rw [h4]; norm_num) (by rw [h5]; norm_num) pixel n _ _ e2 i2
    rw [h4, h5] at this
    exact this

/-- The pairs of the first two depths of a path together: they are independent in the limit. The context is as the sampler
creates it and initialises it for a pixel and the passes. -/
theorem C78_two_depths {S : Type} (rng : Rng ℝ S) (shifts : List (ℝ × ℝ)) (seed : S) (pixel : ℕ) (c : ℕ → Ctx ℝ S)
    (hc : ∀ n, (Ctx.new shifts seed).init pixel n = .ok (c n)) (p q : ℕ → ℝ × ℝ)
    (hp : ∀ n, ∃ c', Ctx.generate2 rng { c n with depth := 1 } = .ok (p n, c'))
    (hq : ∀ n, ∃ c', Ctx.generate2 rng { c n with depth := 2 } = .ok (q n, c'))
    (f : (ℝ × ℝ) × (ℝ × ℝ) → ℝ) (hf : Tame (unitSq ×ˢ unitSq) f) :
    Tendsto (mean fun n => f (p n, q n)) atTop (𝓝 (∫ x in unitSq ×ˢ unitSq, f x)) := by
  have hlt : pixel < shifts.length := by
    by_contra hlt
    have h := hc 0
    rw [Ctx.init] at h
    have e : (Ctx.new shifts seed).seq1.init pixel 0 = .error .indexOutOfRange := by
      have : (Ctx.new shifts seed).seq1.shifts[pixel]? = none := List.getElem?_eq_none (by simpa [Ctx.new, HaltonSeq.new] using hlt)
      rw [HaltonSeq.init, this]
    rw [e] at h
    cases h
  have e : ∀ n, (p n, q n) = pathPairs shifts[pixel] n := by
    intro n
    obtain ⟨c', h1, -, h2, h3⟩ := kept_init (kept_new shifts seed) pixel n hlt
    rw [hc n, Except.ok.injEq] at h1
    rw [← h1] at h2 h3
    obtain ⟨_, hp'⟩ := hp n
    obtain ⟨_, hq'⟩ := hq n
    have e1 : Ctx.generate2 rng { c n with depth := 1 } = .ok ((pathPairs shifts[pixel] n).1, { c n with depth := 1 }) := by
      simp only [Ctx.generate2]
      rw [if_neg (by norm_num), if_pos trivial, h2]; rfl
    have e2 : Ctx.generate2 rng { c n with depth := 2 } = .ok ((pathPairs shifts[pixel] n).2, { c n with depth := 2 }) := by
      simp only [Ctx.generate2]
      rw [if_neg (by norm_num), if_neg (by norm_num), if_pos trivial, h3]; rfl
    rw [e1, Except.ok.injEq, Prod.mk.injEq] at hp'
    rw [e2, Except.ok.injEq, Prod.mk.injEq] at hq'
    exact Prod.ext hp'.1.symm hq'.1.symm
  simp only [e]
  exact tendsto_pathPairs _ f hf

/-- An image function whose colours are determined by the position in the picture and the pairs of the first two depths:
paths of at most two random choices. It may use the context in any way that leaves the sequences as they were. -/
def UsesPairs {S : Type} (f : Ctx ℝ S → ℝ → ℝ → GoM (Color ℝ × Ctx ℝ S))
    (col : ℝ → ℝ → (ℝ × ℝ) × (ℝ × ℝ) → Color ℝ) : Prop :=
  ∀ c x y uv uv', c.seq1.generate2 = .ok uv → c.seq2.generate2 = .ok uv' → ∃ c', f c x y = .ok (col x y (uv, uv'), c') ∧
    c'.seq1 = c.seq1 ∧ c'.seq2 = c.seq2 ∧ c'.seqL = c.seqL ∧ c'.aa = c.aa

/-- Pictures converge: whatever the number of workers and their schedules, the pixel of the picture of `N` passes tends to
the mean colour over all random choices, seen from one point of the picture (the centre of the pixel without
anti-aliasing). -/
theorem C78_picture {S : Type} (shifts : List (ℝ × ℝ)) (w h : ℕ) (hlen : shifts.length = w * h) (aa : Bool)
    (f : Ctx ℝ S → ℝ → ℝ → GoM (Color ℝ × Ctx ℝ S)) (col : ℝ → ℝ → (ℝ × ℝ) × (ℝ × ℝ) → Color ℝ)
    (hf : UsesPairs f col)
    (hR : ∀ x y, Tame (unitSq ×ˢ unitSq) fun p => (col x y p).R)
    (hG : ∀ x y, Tame (unitSq ×ˢ unitSq) fun p => (col x y p).G)
    (hB : ∀ x y, Tame (unitSq ×ˢ unitSq) fun p => (col x y p).B)
    (W : ℕ → ℕ) (hW : ∀ N, 0 < W N) (seed : ∀ N, Fin (W N) → S) (s : ∀ N, SamplerState ℝ (Ctx ℝ S) (W N)) (k : ℕ → ℕ)
    (hs : ∀ N, Runs (ctxShader f) w h aa N
      (samplerInit w h (fun i => Ctx.new shifts (seed N i)) fun _ => Cell.zero) (k N) (s N))
    (hd : ∀ N, (s N).done) (p : Pixel) (hx : p.1 < w) (hy : p.2 < h) :
    ∃ xy : ℝ × ℝ, (aa = false → indexToCam (w : Int) (h : Int) (ofInt p.1 : ℝ) (ofInt p.2) = .ok xy) ∧
      Tendsto (fun N => ((s N).mem p).image.R) atTop (𝓝 (∫ q in unitSq ×ˢ unitSq, (col xy.1 xy.2 q).R)) ∧
      Tendsto (fun N => ((s N).mem p).image.G) atTop (𝓝 (∫ q in unitSq ×ˢ unitSq, (col xy.1 xy.2 q).G)) ∧
      Tendsto (fun N => ((s N).mem p).image.B) atTop (𝓝 (∫ q in unitSq ×ˢ unitSq, (col xy.1 xy.2 q).B)) := by
  -- the position in the picture
  have hex : ∀ p : Pixel, ∃ xy : ℝ × ℝ, p.1 < w → p.2 < h →
      (aa = false → indexToCam (w : Int) (h : Int) (ofInt p.1 : ℝ) (ofInt p.2) = .ok xy) ∧
      ∀ (c : Ctx ℝ S), Kept shifts c → ∀ n, ∃ c', Kept shifts c' ∧
        c'.seq1.generate2 = .ok (pathPairs (shifts[w * p.2 + p.1]?.getD (0, 0)) n).1 ∧
        c'.seq2.generate2 = .ok (pathPairs (shifts[w * p.2 + p.1]?.getD (0, 0)) n).2 ∧
        passColor (ctxShader f) w h aa c p n = f c' xy.1 xy.2 := by
    intro p
    by_cases hp : p.1 < w ∧ p.2 < h
    · obtain ⟨hx, hy⟩ := hp
      obtain ⟨uv, huv⟩ := indexToCam_ok_real p hx hy
      have hlt : w * p.2 + p.1 < shifts.length := by
        rw [hlen]
        calc w * p.2 + p.1 < w * p.2 + w := by omega
          _ = w * (p.2 + 1) := by ring
          _ ≤ w * h := Nat.mul_le_mul_left w hy
      have hget : shifts[w * p.2 + p.1]?.getD (0, 0) = shifts[w * p.2 + p.1] := by
        rw [List.getElem?_eq_getElem hlt]; rfl
      rw [hget]
      cases aa with
      | false =>
        refine ⟨uv, fun _ _ => ⟨fun _ => huv, fun c hc n => ?_⟩⟩
        obtain ⟨c', h1, h2, h3, h4⟩ := kept_init hc (w * p.2 + p.1) n hlt
        refine ⟨c', h2, h3, h4, ?_⟩
        simp only [passColor, huv, ok_bind, ctxShader, h1]
        rfl
      | true =>
        obtain ⟨a, b, hab, -⟩ := C10_range (HaltonSeq.new 2 3 1 shifts) (by simp [HaltonSeq.new]) (by simp [HaltonSeq.new])
        refine ⟨(uv.1 + pixelSize w h * (a - lit (1 / 2)), uv.2 + pixelSize w h * (b - lit (1 / 2))), fun _ _ => ⟨by simp, fun c hc n => ?_⟩⟩
        obtain ⟨c', h1, h2, h3, h4⟩ := kept_init hc (w * p.2 + p.1) n hlt
        refine ⟨c', h2, h3, h4, ?_⟩
        simp only [passColor, huv, ok_bind, ctxShader, h1, h2.2.2.2, hab]
        rfl
    · exact ⟨(0, 0), fun h1 h2 => absurd ⟨h1, h2⟩ hp⟩
  choose pos hpos using hex
  -- the sampler is deterministic
  let g : Pixel → ℕ → Color ℝ := fun p n => col (pos p).1 (pos p).2 (pathPairs (shifts[w * p.2 + p.1]?.getD (0, 0)) n)
  have hdet : Deterministic (ctxShader f) w h aa (Kept shifts) g := by
    intro c hc p hx hy n
    obtain ⟨c', h1, h2, h3, h4⟩ := (hpos p hx hy).2 c hc n
    obtain ⟨c'', h5, h6, h7, h8, h9⟩ := hf c' (pos p).1 (pos p).2 _ _ h2 h3
    refine ⟨c'', by rw [h4, h5], ?_⟩
    unfold Kept at h1 ⊢
    rw [h6, h7, h8, h9]
    exact h1
  have hres : ∀ᶠ N in atTop, ((s N).mem p).image =
      ⟨mean (fun k => (g p k).R) N, mean (fun k => (g p k).G) N, mean (fun k => (g p k).B) N⟩ := by
    filter_upwards [eventually_ge_atTop 1] with N hN
    rw [C03_result hdet (fun i => kept_new shifts (seed N i)) (hW N) (s N) (k N) (hs N) (hd N) p, if_pos ⟨hx, hy⟩,
      C05_mean_partial _ _ hN]
  refine ⟨pos p, (hpos p hx hy).1, ?_, ?_, ?_⟩
  · refine (tendsto_pathPairs (shifts[w * p.2 + p.1]?.getD (0, 0)) _ (hR _ _)).congr' ?_
    filter_upwards [hres] with N hN
    rw [hN]
  · refine (tendsto_pathPairs (shifts[w * p.2 + p.1]?.getD (0, 0)) _ (hG _ _)).congr' ?_
    filter_upwards [hres] with N hN
    rw [hN]
  · refine (tendsto_pathPairs (shifts[w * p.2 + p.1]?.getD (0, 0)) _ (hB _ _)).congr' ?_
    filter_upwards [hres] with N hN
    rw [hN]

/-! ### Lamps -/

/-- A lamp as the viewer sees it: its brightness, its area seen from above, its height. -/
structure Lamp where
  brightness : Color ℝ
  area : Set (ℝ × ℝ)
  height : ℝ

/-- The light is this rectangle lamp or disk lamp. -/
def IsLamp (L : Light ℝ) (l : Lamp) : Prop :=
  (∃ w h c, 0 < w ∧ 0 < h ∧ IsRectangleLight L l.brightness w h c ∧ l.area = rectArea w h c ∧ l.height = c.y + lampOffset) ∨
  ∃ diam c, 0 < diam ∧ IsDiskLight L l.brightness diam c ∧ l.area = diskArea diam c ∧ l.height = c.y + lampOffset

/-- The chance that a random diffuse ray from `T` reaches the lamp. -/
noncomputable def lampChance (blocked : Vec ℝ → ℝ → Prop) (T n : Vec ℝ) (l : Lamp) : ℝ :=
  (chance fun uv => SeesArea blocked l.area l.height T (cosineSphere uv.1 uv.2 n)).toReal

/-- The points of the plane of the lamp that `T` does not see. -/
def shadow (blocked : Vec ℝ → ℝ → Prop) (T : Vec ℝ) (l : Lamp) : Set (ℝ × ℝ) :=
  {q | blocked (Vec.normalized ⟨q.1 - T.x, l.height - T.y, q.2 - T.z⟩) (Vec.len ⟨q.1 - T.x, l.height - T.y, q.2 - T.z⟩)}

private theorem lamp_share (L : Light ℝ) (l : Lamp) (hL : IsLamp L l)
    (occl : Ray ℝ → ℝ → Color ℝ → GoM (Color ℝ × Ray ℝ)) (T n : Vec ℝ) (hT : T.y < l.height) (hn : n.len2 = 1)
    (blocked : Vec ℝ → ℝ → Prop) (hs : Stops occl T blocked) (hB : MeasurableSet (shadow blocked T l))
    (h0 : volume (l.area ∩ frontier (shadow blocked T l)) = 0) :
    ∃ share : ℝ × ℝ → ℝ, Tame unitSq share ∧ ∫ uv in unitSq, share uv = lampChance blocked T n l ∧
      ∀ (S : Type) (rng : Rng ℝ S) (ctx ctx' : Ctx ℝ S) (uv : ℝ × ℝ), ctx.generate2 rng = .ok (uv, ctx') →
        directLoop rng occl T n [L] ⟨0, 0, 0⟩ ctx = .ok (l.brightness.mul (share uv), ctx') := by
  have hV : MeasurableSet {q : ℝ × ℝ | ¬ blocked (toward T l.height q).normalized (toward T l.height q).len} := hB.compl
  have h0' : volume (l.area ∩ frontier {q : ℝ × ℝ | ¬ blocked (toward T l.height q).normalized (toward T l.height q).len}) = 0 := by
    have : {q : ℝ × ℝ | ¬ blocked (toward T l.height q).normalized (toward T l.height q).len} = (shadow blocked T l)ᶜ := rfl
    rw [this, frontier_compl]; exact h0
  have hint : ∀ {share : ℝ × ℝ → ℝ}, Tame unitSq share → (∀ uv, 0 ≤ share uv) →
      ∫⁻ uv in unitSq, ENNReal.ofReal (share uv) = chance (fun uv => SeesArea blocked l.area l.height T (cosineSphere uv.1 uv.2 n)) →
      ∫ uv in unitSq, share uv = lampChance blocked T n l := by
    intro share ht hnn hl
    rw [integral_eq_lintegral_of_nonneg_ae (.of_forall hnn) ht.measurable.aestronglyMeasurable, hl]
    rfl
  have hpi := Real.pi_pos
  rcases hL with ⟨w, h, c, hw, hh, ⟨obj, rfl⟩, hA, hy⟩ | ⟨diam, c, hd, ⟨obj, rfl⟩, hA, hy⟩
  · have harea : (0 : ℝ) < w * h * lit 1 := by simp; positivity
    have hpos : ∀ g : ℝ × ℝ → ENNReal, ∫⁻ p in unitSq, g (stretch (c.x - w / 2) (c.z - h / 2) w h p) =
        (ENNReal.ofReal (w * h * lit 1))⁻¹ * ∫⁻ q in l.area, g q := by
      intro g
      rw [← setLIntegral_congr openSq_ae_eq, lintegral_stretch hw hh _ measurableSet_openSq g, stretch_unitSq hw hh]
      have hr : Ioo (c.x - w / 2) (c.x - w / 2 + w) ×ˢ Ioo (c.z - h / 2) (c.z - h / 2 + h) = rectArea w h c := by
        ext ⟨x, z⟩
        simp only [rectArea, mem_prod, mem_Ioo, mem_ofPred_eq, abs_lt]
        constructor
        · rintro ⟨⟨h1, h2⟩, h3, h4⟩; refine ⟨⟨?_, ?_⟩, ?_, ?_⟩ <;> linarith
        · rintro ⟨⟨h1, h2⟩, h3, h4⟩; refine ⟨⟨?_, ?_⟩, ?_, ?_⟩ <;> linarith
      rw [hr, hA]
      simp
    have hmA : MeasurableSet l.area := by
      rw [hA]
      have h1 : MeasurableSet {q : ℝ × ℝ | |q.1 - c.x| < w / 2} := (isOpen_lt (by fun_prop) continuous_const).measurableSet
      have h2 : MeasurableSet {q : ℝ × ℝ | |q.2 - c.z| < h / 2} := (isOpen_lt (by fun_prop) continuous_const).measurableSet
      exact h1.inter h2
    have ht := tame_share harea hn hT l.area _ hV _ (by unfold stretch; fun_prop) hpos h0'
    refine ⟨_, ht, hint ht (fun uv => indicator_nonneg (fun q _ => share_nonneg harea q) _)
      (mean_share harea hn hT _ hmA blocked hB _ hpos), fun S rng ctx ctx' uv hg => ?_⟩
    refine loop_share rng occl l.brightness w h c _ harea obj _ hT blocked hs ctx ctx' uv hg _ ?_
    rw [hy]
    simp [Light.samplePos, Light.transfRect, stretch, Vec.add, lampOffset, tiny]
    refine ⟨?_, ?_, ?_⟩ <;> ring
  · have hr : 0 < diam / 2 := by linarith
    have harea : (0 : ℝ) < diam * diam * (GoFloat.pi / lit 4) := by simp; positivity
    have hpos : ∀ g : ℝ × ℝ → ENNReal, ∫⁻ p in unitSq, g (stretch c.x c.z (diam / 2) (diam / 2) (uniformDisk p.1 p.2)) =
        (ENNReal.ofReal (diam * diam * (GoFloat.pi / lit 4)))⁻¹ * ∫⁻ q in l.area, g q := by
      intro g
      rw [lintegral_diskMap (fun q => g (stretch c.x c.z (diam / 2) (diam / 2) q)),
        lintegral_stretch hr hr _ measurableSet_unitDisk g, stretch_unitDisk hr, hA]
      change _ = _ * ∫⁻ q in {q | (q.1 - c.x) ^ 2 + (q.2 - c.z) ^ 2 < (diam / 2) ^ 2}, g q
      rw [← mul_assoc, ← ENNReal.ofReal_inv_of_pos Real.pi_pos, ← ENNReal.ofReal_inv_of_pos (by positivity),
        ← ENNReal.ofReal_inv_of_pos harea, ← ENNReal.ofReal_mul (by positivity)]
      congr 2
      simp
      field_simp
      norm_num
    have hmA : MeasurableSet l.area := by
      rw [hA]
      exact (isOpen_lt (by fun_prop) continuous_const).measurableSet
    have hcont : Continuous fun p : ℝ × ℝ => stretch c.x c.z (diam / 2) (diam / 2) (uniformDisk p.1 p.2) := by
      have : (fun p : ℝ × ℝ => stretch c.x c.z (diam / 2) (diam / 2) (uniformDisk p.1 p.2)) =
          fun p => stretch c.x c.z (diam / 2) (diam / 2)
            (Real.sqrt p.2 * Real.cos (2 * Real.pi * p.1), Real.sqrt p.2 * Real.sin (2 * Real.pi * p.1)) :=
        funext fun p => congrArg _ (diskMap_eq p)
      rw [this]
      unfold stretch
      fun_prop
    have ht := tame_share harea hn hT l.area _ hV _ hcont hpos h0'
    refine ⟨_, ht, hint ht (fun uv => indicator_nonneg (fun q _ => share_nonneg harea q) _)
      (mean_share harea hn hT _ hmA blocked hB _ hpos), fun S rng ctx ctx' uv hg => ?_⟩
    refine loop_share rng occl l.brightness diam diam c _ harea obj _ hT blocked hs ctx ctx' uv hg _ ?_
    rw [hy]
    simp [Light.samplePos, stretch, Vec.add, lampOffset, tiny]
    refine ⟨?_, ?_, ?_⟩ <;> ring

theorem unitSq_finite : IsFiniteMeasure (volume.restrict unitSq) := by
  rw [← unif_prod]; infer_instance

theorem Tame.integrable {g : ℝ × ℝ → ℝ} (hg : Tame unitSq g) : IntegrableOn g unitSq := by
  have := unitSq_finite
  obtain ⟨C, hC⟩ := hg.bounded
  refine Integrable.of_bound hg.measurable.aestronglyMeasurable C ?_
  filter_upwards [ae_restrict_mem measurableSet_unitSq] with p hp
  exact hC p hp

theorem Tame.add {g g' : ℝ × ℝ → ℝ} (hg : Tame unitSq g) (hg' : Tame unitSq g') :
    Tame unitSq fun p => g p + g' p := by
  obtain ⟨C, hC⟩ := hg.bounded
  obtain ⟨C', hC'⟩ := hg'.bounded
  refine ⟨hg.measurable.add hg'.measurable, ⟨C + C', fun p hp => (abs_add_le _ _).trans (add_le_add (hC p hp) (hC' p hp))⟩, ?_⟩
  filter_upwards [hg.continuous, hg'.continuous] with p h1 h2
  exact h1.add h2

theorem Tame.mul {g : ℝ × ℝ → ℝ} (hg : Tame unitSq g) (a : ℝ) : Tame unitSq fun p => g p * a := by
  obtain ⟨C, hC⟩ := hg.bounded
  refine ⟨hg.measurable.mul_const a, ⟨C * |a|, fun p hp => ?_⟩, ?_⟩
  · rw [abs_mul]; exact mul_le_mul_of_nonneg_right (hC p hp) (abs_nonneg a)
  · filter_upwards [hg.continuous] with p h1
    exact h1.mul continuousAt_const

private theorem directLoop_cons {S : Type} (rng : Rng ℝ S) (occl : Ray ℝ → ℝ → Color ℝ → GoM (Color ℝ × Ray ℝ)) (T n : Vec ℝ)
    (L : Light ℝ) (ls : List (Light ℝ)) (acc c : Color ℝ) (ctx ctx' : Ctx ℝ S)
    (h : directLoop rng occl T n [L] ⟨0, 0, 0⟩ ctx = .ok (c, ctx')) :
    directLoop rng occl T n (L :: ls) acc ctx = directLoop rng occl T n ls (acc.add c) ctx' := by
  have hz : ∀ a : Color ℝ, a.add ⟨0, 0, 0⟩ = a := fun a => by simp [Color.add]
  have hz' : ∀ a : Color ℝ, (⟨0, 0, 0⟩ : Color ℝ).add a = a := fun a => by simp [Color.add]
  rw [directLoop] at h ⊢
  cases h1 : L.sample rng T ctx with
  | error e => rw [h1] at h; cases h
  | ok r =>
    obtain ⟨⟨lpos, intens⟩, ctx1⟩ := r
    rw [h1] at h
    simp only [ok_bind] at h ⊢
    split at h
    · rename_i hi
      rw [if_pos hi]
      simp only [directLoop, Except.ok.injEq, Prod.mk.injEq] at h
      rw [← h.1, ← h.2, hz]
    · rename_i hi
      rw [if_neg hi]
      split at h
      · rename_i hc
        rw [if_pos hc]
        simp only [directLoop, Except.ok.injEq, Prod.mk.injEq] at h
        rw [← h.1, ← h.2, hz]
      · rename_i hc
        rw [if_neg hc]
        obtain ⟨o, h2, h3⟩ := bind_eq_ok.1 h
        simp only [directLoop, Except.ok.injEq, Prod.mk.injEq, hz'] at h3
        rw [h2]
        simp only [ok_bind]
        rw [h3.1, h3.2]

private theorem lights_share (ls : List (Light ℝ)) (lamps : List Lamp) (hL : List.Forall₂ IsLamp ls lamps)
    (occl : Ray ℝ → ℝ → Color ℝ → GoM (Color ℝ × Ray ℝ)) (T n : Vec ℝ) (hT : ∀ l ∈ lamps, T.y < l.height) (hn : n.len2 = 1)
    (blocked : Vec ℝ → ℝ → Prop) (hs : Stops occl T blocked) (hB : ∀ l ∈ lamps, MeasurableSet (shadow blocked T l))
    (h0 : ∀ l ∈ lamps, volume (l.area ∩ frontier (shadow blocked T l)) = 0) :
    ∃ light : ℝ × ℝ → Color ℝ,
      (Tame unitSq (fun uv => (light uv).R) ∧ Tame unitSq (fun uv => (light uv).G) ∧ Tame unitSq (fun uv => (light uv).B)) ∧
      ∫ uv in unitSq, (light uv).R = (lamps.map fun l => l.brightness.R * lampChance blocked T n l).sum ∧
      ∫ uv in unitSq, (light uv).G = (lamps.map fun l => l.brightness.G * lampChance blocked T n l).sum ∧
      ∫ uv in unitSq, (light uv).B = (lamps.map fun l => l.brightness.B * lampChance blocked T n l).sum ∧
      ∀ (S : Type) (rng : Rng ℝ S) (ctx : Ctx ℝ S) (uv : ℝ × ℝ) (acc : Color ℝ), ctx.generate2 rng = .ok (uv, ctx) →
        directLoop rng occl T n ls acc ctx = .ok (acc.add (light uv), ctx) := by
  induction hL with
  | nil =>
    have h1 : Tame unitSq fun _ : ℝ × ℝ => (0 : ℝ) := ⟨measurable_const, ⟨0, by simp⟩, by simp [continuousAt_const]⟩
    refine ⟨fun _ => ⟨0, 0, 0⟩, ⟨h1, h1, h1⟩, by simp, by simp, by simp, fun S rng ctx uv acc _ => ?_⟩
    simp [directLoop, Color.add]
  | @cons L l ls lamps hl _ ih =>
    obtain ⟨share, t1, i1, e1⟩ := lamp_share L l hl occl T n (hT l (by simp)) hn blocked hs (hB l (by simp)) (h0 l (by simp))
    obtain ⟨light, ⟨tR, tG, tB⟩, iR, iG, iB, e2⟩ := ih (fun l hl => hT l (by simp [hl])) (fun l hl => hB l (by simp [hl]))
      (fun l hl => h0 l (by simp [hl]))
    refine ⟨fun uv => (l.brightness.mul (share uv)).add (light uv), ⟨?_, ?_, ?_⟩, ?_, ?_, ?_, ?_⟩
    · exact (t1.mul l.brightness.R).add tR
    · exact (t1.mul l.brightness.G).add tG
    · exact (t1.mul l.brightness.B).add tB
    · simp only [Color.add, Color.mul, List.map_cons, List.sum_cons]
      rw [integral_add (t1.mul _).integrable tR.integrable, integral_mul_const, i1, iR, mul_comm]
    · simp only [Color.add, Color.mul, List.map_cons, List.sum_cons]
      rw [integral_add (t1.mul _).integrable tG.integrable, integral_mul_const, i1, iG, mul_comm]
    · simp only [Color.add, Color.mul, List.map_cons, List.sum_cons]
      rw [integral_add (t1.mul _).integrable tB.integrable, integral_mul_const, i1, iB, mul_comm]
    · intro S rng ctx uv acc hg
      rw [directLoop_cons rng occl T n L ls acc _ ctx ctx (e1 S rng ctx ctx uv hg), e2 S rng ctx uv _ hg]
      simp only [Color.add, Except.ok.injEq, Prod.mk.injEq, Color.mk.injEq, and_true]
      refine ⟨?_, ?_, ?_⟩ <;> ring

/-- A matte surface in the light of rectangle and disk lamps, seen by the camera through a pixel: the mean over the passes
of its colour tends to its reflectance times the light it should receive, that is, for each lamp the brightness times the
chance that a random diffuse ray reaches the lamp, plus the mean of the light `ind` that comes in by the other ways. -/
theorem C78_matte {S : Type} (rng : Rng ℝ S) (s : Scene ℝ) (lf : LF ℝ S) (tex : Tex ℝ) (refl : Color ℝ) (r : Ray ℝ)
    (h : HitCoords ℝ) (T n : Vec ℝ) (hnrm : n = flipTowards h.normal r.dir) (hn : n.len2 = 1)
    (hT : T = (r.at h.t).madd tiny n) (htex : tex h.loc = .ok refl)
    (lamps : List Lamp) (hL : List.Forall₂ IsLamp s.lights lamps) (hbelow : ∀ l ∈ lamps, T.y < l.height)
    (blocked : Vec ℝ → ℝ → Prop) (hs : Stops s.occlude T blocked) (hB : ∀ l ∈ lamps, MeasurableSet (shadow blocked T l))
    (h0 : ∀ l ∈ lamps, volume (l.area ∩ frontier (shadow blocked T l)) = 0)
    (ind : ℝ × ℝ → Color ℝ)
    (hind : ∀ (ctx : Ctx ℝ S) (uv : ℝ × ℝ), ∃ ctx', lf .indirect ⟨T.madd tiny n, cosineSphere uv.1 uv.2 n⟩ ctx = .ok (ind uv, ctx'))
    (tR : Tame unitSq fun uv => (ind uv).R) (tG : Tame unitSq fun uv => (ind uv).G) (tB : Tame unitSq fun uv => (ind uv).B)
    (q : HaltonSeq ℝ) (hu : 2 ≤ q.baseU) (hv : 2 ≤ q.baseV) (hco : Nat.Coprime q.baseU q.baseV) (pixel : ℕ)
    (c : ℕ → Ctx ℝ S) (hc : ∀ k, (c k).depth = 1 ∧ q.init pixel k = .ok (c k).seq1) :
    ∃ col : ℕ → Color ℝ, (∀ k, ∃ c', Mat.shade rng s lf (.matte tex) r h (c k) = .ok (col k, c')) ∧
      Tendsto (mean fun k => (col k).R) atTop (𝓝 (refl.R *
        ((lamps.map fun l => l.brightness.R * lampChance blocked T n l).sum + ∫ uv in unitSq, (ind uv).R))) ∧
      Tendsto (mean fun k => (col k).G) atTop (𝓝 (refl.G *
        ((lamps.map fun l => l.brightness.G * lampChance blocked T n l).sum + ∫ uv in unitSq, (ind uv).G))) ∧
      Tendsto (mean fun k => (col k).B) atTop (𝓝 (refl.B *
        ((lamps.map fun l => l.brightness.B * lampChance blocked T n l).sum + ∫ uv in unitSq, (ind uv).B))) := by
  obtain ⟨light, ⟨sR, sG, sB⟩, iR, iG, iB, e⟩ := lights_share s.lights lamps hL s.occlude T n hbelow hn blocked hs hB h0
  have hpair : ∀ k, ∃ uv, GivesPair q pixel k uv ∧ (c k).seq1.generate2 = .ok uv := by
    intro k
    have hb : (c k).seq1.baseU = q.baseU ∧ (c k).seq1.baseV = q.baseV := by
      have := (hc k).2
      unfold HaltonSeq.init at this
      split at this
      · cases this
      · rw [Except.ok.injEq] at this
        rw [← this]; exact ⟨rfl, rfl⟩
    obtain ⟨u, v, huv, -⟩ := C10_range (c k).seq1 (by rw [hb.1]; exact hu) (by rw [hb.2]; exact hv)
    exact ⟨(u, v), ⟨_, (hc k).2, huv⟩, huv⟩
  choose pair hp hp' using hpair
  have hcol : ∀ k, ∃ c', Mat.shade rng s lf (.matte tex) r h (c k) =
      .ok (((light (pair k)).add (ind (pair k))).mul3 refl, c') := by
    intro k
    obtain ⟨c', hc'⟩ := hind (c k).takeRay.2 (pair k)
    have hg : (c k).takeRay.2.generate2 rng = .ok (pair k, (c k).takeRay.2) := by
      have hd : (c k).takeRay.2.depth = 1 := (hc k).1
      have hq : (c k).takeRay.2.seq1 = (c k).seq1 := rfl
      simp only [Ctx.generate2, hd, hq, hp' k]
      rfl
    refine ⟨c'.putRay (c k).takeRay.1, ?_⟩
    have hz : Color.black = (⟨0, 0, 0⟩ : Color ℝ) := by simp [Color.black]
    simp only [Mat.shade, shadeMatte, ← hnrm, ← hT, e S rng _ _ _ hg, ok_bind, hg, hc', htex, hz]
    simp [Color.add]
    rfl
  refine ⟨fun k => ((light (pair k)).add (ind (pair k))).mul3 refl, hcol, ?_, ?_, ?_⟩
  · have := C78_pairs q hu hv hco pixel pair hp _ ((sR.add tR).mul refl.R)
    rw [integral_mul_const, integral_add sR.integrable tR.integrable, iR, mul_comm _ refl.R] at this
    exact this
  · have := C78_pairs q hu hv hco pixel pair hp _ ((sG.add tG).mul refl.G)
    rw [integral_mul_const, integral_add sG.integrable tG.integrable, iG, mul_comm _ refl.G] at this
    exact this
  · have := C78_pairs q hu hv hco pixel pair hp _ ((sB.add tB).mul refl.B)
    rw [integral_mul_const, integral_add sB.integrable tB.integrable, iB, mul_comm _ refl.B] at this
    exact this

/-- Two draws of one pass at the same depth are not independent, not even in the limit: they are equal. A pair of
choices that should happen in a quarter of the passes never happens. (Colours that are sums of terms with one choice
each, like those of `C78_matte`, are not affected.) -/
theorem C78_same_depth_violated {S : Type} (rng : Rng ℝ S) (c : ℕ → Ctx ℝ S) (hc : ∀ k, (c k).depth = 1 ∨ (c k).depth = 2)
    (p q : ℕ → ℝ × ℝ) (h : ∀ k, ∃ c' c'', (c k).generate2 rng = .ok (p k, c') ∧ c'.generate2 rng = .ok (q k, c'')) :
    let f : (ℝ × ℝ) × (ℝ × ℝ) → ℝ := {x | x.1.1 < 1 / 2 ∧ 1 / 2 ≤ x.2.1}.indicator fun _ => 1
    ∫ x in unitSq ×ˢ unitSq, f x = 1 / 4 ∧ Tendsto (mean fun k => f (p k, q k)) atTop (𝓝 0) := by
  intro f
  constructor
  · have hm1 : MeasurableSet {x : ℝ × ℝ | x.1 < 1 / 2} := measurable_fst measurableSet_Iio
    have hm2 : MeasurableSet {x : ℝ × ℝ | 1 / 2 ≤ x.1} := measurable_fst measurableSet_Ici
    have e : {x : (ℝ × ℝ) × (ℝ × ℝ) | x.1.1 < 1 / 2 ∧ 1 / 2 ≤ x.2.1} = {x : ℝ × ℝ | x.1 < 1 / 2} ×ˢ {x : ℝ × ℝ | 1 / 2 ≤ x.1} := rfl
    have e1 : unitSq ∩ {x : ℝ × ℝ | x.1 < 1 / 2} = Ico 0 (1 / 2) ×ˢ Ico 0 1 := by
      ext ⟨u, v⟩
      simp only [unitSq, mem_inter_iff, mem_prod, mem_Ico, mem_ofPred_eq]
      constructor
      · rintro ⟨⟨⟨h1, h2⟩, h3⟩, h4⟩; exact ⟨⟨h1, h4⟩, h3⟩
      · rintro ⟨⟨h1, h2⟩, h3⟩; exact ⟨⟨⟨h1, by linarith⟩, h3⟩, h2⟩
    have e2 : unitSq ∩ {x : ℝ × ℝ | 1 / 2 ≤ x.1} = Ico (1 / 2) 1 ×ˢ Ico 0 1 := by
      ext ⟨u, v⟩
      simp only [unitSq, mem_inter_iff, mem_prod, mem_Ico, mem_ofPred_eq]
      constructor
      · rintro ⟨⟨⟨h1, h2⟩, h3⟩, h4⟩; exact ⟨⟨h4, h2⟩, h3⟩
      · rintro ⟨⟨h1, h2⟩, h3⟩; exact ⟨⟨⟨by linarith, h2⟩, h3⟩, h1⟩
    have hv : volume ((unitSq ×ˢ unitSq) ∩ ({x : ℝ × ℝ | x.1 < 1 / 2} ×ˢ {x : ℝ × ℝ | 1 / 2 ≤ x.1})) = ENNReal.ofReal (1 / 4) := by
      rw [prod_inter_prod, e1, e2, Measure.volume_eq_prod, Measure.prod_prod, Measure.volume_eq_prod, Measure.prod_prod,
        Measure.prod_prod]
      simp only [Real.volume_Ico]
      rw [← ENNReal.ofReal_mul (by norm_num), ← ENNReal.ofReal_mul (by norm_num), ← ENNReal.ofReal_mul (by norm_num)]
      norm_num
    have hr := setIntegral_indicator (μ := volume) (s := unitSq ×ˢ unitSq) (f := fun _ => (1 : ℝ)) (hm1.prod hm2)
    rw [setIntegral_const, smul_eq_mul, mul_one, Measure.real, hv, ENNReal.toReal_ofReal (by norm_num)] at hr
    exact hr
  · have : ∀ k, f (p k, q k) = 0 := by
      intro k
      obtain ⟨c', c'', h1, h2⟩ := h k
      obtain ⟨e1, e2⟩ := C10_repeated rng _ _ _ (hc k) h1
      rw [e2, Except.ok.injEq, Prod.mk.injEq] at h2
      refine indicator_of_notMem ?_ _
      rintro ⟨h3, h4⟩
      rw [← h2.1] at h4
      exact absurd h3 (not_lt.2 h4)
    have e : (mean fun k => f (p k, q k)) = fun _ => 0 := by funext N; simp [this, mean]
    rw [e]
    exact tendsto_const_nhds

/-! ### Non-vacuity -/

/-- A property with a border: the first number is below one half. It holds for half of the passes, in the limit. -/
example : ∃ pair : ℕ → ℝ × ℝ, (∀ n, GivesPair (.new 2 3 1 [((0.3 : ℝ), (0.6 : ℝ))]) 0 n (pair n)) ∧
    Tendsto (fun N : ℕ => (((Finset.range N).filter fun n => (pair n).1 < 1 / 2).card : ℝ) / N) atTop (𝓝 (1 / 2)) := by
  have hex : ∀ n, ∃ uv, GivesPair (.new 2 3 1 [((0.3 : ℝ), (0.6 : ℝ))]) 0 n uv := fun n =>
    ⟨_, _, rfl, C10_value (.new 2 3 1 [((0.3 : ℝ), (0.6 : ℝ))]) _ (by simp [HaltonSeq.new]) (by simp [HaltonSeq.new]) 0 n 0.3 0.6 rfl rfl⟩
  choose pair hp using hex
  refine ⟨pair, hp, ?_⟩
  have hm : MeasurableSet {p : ℝ × ℝ | p.1 < 1 / 2} := measurable_fst measurableSet_Iio
  have h := C78_chance _ (by simp [HaltonSeq.new]) (by simp [HaltonSeq.new]) (by decide : Nat.Coprime 2 3) 0 pair hp
    (fun p => p.1 < 1 / 2) hm ?_
  · have e : {p : ℝ × ℝ | p ∈ unitSq ∧ p.1 < 1 / 2} = Ico 0 (1 / 2) ×ˢ Ico 0 1 := by
      ext ⟨u, v⟩
      simp only [unitSq, mem_prod, mem_Ico, mem_ofPred_eq]
      constructor
      · rintro ⟨⟨⟨h1, h2⟩, h3⟩, h4⟩; exact ⟨⟨h1, h4⟩, h3⟩
      · rintro ⟨⟨h1, h2⟩, h3⟩; exact ⟨⟨⟨h1, by linarith⟩, h3⟩, h2⟩
    have e2 : (chance fun p => p.1 < 1 / 2).toReal = 1 / 2 := by
      rw [chance, e, Measure.volume_eq_prod, Measure.prod_prod]
      simp
    rw [e2] at h
    exact h
  · refine measure_mono_null (t := {1 / 2} ×ˢ univ) ?_ ?_
    · rintro p ⟨-, hp⟩
      have : frontier {p : ℝ × ℝ | p.1 < 1 / 2} ⊆ {p | p.1 = 1 / 2} := frontier_lt_subset_eq continuous_fst continuous_const
      exact ⟨this hp, mem_univ _⟩
    · rw [Measure.volume_eq_prod, Measure.prod_prod]; simp

/-- An image function that uses both pairs. -/
example : ∃ (f : Ctx ℝ Unit → ℝ → ℝ → GoM (Color ℝ × Ctx ℝ Unit)) (col : ℝ → ℝ → (ℝ × ℝ) × (ℝ × ℝ) → Color ℝ),
    UsesPairs f col ∧ (∀ x y, Tame (unitSq ×ˢ unitSq) fun p => (col x y p).R) ∧ (col 0 0 ((0, 0), (0, 0))).R ≠
      (col 0 0 ((1 / 2, 0), (1 / 2, 0))).R := by
  refine ⟨fun c _ _ => do
      let uv ← c.seq1.generate2
      let uv' ← c.seq2.generate2
      return (⟨uv.1 * uv'.1, 0, 0⟩, c), fun _ _ p => ⟨p.1.1 * p.2.1, 0, 0⟩, ?_, ?_, by norm_num⟩
  · intro c x y uv uv' h1 h2
    exact ⟨c, by simp only [h1, h2, ok_bind]; rfl, rfl, rfl, rfl, rfl⟩
  · intro x y
    refine ⟨by fun_prop, ⟨1, ?_⟩, .of_forall fun p => by fun_prop⟩
    rintro p ⟨⟨⟨h1, h2⟩, -⟩, ⟨h3, h4⟩, -⟩
    rw [abs_of_nonneg (mul_nonneg h1 h3)]
    nlinarith

/-- The hypotheses of `C78_matte` on lamps and shadows: a rectangle lamp above a floor, in a scene without objects. -/
example : let l : Lamp := ⟨⟨1, 1, 1⟩, rectArea 1 1 ⟨0, 2, 0⟩, 2 + lampOffset⟩
    (∀ obj, IsLamp (.planar 1 1 ⟨0, 2, 0⟩ (Color.mul ⟨1, 1, 1⟩ (1 * 1 * lit 1)) obj Light.transfRect) l) ∧
    (⟨0, 0, 0⟩ : Vec ℝ).y < l.height ∧ MeasurableSet (shadow (fun _ _ => False) ⟨0, 0, 0⟩ l) ∧
    volume (l.area ∩ frontier (shadow (fun _ _ => False) ⟨0, 0, 0⟩ l)) = 0 := by
  intro l
  refine ⟨fun obj => .inl ⟨1, 1, ⟨0, 2, 0⟩, by norm_num, by norm_num, ⟨obj, rfl⟩, rfl, rfl⟩, ?_, ?_, ?_⟩
  · change (0 : ℝ) < 2 + lampOffset
    unfold lampOffset; norm_num
  · have : shadow (fun _ _ => False) ⟨0, 0, 0⟩ l = ∅ := rfl
    rw [this]; exact MeasurableSet.empty
  · have : shadow (fun _ _ => False) ⟨0, 0, 0⟩ l = ∅ := rfl
    rw [this, frontier_empty]; simp

end BR
