import Verif.Lemmas.DiskOutline
import Verif.Props.C99_Shapes

/-! C99: a floor that is lit by lamps of any kind and by the sky. -/

namespace BR

set_option linter.unusedSectionVars false

open MeasureTheory Filter Topology Set

variable {S : Type}

/-- **C99, disks.** Seen from below, the outline of a disk makes up no solid angle. -/
theorem C99_outline (D : ℝ) (hD : 0 < D) (C : Vec ℝ) (look : Vec ℝ → Surface) (p : Vec ℝ) (hp : p.y < C.y) :
    (diskBody D C look).from p = {ω | MeetsArea (diskArea D C) C.y p ω} ∧ (diskBody D C look).Outlined p := by
  have e : (diskBody D C look).from p = {ω | MeetsArea (diskArea D C) C.y p ω} := by
    ext ω
    simp only [Body.from, MeetsArea, diskArea, mem_ofPred_eq, diskBody, Body.part, rectBody, Ray.at, Vec.madd]
    constructor
    · rintro ⟨T, hT, ⟨h1, -⟩, h2⟩
      exact ⟨T, hT, by linarith, h2⟩
    · rintro ⟨T, hT, h1, h2⟩
      have h2' : (p.x + T * ω.x - C.x) ^ 2 + (p.z + T * ω.z - C.z) ^ 2 < (D / 2) ^ 2 := h2
      refine ⟨T, hT, ⟨by linarith, ?_, ?_⟩, h2⟩
      · refine abs_le_of_sq_le_sq ?_ (by linarith)
        nlinarith [sq_nonneg (p.z + T * ω.z - C.z)]
      · refine abs_le_of_sq_le_sq ?_ (by linarith)
        nlinarith [sq_nonneg (p.x + T * ω.x - C.x)]
  refine ⟨e, ?_⟩
  unfold Body.Outlined
  rw [e]
  exact disk_outline hp

/-- The lamps that are above a place have outlines. -/
theorem lamp_outlined {l : Light Ext} {E : Emitter} {th : List Body} {f : Option Outline} (h : Shines l E th f) {p : Vec ℝ}
    (hp : ∀ F, f = some F → p.y < F.c.y) : ∀ b ∈ th, b.Outlined p := by
  cases h with
  | point h => exact fun b hb => absurd hb List.not_mem_nil
  | rectangle h hb hw hh hc hW hH =>
    intro b hb
    rw [List.mem_singleton] at hb
    subst hb
    exact C97_rectangle _ _ _ _ _ (hp _ rfl).ne
  | disk h hb hd hc hD =>
    intro b hb
    rw [List.mem_singleton] at hb
    subst hb
    exact (C99_outline _ hD _ _ _ (hp _ rfl)).2

/-- **C99, the share of a disk straight above.** Where nothing is in the way, a disk of diameter `D` at the height `H` straight
above a horizontal surface makes up `R² / (R² + H²)` of what one sees, where `R = D / 2`. -/
theorem C99_above {e e' : Vec ℝ} (hF : IsFrame e e' ⟨0, 1, 0⟩) (bodies : List Body) (p c : Vec ℝ) (D H y : ℝ) (hD : 0 < D)
    (hH : 0 < H) (hx : p.x = c.x) (hz : p.z = c.z) (hy : y - p.y = H)
    (hfree : ∀ b ∈ bodies, ∀ ω, AnyAbove ⟨0, 1, 0⟩ ω → ω ∉ b.from p) :
    lampShare e e' ⟨0, 1, 0⟩ bodies p (diskArea D c) y = (D / 2) ^ 2 / ((D / 2) ^ 2 + H ^ 2) := by
  have hn : (⟨0, 1, 0⟩ : Vec ℝ).dot ⟨0, 1, 0⟩ = 1 := by simp [Vec.dot]
  have hp : p.y < y := by linarith
  have hA : MeasurableSet (diskArea D c) := (isOpen_lt (by fun_prop) continuous_const).measurableSet
  have hfree' : ∀ ω, AnyAbove ⟨0, 1, 0⟩ ω → ∀ t, ¬ InTheWay bodies p ω t := by
    rintro ω hω t ⟨b, hb, T, hT, -, h⟩
    exact hfree b hb ω hω ⟨T, hT, h⟩
  have hB : MeasurableSet {q | InTheWay bodies p (toward p y q).normalized (toward p y q).len} := by
    convert MeasurableSet.empty using 1
    ext q
    simp only [mem_ofPred_eq, mem_empty_iff_false, iff_false]
    have hd := dist2_pos hp q
    have hl : (toward p y q).len = Real.sqrt (dist2 p y q) := by simp [Vec.len, toward, dist2, pow_two]
    have hl0 : 0 < (toward p y q).len := by rw [hl]; exact Real.sqrt_pos.2 hd
    have hl2 : (toward p y q).dot (toward p y q) = (toward p y q).len ^ 2 := by
      rw [hl, Real.sq_sqrt hd.le]
      simp only [toward, dist2, Vec.dot]; ring
    have hnorm : (toward p y q).normalized = (toward p y q).mul (1 / (toward p y q).len) := by
      simp only [Vec.normalized, Vec.len, Vec.mul, lit_real, sqrt_real, Vec.ext_iff]
      push_cast
      refine ⟨?_, ?_, ?_⟩ <;> ring
    refine hfree' _ ⟨?_, ?_⟩ _
    · rw [hnorm]
      have : ∀ (v : Vec ℝ) (k : ℝ), (v.mul k).dot (v.mul k) = v.dot v * k ^ 2 := by
        intro v k; simp only [geo]; ring
      rw [this, hl2]
      field_simp
    · rw [hnorm]
      have : ∀ (v : Vec ℝ) (k : ℝ), (v.mul k).dot ⟨0, 1, 0⟩ = v.y * k := by
        intro v k; simp [Vec.mul, Vec.dot, mul_comm]
      rw [this]
      have : 0 < (toward p y q).y := by simp only [toward]; linarith
      positivity
  rw [← chance_share hF hp hA hB]
  have key := chance_axis (R := D / 2) (by linarith) hH hx hz hy
  rw [show 2 * (D / 2) = D by ring] at key
  have e : (chance fun uv => SeesArea (InTheWay bodies p) (diskArea D c) y p (cosineSphere uv.1 uv.2 ⟨0, 1, 0⟩)) =
      chance fun uv => SeesArea (fun _ _ => False) (diskArea D c) y p (cosineSphere uv.1 uv.2 ⟨0, 1, 0⟩) := by
    unfold chance
    congr 1
    ext q
    simp only [mem_ofPred_eq]
    refine and_congr_right fun hq => ?_
    have := hfree' _ (unit_above hq.2.1 hq.2.2.le hn (U := q.1))
    unfold SeesArea
    simp only [this, not_false_eq_true]
  rw [e, key, ENNReal.toReal_ofReal (by positivity)]

/-- **C99, the shade of a disk straight above.** It blocks the share `R² / (R² + H²)` of an even sky. -/
theorem C99_shade {e e' : Vec ℝ} (hF : IsFrame e e' ⟨0, 1, 0⟩) (bodies : List Body) (p c : Vec ℝ) (D H : ℝ) (hD : 0 < D)
    (hH : 0 < H) (hx : p.x = c.x) (hz : p.z = c.z) (hy : c.y - p.y = H) (look : Vec ℝ → Surface)
    (hmem : diskBody D c look ∈ bodies) (hout : ∀ b ∈ bodies, b.Outlined p)
    (hfree : ∀ b ∈ bodies, ∀ ω, AnyAbove ⟨0, 1, 0⟩ ω → ω ∈ b.from p → ω ∈ (diskBody D c look).from p) :
    skyShare e e' ⟨0, 1, 0⟩ bodies p = 1 - (D / 2) ^ 2 / ((D / 2) ^ 2 + H ^ 2) := by
  have hn : (⟨0, 1, 0⟩ : Vec ℝ).dot ⟨0, 1, 0⟩ = 1 := by simp [Vec.dot]
  have hp : p.y < c.y := by linarith
  have key := chance_axis (R := D / 2) (by linarith) hH hx hz hy
  rw [show 2 * (D / 2) = D by ring] at key
  rw [skyShare_eq hF hout, measureReal_def, Measure.restrict_apply₀']
  · congr 1
    rw [show {q : ℝ × ℝ | ∃ b ∈ bodies, cosineSphere q.1 q.2 ⟨0, 1, 0⟩ ∈ b.from p} ∩ unitSq =
      {q | q ∈ unitSq ∧ SeesArea (fun _ _ => False) (diskArea D c) c.y p (cosineSphere q.1 q.2 ⟨0, 1, 0⟩)} from ?_]
    · change (chance _).toReal = _
      rw [key, ENNReal.toReal_ofReal (by positivity)]
    · ext q
      simp only [mem_inter_iff, mem_ofPred_eq]
      rw [and_comm]
      refine and_congr_right fun hq => ?_
      have hab := unit_above hq.2.1 hq.2.2.le hn (U := q.1)
      have hm : ∀ ω, ω ∈ (diskBody D c look).from p ↔ SeesArea (fun _ _ => False) (diskArea D c) c.y p ω := by
        intro ω
        rw [(C99_outline D hD c look p hp).1]
        constructor
        · rintro ⟨t, h1, h2, h3⟩; exact ⟨t, h1, h2, h3, id⟩
        · rintro ⟨t, h1, h2, h3, -⟩; exact ⟨t, h1, h2, h3⟩
      constructor
      · rintro ⟨b, hb, h⟩
        exact (hm _).1 (hfree b hb _ hab h)
      · intro h
        exact ⟨_, hmem, (hm _).2 h⟩
  · exact (measurableSet_Ico.prod measurableSet_Ico).nullMeasurableSet

/-- **C99, a floor under lamps and a sky.** Take a scene of a floor and a sky, with any number of point, rectangle and disk lights
above the floor, with light followed over two surfaces, seen from above the floor by rays that meet it nowhere below the
edges of a lamp. Take a pixel where the floor is matte, reflecting the fraction `k` of the light. As the number of passes
grows, the pixel tends to `k` times the sum of the mean light of the lamps and of the light of the parts of the sky that the
lamps do not hide. -/
theorem C99_floor (St : Sorter (Obj Ext (Mat Ext))) (s : Scene Ext) (hmed : s.media = []) (hd : s.recursionDepth = 2)
    (m : Mat Ext) (look : Vec ℝ → Surface) (hm : ∀ p P, p.Is P → m.Appears p (look P)) (wid dep : Ext) (W D : ℝ)
    (hwid : wid.Is W) (hdep : dep.Is D) (hW : 0 < W) (hD : 0 < D) (c : Vec Ext) (C : Vec ℝ) (hc : c.Is C)
    (hreach : ∀ p, (rectBody W D C look).on p → InReach p) (floor : Obj Ext (Mat Ext))
    (hfloor : rectangle St (some m) wid dep c = .ok floor) (col : Vec ℝ → Color ℝ) (sky : Obj Ext (Mat Ext)) (hsky : IsSky col sky)
    (hobj : s.objects = [floor, sky]) (mR : MildLight fun ω => (col ω).R) (mG : MildLight fun ω => (col ω).G)
    (mB : MildLight fun ω => (col ω).B)
    (lamps : List Fixture) (hlights : s.lights = lamps.map Fixture.light)
    (hfits : ∀ l ∈ lamps, l.Fits [[rectBody W D C look], []])
    (habove : ∀ l ∈ lamps, ∀ F, l.outline = some F → C.y + 2 * gap < F.c.y)
    (V : View) (h0 : 0 < V.fov) (h1 : V.fov < Real.pi) (fov yaw pitch roll : Ext) (eye : Vec Ext) (hf : fov.Is V.fov)
    (hy : yaw.Is V.yaw) (hp : pitch.Is V.pitch) (hr : roll.Is V.roll) (he : eye.Is V.eye)
    (hnear : InReach V.eye) (heye : OffRect 0 W D C V.eye) (hup : C.y < V.eye.y)
    (heye' : ∀ l ∈ lamps, ∀ F, l.outline = some F → OffRect 0 F.w F.d F.c V.eye) (w h : Nat) (aa : Bool)
    (hedge : ∀ p : Pixel, p.1 < w → p.2 < h → ∀ T > 0, (rectBody W D C look).on ((V.sight w h p.1 (sampleRow aa w h p.2)).at T) →
      ∀ l ∈ lamps, ∀ F, l.outline = some F → OffRect (2 * gap) F.w F.d F.c ((V.sight w h p.1 (sampleRow aa w h p.2)).at T))
    (p : Pixel) (hpx : p.1 < w) (hpy : p.2 < h) (R : Ray ℝ) (hR : R = V.sight w h p.1 (sampleRow aa w h p.2))
    (T : ℝ) (hT : 0 < T) (hon : (rectBody W D C look).on (R.at T)) (k : Color ℝ) (hlook : (rectBody W D C look).look (R.at T) = .matte k)
    (hfirst : ∀ l ∈ lamps, ∀ b ∈ l.look, ∀ T' > 0, b.on (R.at T') → T ≤ T')
    (M : List (Color ℝ))
    (hM : List.Forall₂ (fun l : Fixture => MeanLight (fun R' len => ThroughAll R' len [[rectBody W D C look], []])
      ((R.at T).add ⟨0, gap, 0⟩) ⟨0, 1, 0⟩ l.shine) lamps M)
    (e e' : Vec ℝ) (hF : IsFrame e e' ⟨0, 1, 0⟩) (P : Vec ℝ) (hP : P = (R.at T).add ⟨0, 2 * gap, 0⟩) (L : Color ℝ)
    (hL : L = gathered e e' ⟨0, 1, 0⟩ (fromSky col (lamps.map Fixture.look).flatten P)) :
    ∃ cam, Cam.projective fov = .ok cam ∧
      ∀ (rng : Rng Ext S), (∀ st, InUnitSq (rng.next2 st).1) →
      ∀ (shifts : List (Ext × Ext)), w * h ≤ shifts.length → (∀ x ∈ shifts, (∃ a, x.1.Is a) ∧ ∃ b, x.2.Is b) →
      ∀ (W : ℕ → ℕ), (∀ N, 0 < W N) → ∀ (seeds : ∀ N, Fin (W N) → S)
        (t : ∀ N, SamplerState Ext (Ctx Ext S) (W N)) (steps : ℕ → ℕ),
        (∀ N, Runs (ctxShader (s.imageFunc rng ((cam.yawPitchRoll yaw pitch roll).translate eye))) w h aa N
          (samplerInit w h (fun i => Ctx.new shifts (seeds N i)) fun _ => Cell.zero) (steps N) (t N)) →
        (∀ N, (t N).done) →
        ∃ I : ℕ → Color ℝ, (∀ N > 0, (((t N).mem p).image).Is (I N)) ∧
          ColorsTend I ⟨k.R * ((total M).R + L.R), k.G * ((total M).G + L.G), k.B * ((total M).B + L.B)⟩ := by
  classical
  have g0 : 0 < gap := by unfold gap; norm_num
  set flr := rectBody W D C look with hflr
  set things : List (List Body) := [[flr], []] with hthings
  have hflat : ∀ b, b ∈ things.flatten ↔ b = flr := by intro b; simp [hthings]
  -- lamps are above
  have hlampy : ∀ l ∈ lamps, ∀ b ∈ l.look, ∀ x, b.on x → C.y + 2 * gap < x.y := by
    intro l hl b hb x hx
    obtain ⟨-, F, hF', hin⟩ := lamp_body (hfits l hl).lamp b hb
    have := (hin x hx).1
    rw [this]
    exact habove l hl F hF'
  have hcast : ∀ q : Pixel, q.1 < w → q.2 < h →
      FollowedIn (roomOf col things lamps) s (1 + 1) .direct (V.sight w h q.1 (sampleRow aa w h q.2)) := by
    intro q hqx hqy
    refine C99_room St s m look hm wid dep W D hwid hdep hW hD c C hc hreach floor hfloor col ⟨sky, by rw [hobj]; simp, hsky⟩ things
      ?_ lamps hlights hfits 2 _ (sight_unit V w h _ _) hnear heye heye' (.inl ⟨le_rfl, ?_⟩)
    · rw [hobj]
      exact .cons (.inl ⟨rfl, rfl⟩) (.cons (.inr (.inl ⟨rfl, hsky⟩)) .nil)
    · intro b hb T hmeet
      rw [hflat] at hb
      subst hb
      exact hedge q hqx hqy T hmeet.2.1.1 hmeet.2.1.2.1
  have hdy : R.dir.y < 0 := by
    have h1 := hon.1
    have hst : R.start = V.eye := by rw [hR]; rfl
    simp only [Ray.at, Vec.madd, hst] at h1
    by_contra hc
    have := mul_nonneg hT.le (not_lt.1 hc)
    linarith
  have hfac : facing (flr.normal (R.at T)) R.dir = ⟨0, 1, 0⟩ := by
    show facing ⟨0, 1, 0⟩ R.dir = _
    unfold facing
    rw [if_neg]
    simp only [Vec.dot]
    linarith
  have eP : (R.at T).add ((⟨0, 1, 0⟩ : Vec ℝ).mul (2 * gap)) = P := by
    rw [hP]; simp [Vec.add, Vec.mul]
  have eP1 : (R.at T).add ((⟨0, 1, 0⟩ : Vec ℝ).mul gap) = (R.at T).add ⟨0, gap, 0⟩ := by
    simp [Vec.add, Vec.mul]
  have hPy : P.y = C.y + 2 * gap := by
    rw [hP]
    show (R.at T).y + 2 * gap = _
    rw [hon.1]
  have mem_direct : ∀ b, b ∈ ((roomOf col things lamps).visible .direct).flatten ↔ b = flr ∨ ∃ l ∈ lamps, b ∈ l.look := by
    intro b
    simp [roomOf, Setting.visible, hthings]
  have hmeet : Meets ((roomOf col things lamps).visible .direct).flatten R flr T := by
    have once : ∀ T' > 0, flr.on (R.at T') → T ≤ T' := by
      intro T' _ h'
      have h1 := hon.1
      have h2 := h'.1
      simp only [Ray.at, Vec.madd] at h1 h2
      have : (T - T') * R.dir.y = 0 := by linarith
      rcases mul_eq_zero.1 this with h | h
      · linarith
      · exact absurd h hdy.ne
    refine ⟨(mem_direct _).2 (.inl rfl), ⟨hT, hon, once⟩, ?_⟩
    intro b hb T' hT' h'
    rcases (mem_direct b).1 hb with rfl | ⟨l, hl, hbl⟩
    · exact once T' hT' h'
    · exact hfirst l hl b hbl T' hT' h'
  have hout : ∀ b ∈ (lamps.map Fixture.look).flatten, b.Outlined P := by
    intro b hb
    obtain ⟨th, hth, hb⟩ := List.mem_flatten.1 hb
    obtain ⟨l, hl, rfl⟩ := List.mem_map.1 hth
    exact lamp_outlined (hfits l hl).lamp (fun F hF' => by rw [hPy]; exact habove l hl F hF') b hb
  obtain ⟨o1, o2⟩ := outlined_list hout
  have mild : ∀ (g : Color ℝ → ℝ), g ⟨0, 0, 0⟩ = 0 → MildLight (fun ω => g (col ω)) →
      MildLight fun ω => g (fromSky col (lamps.map Fixture.look).flatten P ω) := by
    intro g hg0 hg
    have e : (fun ω => g (fromSky col (lamps.map Fixture.look).flatten P ω)) =
        fun ω => if ω ∈ {ω | ∃ b ∈ (lamps.map Fixture.look).flatten, ω ∈ b.from P} then 0 else g (col ω) := by
      funext ω
      unfold fromSky
      by_cases hb : ∃ b ∈ (lamps.map Fixture.look).flatten, ω ∈ b.from P
      · rw [if_pos hb, if_pos (show ω ∈ {ω | ∃ b ∈ (lamps.map Fixture.look).flatten, ω ∈ b.from P} from hb), hg0]
      · rw [if_neg hb, if_neg (show ω ∉ {ω | ∃ b ∈ (lamps.map Fixture.look).flatten, ω ∈ b.from P} from hb)]
    rw [e]
    exact hg.blocked o1 o2
  have hlight : ∀ ω, AnyAbove ⟨0, 1, 0⟩ ω → ∀ draw A, LooksIn (roomOf col things lamps) draw 1 .indirect ⟨P, ω⟩ A →
      A = fromSky col (lamps.map Fixture.look).flatten P ω := by
    rintro ω ⟨-, hω⟩ draw A hA
    have hωy : 0 ≤ ω.y := by simpa [Vec.dot] using hω
    rcases hA with ⟨b, T', ⟨hb, ⟨hT', hb2, -⟩, -⟩, hg⟩ | ⟨hno, rfl⟩
    · have hb : b = flr ∨ ∃ l ∈ lamps, ∃ b' ∈ l.look, b'.dark = b := by
        simpa [roomOf, Setting.visible, hthings] using hb
      rcases hb with rfl | ⟨l, hl, b', hb', rfl⟩
      · exfalso
        have h1 := hb2.1
        simp only [Ray.at, Vec.madd, hPy] at h1
        have := mul_nonneg hT'.le hωy
        linarith
      · have hA : A = ⟨0, 0, 0⟩ := hg
        unfold fromSky
        rw [hA, if_pos ⟨b', List.mem_flatten.2 ⟨_, List.mem_map.2 ⟨l, hl, rfl⟩, hb'⟩, T', hT', hb2⟩]
    · unfold fromSky
      rw [if_neg]
      · rfl
      · rintro ⟨b, hb, T', hT', hb2⟩
        obtain ⟨th, hth, hb⟩ := List.mem_flatten.1 hb
        obtain ⟨l, hl, rfl⟩ := List.mem_map.1 hth
        refine hno b.dark ?_ T' hT' hb2
        simp only [roomOf, Setting.visible, List.flatten_append, List.mem_append, List.map_map]
        exact .inr (List.mem_flatten.2 ⟨_, List.mem_map.2 ⟨l, hl, rfl⟩, List.mem_map.2 ⟨b, hb, rfl⟩⟩)
  have key := C99_soft (S := S) s hmed 1 (by rw [hd]; rfl) (roomOf col things lamps) (by
      rw [hlights]
      show List.Forall₂ Emits (lamps.map Fixture.light) (lamps.map Fixture.shine)
      rw [List.forall₂_map_left_iff, List.forall₂_map_right_iff, List.forall₂_same]
      exact fun l hl => C99_emits (hfits l hl).lamp)
    V h0 h1 fov yaw pitch roll eye hf hy hp hr he w h aa hcast p hpx hpy R hR flr T hmeet k hlook (by
      rintro b' ⟨hb', ⟨-, h', -⟩, -⟩
      rcases (mem_direct b').1 hb' with rfl | ⟨l, hl, hbl⟩
      · exact ⟨rfl, rfl⟩
      · have := hlampy l hl b' hbl _ h'
        rw [hon.1] at this
        linarith) ⟨0, 1, 0⟩ hfac.symm M (by
      show List.Forall₂ _ (lamps.map Fixture.shine) M
      rw [List.forall₂_map_left_iff, eP1]
      exact hM) (fromSky col (lamps.map Fixture.look).flatten P) (by
      rw [eP]
      exact hlight) (mild Color.R rfl mR) (mild Color.G rfl mG) (mild Color.B rfl mB) e e' hF
  rw [← hL] at key
  exact key

/-! ## Non-vacuity -/

private theorem e0 : (lit 0 : Ext).Is 0 := by simpa using Ext.Is.lit 0
private theorem e1 : (lit 1 : Ext).Is 1 := by simpa using Ext.Is.lit 1
private theorem e2 : (lit 2 : Ext).Is 2 := by simpa using Ext.Is.lit 2
private theorem e5 : (lit 5 : Ext).Is 5 := by simpa using Ext.Is.lit 5
private theorem e10 : (lit 10 : Ext).Is 10 := by simpa using Ext.Is.lit 10
private theorem fin_is' (q : ℝ) : (Ext.fin q).Is q := ⟨false, rfl⟩

/-- A white floor below a disk light and a blue sky. -/
private noncomputable def porch (floor : Obj Ext (Mat Ext)) (lamp : Light Ext) : Scene Ext where
  lights := [lamp]
  objects := [floor, .backdrop (some (.flat fun _ => .ok ⟨lit 0, lit 0, lit 1⟩))]
  media := []
  recursionDepth := 2

private noncomputable def porchView : View := ⟨Real.pi / 2, 0, -(Real.pi / 2), 0, ⟨0, 0, 0⟩⟩

private theorem porch_sight : porchView.sight 1 1 0 (sampleRow false 1 1 0) = ⟨⟨0, 0, 0⟩, ⟨0, -1, 0⟩⟩ := by
  have tan4 : Real.tan (Real.pi / 2 / 2) = 1 := by
    rw [show Real.pi / 2 / 2 = Real.pi / 4 by ring, Real.tan_pi_div_four]
  simp only [View.sight, porchView, turned, rodrigues, pixelDir, tan4, unitVec, sampleRow]
  norm_num [geo]

private noncomputable def porchFloor : Body := rectBody 10 10 ⟨0, -1, 0⟩ fun _ => .matte ⟨1, 1, 1⟩

private noncomputable def porchLamp (lamp : Light Ext) : Fixture :=
  ⟨lamp, diskLamp ⟨5, 5, 5⟩ 2 ⟨0, 1, 0⟩, [diskBody 2 ⟨0, 1, 0⟩ (lampLook ⟨5, 5, 5⟩)], some ⟨2, 2, ⟨0, 1, 0⟩⟩⟩

private theorem porch_fits {Srt : Sorter (Obj Ext (Mat Ext))} {lamp : Light Ext}
    (hl : Light.diskLight Srt ⟨lit 5, lit 5, lit 5⟩ (lit 2) ⟨lit 0, lit 1, lit 0⟩ = .ok lamp) :
    (porchLamp lamp).Fits [[porchFloor], []] := by
  have g0 : 0 < gap := by unfold gap; norm_num
  have g1 : gap < 1 / 100 := by unfold gap; norm_num
  have big : (5 : ℝ) ≤ 10 ^ 98 := by norm_num
  refine ⟨.disk hl ⟨e5, e5, e5⟩ e2 ⟨e0, e1, e0⟩ (by norm_num), ?_, ?_, ?_⟩
  · intro F hF p hp
    cases hF
    obtain ⟨h1, h2, h3⟩ := hp
    simp only [sub_zero] at h1 h2 h3
    refine ⟨by linarith, ?_, by linarith⟩
    rw [h1]; norm_num
  · rintro q ⟨h1, h2⟩
    have hs : Real.sqrt q.2 ≤ 1 := Real.sqrt_le_one.2 h2.2.le
    have hs0 := Real.sqrt_nonneg q.2
    have one : ∀ x : ℝ, |x| ≤ 1 → |0 + 2 / 2 * (Real.sqrt q.2 * x)| ≤ 10 ^ 98 := by
      intro x hx
      rw [zero_add, div_self two_ne_zero, one_mul, abs_mul, abs_of_nonneg hs0]
      have := mul_le_one₀ hs (abs_nonneg x) hx
      linarith
    refine ⟨one _ (Real.abs_cos_le_one _), ?_, one _ (Real.abs_sin_le_one _)⟩
    show |1 + gap| ≤ 10 ^ 98
    rw [abs_of_pos (by linarith : (0 : ℝ) < 1 + gap)]
    linarith
  · intro q _ b hb p hon
    have hb : b = porchFloor := by simpa using hb
    subst hb
    have hy : p.y = -1 := hon.1
    have : 2 ≤ length3 ((((porchLamp lamp).shine q).pos).sub p) := by
      refine Real.le_sqrt_of_sq_le ?_
      have e : (((porchLamp lamp).shine q).pos.sub p).y = 2 + gap := by
        show 1 + gap - p.y = _
        rw [hy]; ring
      rw [e]
      nlinarith [sq_nonneg (((porchLamp lamp).shine q).pos.sub p).x, sq_nonneg (((porchLamp lamp).shine q).pos.sub p).z]
    linarith

/-- The hypotheses of `C99_floor`, `C99_mean_disk`, `C99_above` and `C99_shade` are met by a white floor under a disk light and a blue
sky. Straight below the lamp, which has a radius of 1 and hangs at a height of 2, its light gives `5 · 1 / 5` in each colour, and the sky
`1 - 1 / (1 + (2 - 2 gap)²)` in blue. -/
example (St : Sorter (Obj Ext (Mat Ext))) : ∃ floor lamp,
    rectangle St (some (.matte fun _ => .ok ⟨lit 1, lit 1, lit 1⟩)) (lit 10) (lit 10) ⟨lit 0, Ext.fin (-1), lit 0⟩ = .ok floor ∧
    Light.diskLight St ⟨lit 5, lit 5, lit 5⟩ (lit 2) ⟨lit 0, lit 1, lit 0⟩ = .ok lamp ∧
    ∃ cam, Cam.projective (Ext.fin (Real.pi / 2)) = .ok cam ∧
      ∀ (rng : Rng Ext S), (∀ st, InUnitSq (rng.next2 st).1) →
      ∀ (shifts : List (Ext × Ext)), 1 * 1 ≤ shifts.length → (∀ x ∈ shifts, (∃ a, x.1.Is a) ∧ ∃ b, x.2.Is b) →
      ∀ (W : ℕ → ℕ), (∀ N, 0 < W N) → ∀ (seeds : ∀ N, Fin (W N) → S)
        (t : ∀ N, SamplerState Ext (Ctx Ext S) (W N)) (steps : ℕ → ℕ),
        (∀ N, Runs (ctxShader ((porch floor lamp).imageFunc rng
            ((cam.yawPitchRoll (Ext.fin 0) (Ext.fin (-(Real.pi / 2))) (Ext.fin 0)).translate ⟨lit 0, lit 0, lit 0⟩))) 1 1 false N
          (samplerInit 1 1 (fun i => Ctx.new shifts (seeds N i)) fun _ => Cell.zero) (steps N) (t N)) →
        (∀ N, (t N).done) →
        ∃ I : ℕ → Color ℝ, (∀ N > 0, (((t N).mem (0, 0)).image).Is (I N)) ∧
          ColorsTend I ⟨1, 1, 1 + (1 - 1 / (1 + (2 - 2 * gap) ^ 2))⟩ := by
  have g0 : 0 < gap := by unfold gap; norm_num
  have g1 : gap < 1 / 100 := by unfold gap; norm_num
  have big : (5 : ℝ) ≤ 10 ^ 98 := by norm_num
  obtain ⟨floor, ef, -⟩ := C96_rectangle St (.matte fun _ => .ok ⟨lit 1, lit 1, lit 1⟩) (fun _ => .matte ⟨1, 1, 1⟩)
    (fun _ _ _ => .matte rfl ⟨e1, e1, e1⟩) (lit 10) (lit 10) 10 10 e10 e10 (by norm_num) (by norm_num)
    ⟨lit 0, Ext.fin (-1), lit 0⟩ ⟨0, -1, 0⟩ ⟨e0, fin_is' _, e0⟩
  obtain ⟨plate, ep, -⟩ := C96_rectangle St (.twoSided (.flat (⟨lit 5, lit 5, lit 5⟩ : Color Ext).tex)
    (.flat (⟨lit 0, lit 0, lit 0⟩ : Color Ext).tex)) (lampLook ⟨5, 5, 5⟩)
    (fun _ _ _ => .twoSided (.flat rfl ⟨e5, e5, e5⟩) (.flat rfl ⟨e0, e0, e0⟩)) (lit 2) (lit 2) 2 2 e2 e2 (by norm_num) (by norm_num)
    ⟨lit 0, lit 1, lit 0⟩ ⟨0, 1, 0⟩ ⟨e0, e1, e0⟩
  obtain ⟨lamp, el⟩ : ∃ lamp, Light.diskLight St ⟨lit 5, lit 5, lit 5⟩ (lit 2) ⟨lit 0, lit 1, lit 0⟩ = .ok lamp := by
    unfold Light.diskLight Light.mkPlanar
    dsimp only
    rw [ep, ok_bind]
    exact ⟨_, rfl⟩
  refine ⟨floor, lamp, ef, el, ?_⟩
  have hat : (⟨⟨0, 0, 0⟩, ⟨0, -1, 0⟩⟩ : Ray ℝ).at 1 = ⟨0, -1, 0⟩ := by simp only [geo]; norm_num
  have hF : IsFrame (⟨0, 0, 1⟩ : Vec ℝ) ⟨1, 0, 0⟩ ⟨0, 1, 0⟩ := by
    refine ⟨?_, ?_, ?_, ?_, ?_, ?_⟩ <;> simp [Vec.dot]
  have hfloor1 : porchFloor.on ((⟨⟨0, 0, 0⟩, ⟨0, -1, 0⟩⟩ : Ray ℝ).at 1) := by
    rw [hat]
    simp only [porchFloor, rectBody]
    norm_num
  have only : ∀ q : Pixel, q.1 < 1 → q.2 < 1 → q = (0, 0) := by
    rintro ⟨a, b⟩ h1 h2
    simp only [Nat.lt_one_iff] at h1 h2
    rw [h1, h2]
  have hfree : ∀ b ∈ ([[porchFloor], []] : List (List Body)).flatten, ∀ ω, AnyAbove ⟨0, 1, 0⟩ ω → ω ∉ b.from ⟨0, -1 + gap, 0⟩ := by
    rintro b hb ω ⟨-, hω⟩ ⟨T, hT, h⟩
    have hb : b = porchFloor := by simpa using hb
    subst hb
    have hωy : 0 ≤ ω.y := by simpa [Vec.dot] using hω
    have h1 : -1 + gap + T * ω.y = -1 := h.1
    have := mul_nonneg hT.le hωy
    linarith
  have hsharel := C99_above hF ([[porchFloor], []] : List (List Body)).flatten ⟨0, -1 + gap, 0⟩ ⟨0, 1, 0⟩ 2 2 (1 + gap) (by norm_num)
    (by norm_num) rfl rfl (by ring) hfree
  have hmean := C99_mean_disk [[porchFloor], []] (by
      intro b hb p k h
      have hb : b = porchFloor := by simpa using hb
      subst hb
      cases h) ⟨0, -1 + gap, 0⟩ ⟨0, 1, 0⟩ _ _ hF ⟨5, 5, 5⟩ 2 (by norm_num) ⟨0, 1, 0⟩ (by norm_num) (by
      intro b hb
      have hb : b = porchFloor := by simpa using hb
      subst hb
      refine C97_rectangle _ _ _ _ _ ?_
      show -1 + gap ≠ -1
      linarith) (by
      intro b hb
      have hb : b = porchFloor := by simpa using hb
      subst hb
      refine .inl fun x hx => ?_
      rw [show x.y = -1 from hx.1]
      show -1 < 1 + gap
      linarith) _ rfl
  rw [hsharel] at hmean
  have hshade := C99_shade hF [diskBody 2 ⟨0, 1, 0⟩ (lampLook ⟨5, 5, 5⟩)] ⟨0, -1 + 2 * gap, 0⟩ ⟨0, 1, 0⟩ 2 (2 - 2 * gap) (by norm_num)
    (by linarith) rfl rfl (by ring) (lampLook ⟨5, 5, 5⟩) (List.mem_singleton_self _) (by
      intro b hb
      rw [List.mem_singleton] at hb
      subst hb
      refine (C99_outline 2 (by norm_num) _ _ _ ?_).2
      show -1 + 2 * gap < 1
      linarith) (by
      intro b hb ω _ h
      rw [List.mem_singleton] at hb
      subst hb
      exact h)
  have key := C99_floor (S := S) St (porch floor lamp) rfl rfl (.matte fun _ => .ok ⟨lit 1, lit 1, lit 1⟩) (fun _ => .matte ⟨1, 1, 1⟩)
    (fun _ _ _ => .matte rfl ⟨e1, e1, e1⟩) (lit 10) (lit 10) 10 10 e10 e10 (by norm_num) (by norm_num)
    ⟨lit 0, Ext.fin (-1), lit 0⟩ ⟨0, -1, 0⟩ ⟨e0, fin_is' _, e0⟩ (by
      rintro p ⟨h1, h2, h3⟩
      simp only [sub_zero] at h2 h3
      exact ⟨by linarith, by rw [h1]; norm_num, by linarith⟩) floor ef (fun _ => ⟨0, 0, 1⟩)
    (.backdrop (some (.flat fun _ => .ok ⟨lit 0, lit 0, lit 1⟩))) ⟨_, rfl, fun _ _ _ => ⟨_, rfl, e0, e0, e1⟩⟩ rfl
    (mildLight_of_continuous continuous_const) (mildLight_of_continuous continuous_const) (mildLight_of_continuous continuous_const)
    [porchLamp lamp] rfl (by
      intro l hl
      rw [List.mem_singleton] at hl
      subst hl
      exact porch_fits el) (by
      intro l hl F hF
      rw [List.mem_singleton] at hl
      subst hl
      cases hF
      show -1 + 2 * gap < 1
      linarith) porchView (by show 0 < Real.pi / 2; positivity) (by show Real.pi / 2 < Real.pi; linarith [Real.pi_pos])
    (Ext.fin (Real.pi / 2)) (Ext.fin 0) (Ext.fin (-(Real.pi / 2))) (Ext.fin 0) ⟨lit 0, lit 0, lit 0⟩ (fin_is' _) (fin_is' _) (fin_is' _)
    (fin_is' _) ⟨e0, e0, e0⟩ (by simp [InReach, porchView]) (by norm_num [OffRect, porchView]) (by norm_num [porchView]) (by
      intro l hl F hF
      rw [List.mem_singleton] at hl
      subst hl
      cases hF
      norm_num [OffRect, porchView]) 1 1 false (by
      intro q h1 h2 T hT hon l hl F hF
      rw [List.mem_singleton] at hl
      subst hl
      cases hF
      cases only q h1 h2
      rw [Nat.cast_zero, porch_sight] at hon ⊢
      have h1 := hon.1
      simp only [Ray.at, Vec.madd] at h1
      obtain rfl : T = 1 := by linarith
      rw [hat]
      refine ⟨?_, ?_, ?_⟩ <;> norm_num <;> linarith) (0, 0) Nat.one_pos Nat.one_pos ⟨⟨0, 0, 0⟩, ⟨0, -1, 0⟩⟩ (by
      rw [Nat.cast_zero, porch_sight]) 1 one_pos hfloor1 ⟨1, 1, 1⟩ rfl (by
      intro l hl b hb T' hT' hon
      rw [List.mem_singleton] at hl
      subst hl
      rw [show b = diskBody 2 ⟨0, 1, 0⟩ (lampLook ⟨5, 5, 5⟩) from List.mem_singleton.1 hb] at hon
      have h1 := hon.1.1
      simp only [Ray.at, Vec.madd] at h1
      linarith) [⟨5 * (1 / 5), 5 * (1 / 5), 5 * (1 / 5)⟩] (by
      refine .cons ?_ .nil
      have : ((⟨⟨0, 0, 0⟩, ⟨0, -1, 0⟩⟩ : Ray ℝ).at 1).add ⟨0, gap, 0⟩ = ⟨0, -1 + gap, 0⟩ := by
        rw [hat]; simp [Vec.add]
      rw [this]
      norm_num at hmean ⊢
      exact hmean) _ _ hF ⟨0, -1 + 2 * gap, 0⟩ (by rw [hat]; simp [Vec.add]) _ rfl
  have eL : gathered ⟨0, 0, 1⟩ ⟨1, 0, 0⟩ ⟨0, 1, 0⟩ (fromSky (fun _ => (⟨0, 0, 1⟩ : Color ℝ)) ([porchLamp lamp].map Fixture.look).flatten
      ⟨0, -1 + 2 * gap, 0⟩) = ⟨0, 0, 1 - 1 / (1 + (2 - 2 * gap) ^ 2)⟩ := by
    rw [C97_even]
    have : ([porchLamp lamp].map Fixture.look).flatten = [diskBody 2 ⟨0, 1, 0⟩ (lampLook ⟨5, 5, 5⟩)] := rfl
    rw [this, hshade]
    norm_num
  rw [eL] at key
  have en : (⟨1 * ((total [⟨5 * (1 / 5), 5 * (1 / 5), 5 * (1 / 5)⟩]).R + 0), 1 * ((total [⟨5 * (1 / 5), 5 * (1 / 5), 5 * (1 / 5)⟩]).G + 0),
      1 * ((total [⟨5 * (1 / 5), 5 * (1 / 5), 5 * (1 / 5)⟩]).B + (1 - 1 / (1 + (2 - 2 * gap) ^ 2)))⟩ : Color ℝ) =
      ⟨1, 1, 1 + (1 - 1 / (1 + (2 - 2 * gap) ^ 2))⟩ := by
    simp only [total]
    norm_num
  rw [← en]
  exact key

end BR
