import Verif.Lemmas.ExtShade
import Verif.Lemmas.Tree
import Verif.Spec.LitAssembly
import Verif.Props.C13_Nearest
import Verif.Props.C15_RayUnchanged

/-! The light field of a scene of bodies and lamps, in extended numbers. -/

namespace BR

variable {S : Type}

/-- No light stays no light. -/
theorem throughAll_black {R : Ray ℝ} {len : ℝ} {things : List (List Body)} {C : Color ℝ}
    (h : ThroughAll R len things ⟨0, 0, 0⟩ C) : C = ⟨0, 0, 0⟩ := by
  induction things with
  | nil => exact h
  | cons b bs ih =>
    rcases h with ⟨-, h⟩ | ⟨b, T, -, -, k, -, h⟩ | ⟨b, T, -, -, -, h⟩
    · exact ih h
    · simp only [zero_mul] at h
      exact ih h
    · exact h

/-- Only transparent materials let light pass. -/
theorem filter_appears {loc : Vec Ext} {m : Mat Ext} {X : Surface} (h : m.Appears loc X) :
    (∃ flt K, X = .clear K ∧ Mat.filter? (some m) = some flt ∧ ∀ c C, Color.Is c C → ∃ c', flt loc c = .ok c' ∧
      c'.Is ⟨C.R * K.R, C.G * K.G, C.B * K.B⟩) ∨ (Mat.filter? (some m) = none ∧ ∀ k, X ≠ .clear k) := by
  cases h with
  | transparent e hK =>
    refine .inl ⟨_, _, rfl, rfl, fun c C hc => ⟨_, ?_, hc.mul3 hK⟩⟩
    simp only [e, ok_bind]
    rfl
  | _ => exact .inr ⟨rfl, fun k h => by cases h⟩

private theorem big_is : (lit (9 * 10 ^ 99) : Ext).Is (9 * 10 ^ 99) := ⟨false, by rw [Ext.lit_ext]; push_cast; rfl⟩

/-- The distance of the sky. -/
theorem sky_is : (lit (10 ^ 99) : Ext).Is (10 ^ 99) := ⟨false, by rw [Ext.lit_ext]; push_cast; rfl⟩

/-- What reaches a point along a ray. -/
theorem occludeLoop_is {objs : List (Obj Ext (Mat Ext))} {things : List (List Body)} {r : Ray Ext} {R : Ray ℝ} (hr : r.Is R)
    {len : Ext} {L : ℝ} (hl : len.Is L) {sky : Option (Vec ℝ → Color ℝ)}
    (h : List.Forall₂ (StandsFor sky (L ≤ 9 * 10 ^ 99) R) objs things) (hL : sky ≠ none → L ≤ 10 ^ 99)
    {c : Color Ext} {C : Color ℝ} (hc : c.Is C) :
    ∃ c' C', occludeLoop objs len c r = .ok (c', r) ∧ c'.Is C' ∧ ThroughAll R L things C C' := by
  induction h generalizing c C with
  | nil => exact ⟨c, C, rfl, hc, rfl⟩
  | @cons o b objs bodies ho _ ih =>
    rcases ho with ho | ⟨rfl, col, hsky, tex, rfl, -⟩
    swap
    · obtain ⟨c2, C2, e2, h2, h3⟩ := ih hc
      refine ⟨c2, C2, ?_, h2, .inl ⟨by simp, h3⟩⟩
      rw [occludeLoop, Obj.intersect, ok_bind]
      dsimp only
      rw [if_neg, e2]
      rw [sky_is.lt hl]
      simp [hL (by rw [hsky]; simp)]
    obtain ⟨hit, e, hf⟩ := ho r hr
    rw [occludeLoop, e, ok_bind]
    dsimp only
    rcases hf with ⟨T, b, hb, hT, hT0, hon, ⟨N, m, -, -, -, hmat, happ⟩, hfirst⟩ | ⟨hno, hneg | ⟨hlen, hfar⟩⟩
    · by_cases hlt : T < L
      · have hmeets : Meets _ R b T := ⟨hb, ⟨hT0, hon, fun T' hT' => hfirst b hb T' hT'⟩, hfirst⟩
        rw [lit0_is.lt hT, hT.lt hl, if_pos (by simp [hT0, hlt])]
        rw [hmat]
        rcases filter_appears happ with ⟨flt, K, hX, hflt, hcol⟩ | ⟨hflt, hX⟩
        · rw [hflt]
          obtain ⟨c1, e1, h1⟩ := hcol c C hc
          obtain ⟨c2, C2, e2, h2, h3⟩ := ih h1
          refine ⟨c2, C2, ?_, h2, .inr (.inl ⟨b, T, hlt, hmeets, K, hX, h3⟩)⟩
          dsimp only
          rw [e1, ok_bind, e2]
        · rw [hflt]
          exact ⟨_, _, rfl, black_is, .inr (.inr ⟨b, T, hlt, hmeets, hX, rfl⟩)⟩
      · rw [lit0_is.lt hT, hT.lt hl, if_neg (by simp [hlt])]
        obtain ⟨c2, C2, e2, h2, h3⟩ := ih hc
        exact ⟨c2, C2, e2, h2, .inl ⟨fun b' hb' T' hT' hon' => (not_lt.1 hlt).trans (hfirst b' hb' T' hT' hon'), h3⟩⟩
    · rw [hneg]
      rw [if_neg (by simp)]
      obtain ⟨c2, C2, e2, h2, h3⟩ := ih hc
      exact ⟨c2, C2, e2, h2, .inl ⟨fun b' hb' T' hT' hon' => absurd hon' (hno b' hb' T' hT'), h3⟩⟩
    · have hlt : (hit.t <. len) = false := by
        rw [Bool.eq_false_iff]
        intro hlt
        have hle : (len <=. (lit (9 * 10 ^ 99) : Ext)) = true := by rw [hl.le big_is]; simpa using hlen
        obtain ⟨x, y, kx, ky, hxy⟩ := (CmpModel.lt_iff _ _).1 hlt
        obtain ⟨y', z, ky', kz, hyz⟩ := (CmpModel.le_iff _ _).1 hle
        rw [ky] at ky'
        cases ky'
        rw [(CmpModel.lt_iff _ _).2 ⟨x, z, kx, kz, lt_of_lt_of_le hxy hyz⟩] at hfar
        cases hfar
      rw [hlt, if_neg (by simp)]
      obtain ⟨c2, C2, e2, h2, h3⟩ := ih hc
      exact ⟨c2, C2, e2, h2, .inl ⟨fun b' hb' T' hT' hon' => absurd hon' (hno b' hb' T' hT'), h3⟩⟩

/-- The light of the lamps that falls on a surface. -/
theorem directLoop_is (rng : Rng Ext S) {s : Scene Ext} {sky : Option (Vec ℝ → Color ℝ)} {things : List (List Body)}
    {p n : Vec Ext} {P N : Vec ℝ} (hp : p.Is P) (hn : n.Is N) {lights : List (Light Ext)} {lamps : List Bulb}
    (hl : List.Forall₂ IsBulb lights lamps) (hfar : ∀ L ∈ lamps, L.pos ≠ P ∧ (0 < (L.pos.sub P).dot N →
      List.Forall₂ (StandsFor sky (length3 (L.pos.sub P) ≤ 9 * 10 ^ 99) ⟨P, unitVec (L.pos.sub P)⟩) s.objects things ∧
        (sky ≠ none → length3 (L.pos.sub P) ≤ 10 ^ 99))) {acc : Color Ext} {A : Color ℝ} (ha : acc.Is A)
    (ctx : Ctx Ext S) :
    ∃ c C, directLoop rng s.occlude p n lights acc ctx = .ok (c, ctx) ∧ AllFallsOn (fun R' len => ThroughAll R' len things) P N lamps C ∧
      c.Is ⟨A.R + C.R, A.G + C.G, A.B + C.B⟩ := by
  induction hl generalizing acc A with
  | nil => exact ⟨acc, ⟨0, 0, 0⟩, rfl, rfl, ha.of_eq (by simp)⟩
  | @cons l L lights lamps hL _ ih =>
    obtain ⟨pos, power, rfl, hpos, hpow⟩ := hL
    obtain ⟨hne, hshadow⟩ := hfar L (by simp)
    replace ih := fun {acc : Color Ext} {A : Color ℝ} (ha : acc.Is A) => ih (fun L' h' => hfar L' (by simp [h'])) ha
    have hd : (pos.sub p).Is (L.pos.sub P) := hpos.sub hp
    have hd0 : L.pos.sub P ≠ ⟨0, 0, 0⟩ := by
      intro e
      apply hne
      simp only [geo] at e ⊢
      refine ⟨?_, ?_, ?_⟩ <;> linarith [e.1, e.2.1, e.2.2]
    obtain ⟨d, hdd⟩ : ∃ d, d = L.pos.sub P := ⟨_, rfl⟩
    rw [← hdd] at hd hd0 hshadow
    have hpd := dot_self_pos hd0
    have hlen : length3 d = Real.sqrt (d.dot d) := by unfold length3; simp only [geo]; ring_nf
    have hlen0 : 0 < length3 d := by rw [hlen]; exact Real.sqrt_pos.2 hpd
    have hsq : length3 d ^ 2 = d.dot d := by rw [hlen, Real.sq_sqrt hpd.le]
    have hk : (Light.pointIntensity p pos).Is (1 / (4 * Real.pi * length3 d ^ 2)) := by
      have h2 : ((p.sub pos).len2).Is ((P.sub L.pos).len2) := (hp.sub hpos).dot (hp.sub hpos)
      have e2 : (P.sub L.pos).len2 = d.dot d := by rw [hdd]; simp only [geo]; ring
      rw [e2] at h2
      have := (lit1_is.div ((Ext.Is.lit 4).mul pi_is) (by have := Real.pi_pos; push_cast; positivity)).div h2 hpd.ne'
      refine Ext.Is.of_eq this ?_
      rw [hsq]
      push_cast
      rw [div_div]
    have hint := hpow.mul hk
    have hunit : unitVec d = ⟨d.x / length3 d, d.y / length3 d, d.z / length3 d⟩ := by
      unfold unitVec
      rw [← hlen]
      simp only [geo]
      refine ⟨?_, ?_, ?_⟩ <;> ring
    have hdir := hd.normalized hd0
    have hcos := hdir.dot hn
    have ecos : (unitVec d).dot N = (d.x * N.x + d.y * N.y + d.z * N.z) / length3 d := by
      rw [hunit]; simp only [geo]; ring
    rw [ecos] at hcos
    have hray : (⟨p, (pos.sub p).normalized⟩ : Ray Ext).Is ⟨P, ⟨d.x / length3 d, d.y / length3 d, d.z / length3 d⟩⟩ := by
      rw [← hunit]; exact ⟨hp, hdir⟩
    have hlenI : ((pos.sub p).len).Is (length3 d) := by
      rw [hlen]
      exact (hd.dot hd).sqrt hpd.le
    rw [hunit] at hshadow
    have hdot : 0 < (d.x * N.x + d.y * N.y + d.z * N.z) / length3 d → 0 < d.dot N := by
      intro h
      have e : d.dot N = (d.x * N.x + d.y * N.y + d.z * N.z) / length3 d * length3 d := by
        rw [div_mul_cancel₀ _ hlen0.ne']; simp only [geo]
      rw [e]; exact mul_pos h hlen0
    have hocc := fun h => occludeLoop_is hray hlenI (hshadow (hdot h)).1 (hshadow (hdot h)).2 hint
    have edef : ∀ C, FallsOn (fun R' len => ThroughAll R' len things) P N L C ↔
        (((d.x * N.x + d.y * N.y + d.z * N.z) / length3 d ≤ 0 ∧ C = ⟨0, 0, 0⟩) ∨
        (0 < (d.x * N.x + d.y * N.y + d.z * N.z) / length3 d ∧ ∃ c, ThroughAll ⟨P, ⟨d.x / length3 d, d.y / length3 d, d.z / length3 d⟩⟩
          (length3 d) things ⟨L.power.R * (1 / (4 * Real.pi * length3 d ^ 2)), L.power.G * (1 / (4 * Real.pi * length3 d ^ 2)),
            L.power.B * (1 / (4 * Real.pi * length3 d ^ 2))⟩ c ∧
          C = ⟨c.R * ((d.x * N.x + d.y * N.y + d.z * N.z) / length3 d), c.G * ((d.x * N.x + d.y * N.y + d.z * N.z) / length3 d),
            c.B * ((d.x * N.x + d.y * N.y + d.z * N.z) / length3 d)⟩)) := by
      intro C
      rw [hdd]
      rfl
    generalize (d.x * N.x + d.y * N.y + d.z * N.z) / length3 d = cosine at hcos edef hocc
    rw [directLoop]
    simp only [Light.sample, ok_bind]
    rw [Color.isZero, hint.1.eq lit0_is, hint.2.1.eq lit0_is, hint.2.2.eq lit0_is, hcos.le lit0_is]
    by_cases hz : (⟨L.power.R * (1 / (4 * Real.pi * length3 d ^ 2)), L.power.G * (1 / (4 * Real.pi * length3 d ^ 2)),
            L.power.B * (1 / (4 * Real.pi * length3 d ^ 2))⟩ : Color ℝ) = ⟨0, 0, 0⟩
    · have hz' := hz
      rw [Color.mk.injEq] at hz'
      rw [if_pos (by simp only [hz'.1, hz'.2.1, hz'.2.2, decide_true, Bool.and_self])]
      obtain ⟨c, C, e, hA, hc⟩ := ih ha
      refine ⟨c, C, e, ⟨⟨0, 0, 0⟩, C, (edef _).2 ?_, hA, by simp⟩, hc⟩
      rcases le_or_gt cosine 0 with h0 | h0
      · exact .inl ⟨h0, rfl⟩
      · obtain ⟨c', C', e1, h1, h2⟩ := hocc h0
        rw [hz] at h2 ⊢
        refine .inr ⟨h0, C', h2, ?_⟩
        rw [throughAll_black h2]
        simp
    · rw [if_neg (by
        intro h
        apply hz
        simp only [Bool.and_eq_true, decide_eq_true_eq] at h
        rw [Color.mk.injEq]
        exact ⟨h.1.1, h.1.2, h.2⟩)]
      rcases le_or_gt cosine 0 with h0 | h0
      · rw [if_pos (by simpa using h0)]
        obtain ⟨c, C, e, hA, hc⟩ := ih ha
        exact ⟨c, C, e, ⟨⟨0, 0, 0⟩, C, (edef _).2 (.inl ⟨h0, rfl⟩), hA, by simp⟩, hc⟩
      · rw [if_neg (by simpa using h0)]
        obtain ⟨c', C', e1, h1, h2⟩ := hocc h0
        have e1' : s.occlude ⟨p, (pos.sub p).normalized⟩ (pos.sub p).len (power.mul (Light.pointIntensity p pos)) =
          .ok (c', ⟨p, (pos.sub p).normalized⟩) := e1
        simp only [e1', ok_bind]
        obtain ⟨c, C, e, hA, hc⟩ := ih (ha.add (h1.mul hcos))
        refine ⟨c, _, e, ⟨_, C, (edef _).2 (.inr ⟨h0, C', h2, rfl⟩), hA, rfl⟩, hc.of_eq ?_⟩
        simp only [Color.mk.injEq]
        refine ⟨?_, ?_, ?_⟩ <;> ring

/-- Contexts with the frame `f` draw pairs that send light scattered around `n` to directions `ω` with `scatter n ω`. -/
def Draws (rng : Rng Ext S) (f : Frame Ext) (scatter : Vec ℝ → Vec ℝ → Prop) : Prop :=
  ∀ ctx : Ctx Ext S, ctx.frame = f → ∃ uv ctx', ctx.generate2 rng = .ok (uv, ctx') ∧ ctx'.frame = f ∧
    ∃ U V : ℝ, uv.1.Is U ∧ uv.2.Is V ∧ 0 ≤ V ∧ V ≤ 1 ∧ ∀ n : Vec ℝ, n.dot n = 1 → scatter n (cosineSphere U V n)

theorem unit_above {U V : ℝ} (V0 : 0 ≤ V) (V1 : V ≤ 1) {n : Vec ℝ} (hn : n.dot n = 1) : AnyAbove n (cosineSphere U V n) := by
  have hemi := C46_hemisphere U V V0 V1 n hn
  have h1 : Real.sqrt ((cosineSphere U V n).dot (cosineSphere U V n)) = 1 := hemi.1
  rw [Real.sqrt_eq_one] at h1
  exact ⟨h1, hemi.2.1⟩

/-- The sequences of the context, and the random source, give pairs in the unit square. -/
structure UnitDraws (rng : Rng Ext S) (f : Frame Ext) : Prop where
  rng : ∀ st, UnitPair (rng.next2 st).1
  seq1 : ∃ uv, f.seq1.generate2 = .ok uv ∧ UnitPair uv
  seq2 : ∃ uv, f.seq2.generate2 = .ok uv ∧ UnitPair uv

theorem draws_rng {rng : Rng Ext S} (h : ∀ st, UnitPair (rng.next2 st).1) {f : Frame Ext} (h0 : 2 < f.depth) :
    Draws rng f AnyAbove := by
  rintro ctx rfl
  have h0 : 2 < ctx.depth := h0
  unfold Ctx.generate2
  rw [if_neg (by omega), if_neg (by omega), if_neg (by omega)]
  obtain ⟨U, V, hU, hV, V0, V1⟩ := h ctx.seq3
  exact ⟨_, _, rfl, rfl, U, V, hU, hV, V0, V1, fun n hn => unit_above V0 V1 hn⟩

theorem draws_seq1 {rng : Rng Ext S} {f : Frame Ext} (h0 : f.depth = 1) {uv : Ext × Ext} (e : f.seq1.generate2 = .ok uv)
    {U V : ℝ} (hU : uv.1.Is U) (hV : uv.2.Is V) (V0 : 0 ≤ V) (V1 : V ≤ 1) :
    Draws rng f fun n ω => ω = cosineSphere U V n := by
  rintro ctx rfl
  have h0 : ctx.depth = 1 := h0
  have e : ctx.seq1.generate2 = .ok uv := e
  unfold Ctx.generate2
  rw [if_neg (by omega), if_pos h0, e]
  exact ⟨uv, ctx, rfl, rfl, U, V, hU, hV, V0, V1, fun n hn => rfl⟩

theorem draws_seq2 {rng : Rng Ext S} {f : Frame Ext} (h0 : f.depth = 2) {uv : Ext × Ext} (e : f.seq2.generate2 = .ok uv)
    {U V : ℝ} (hU : uv.1.Is U) (hV : uv.2.Is V) (V0 : 0 ≤ V) (V1 : V ≤ 1) :
    Draws rng f fun n ω => ω = cosineSphere U V n := by
  rintro ctx rfl
  have h0 : ctx.depth = 2 := h0
  have e : ctx.seq2.generate2 = .ok uv := e
  unfold Ctx.generate2
  rw [if_neg (by omega), if_neg (by omega), if_pos h0, e]
  exact ⟨uv, ctx, rfl, rfl, U, V, hU, hV, V0, V1, fun n hn => rfl⟩

theorem Draws.mono {rng : Rng Ext S} {f : Frame Ext} {p q : Vec ℝ → Vec ℝ → Prop} (h : Draws rng f p)
    (hpq : ∀ n ω, n.dot n = 1 → p n ω → q n ω) : Draws rng f q := by
  intro ctx hf
  obtain ⟨uv, ctx', e, h1, U, V, hU, hV, V0, V1, h2⟩ := h ctx hf
  exact ⟨uv, ctx', e, h1, U, V, hU, hV, V0, V1, fun n hn => hpq _ _ hn (h2 n hn)⟩

theorem draws_any {rng : Rng Ext S} {f : Frame Ext} (h : UnitDraws rng f) (h0 : 0 < f.depth) : Draws rng f AnyAbove := by
  by_cases h1 : f.depth = 1
  · obtain ⟨uv, e, U, V, hU, hV, V0, V1⟩ := h.seq1
    refine (draws_seq1 h1 e hU hV V0 V1).mono ?_
    rintro n ω hn rfl
    exact unit_above V0 V1 hn
  · by_cases h2 : f.depth = 2
    · obtain ⟨uv, e, U, V, hU, hV, V0, V1⟩ := h.seq2
      refine (draws_seq2 h2 e hU hV V0 V1).mono ?_
      rintro n ω hn rfl
      exact unit_above V0 V1 hn
    · exact draws_rng h.rng (by omega)

/-- A light field that gives, for the rays of unit length in `ask` and contexts with the frame `f`, finite colours that
satisfy `next`. -/
def Sends (lf : LF Ext S) (f : Frame Ext) (ask : Ray ℝ → Prop) (next : Ray ℝ → Color ℝ → Prop) : Prop :=
  ∀ (fld : Field) (r : Ray Ext) (R : Ray ℝ) (ctx : Ctx Ext S), r.Is R → R.dir.dot R.dir = 1 → ask R → ctx.frame = f →
    ∃ c C ctx', lf fld r ctx = .ok (c, ctx') ∧ c.Is C ∧ next R C ∧ ctx'.frame = f

theorem withRay_sends {lf : LF Ext S} {f : Frame Ext} {ask : Ray ℝ → Prop} {next : Ray ℝ → Color ℝ → Prop} (hlf : Sends lf f ask next) :
    Sends (withRay lf) f ask next := by
  intro fld r R ctx hr hu hask hf
  obtain ⟨c, C, ctx', e, hc, hn, hf'⟩ := hlf fld r R ctx.takeRay.2 hr hu hask hf
  refine ⟨c, C, ctx'.putRay ctx.takeRay.1, ?_, hc, hn, hf'⟩
  unfold withRay
  dsimp only
  rw [e, ok_bind]
  rfl

/-- What a surface sends back. -/
theorem shade_gives (rng : Rng Ext S) {s : Scene Ext} {sky : Option (Vec ℝ → Color ℝ)} {things : List (List Body)}
    {lamps : List Bulb}
    (hl : List.Forall₂ IsBulb s.lights lamps) {lf : LF Ext S} {f : Frame Ext} {ask : Ray ℝ → Prop}
    {next : Ray ℝ → Color ℝ → Prop} (hlf : Sends lf f ask next) {scatter : Vec ℝ → Vec ℝ → Prop} (hdr : Draws rng f scatter)
    {r : Ray Ext} {R : Ray ℝ} (hr : r.Is R) (hu : R.dir.dot R.dir = 1) {t : Ext} {T : ℝ} (ht : t.Is T) {n : Vec Ext}
    {N : Vec ℝ} (hn : n.Is N) (hN : N.dot N = 1) {loc : Vec Ext} {m : Mat Ext} {X : Surface} (hm : m.Appears loc X)
    (hcast : Casts (fun R' len => List.Forall₂ (StandsFor sky (len ≤ 9 * 10 ^ 99) R') s.objects things ∧ (sky ≠ none → len ≤ 10 ^ 99))
      ask lamps R T N X) (ctx : Ctx Ext S) (hf : ctx.frame = f) :
    ∃ c C ctx', m.shade rng s lf r ⟨t, n, loc⟩ ctx = .ok (c, ctx') ∧ c.Is C ∧ Gives scatter (fun R' len => ThroughAll R' len things) lamps next R T N X C ∧
      ctx'.frame = f := by
  have hback : (⟨r.at (t - tiny), reflect r.dir n⟩ : Ray Ext).Is ⟨R.at (T - gap), reflect R.dir N⟩ :=
    ⟨hr.at (ht.sub tiny_is), reflect_is hr.2 hn⟩
  have hmir := C44_mirror R.dir N hN
  have hru := reflect_unit hu hN
  induction hm generalizing ctx with
  | black => exact ⟨_, _, ctx, rfl, black_is, rfl, hf⟩
  | @flat tex c C e hc =>
    refine ⟨c, C, ctx, ?_, hc, rfl, hf⟩
    simp only [Mat.shade, e, ok_bind]
    rfl
  | @matte tex k K e hk =>
    have hfn := flipTowards_is hn hr.2
    have hP := (hr.at ht).madd tiny_is hfn
    have eP : (R.at T).madd gap (facing N R.dir) = (R.at T).add ((facing N R.dir).mul gap) := by
      simp only [geo]
    rw [eP] at hP
    obtain ⟨a, A, e1, hA, ha⟩ := directLoop_is rng hP hfn hl hcast.1 black_is ctx.takeRay.2
    obtain ⟨uv, ctx1, e2, hf1, U, V, hU, hV, V0, V1, hsc⟩ := hdr ctx.takeRay.2 hf
    have hω := cosineSphere_is hU hV V0 V1 hfn (facing_unit hN)
    obtain ⟨hωu, hωn⟩ := unit_above (U := U) V0 V1 (facing_unit (D := R.dir) hN)
    have hst := hP.madd tiny_is hfn
    have est : ((R.at T).add ((facing N R.dir).mul gap)).madd gap (facing N R.dir) =
        (R.at T).add ((facing N R.dir).mul (2 * gap)) := by
      simp only [geo]; refine ⟨?_, ?_, ?_⟩ <;> ring
    rw [est] at hst
    obtain ⟨b, B, ctx2, e3, hb, hnx, hf2⟩ := hlf .indirect ⟨((r.at t).madd tiny (flipTowards n r.dir)).madd tiny
      (flipTowards n r.dir), cosineSphere uv.1 uv.2 (flipTowards n r.dir)⟩ ⟨_, _⟩ ctx1 ⟨hst, hω⟩ hωu (hcast.2 _ hωu hωn) hf1
    refine ⟨(a.add b).mul3 k, ⟨K.R * (A.R + B.R), K.G * (A.G + B.G), K.B * (A.B + B.B)⟩, ctx2.putRay ctx.takeRay.1, ?_,
      ((ha.add hb).mul3 hk).of_eq ?_, ⟨_, A, B, hsc _ (facing_unit hN), hA, hnx, rfl⟩, hf2⟩
    · simp only [Mat.shade, shadeMatte]
      rw [e1, ok_bind]
      dsimp only
      rw [e2, ok_bind]
      dsimp only
      rw [e3, ok_bind]
      dsimp only
      rw [e, ok_bind]
      rfl
    · simp only [Color.mk.injEq]
      refine ⟨?_, ?_, ?_⟩ <;> ring
  | @reflective k K hk =>
    obtain ⟨b, B, ctx2, e3, hb, hnx, hf2⟩ := withRay_sends hlf .direct _ _ ctx hback hru (hcast _ hmir) hf
    refine ⟨b.mul3 k, _, ctx2, ?_, (hb.mul3 hk).of_eq ?_, ⟨_, B, hmir, hnx, rfl⟩, hf2⟩
    · simp only [Mat.shade, e3, ok_bind]
      rfl
    · simp only [Color.mk.injEq]
      refine ⟨?_, ?_, ?_⟩ <;> ring
  | @reflectFresnel n' M m X hn' hM _ ih =>
    obtain ⟨ct, c0, c1, hρ⟩ := fresnelReflection_is hn' hM (hn.dot hr.2).abs (abs_nonneg _)
    obtain ⟨a, A, ctx1, e1, ha, hA, hf1⟩ := ih hcast.2 ctx.takeRay.2 hf
    obtain ⟨b, B, ctx2, e2, hb, hnx, hf2⟩ := hlf .direct _ _ ctx1 hback hru (hcast.1 _ hmir) hf1
    refine ⟨_, _, ctx2.putRay ctx.takeRay.1, ?_, ((hb.mul hρ).madd (lit1_is.sub hρ) ha).of_eq ?_,
      ⟨_, A, B, _, ct, _, rfl, c0, c1, rfl, hA, hmir, hnx, rfl⟩, hf2⟩
    · simp only [Mat.shade]
      rw [e1, ok_bind]
      dsimp only
      rw [e2, ok_bind]
      rfl
    · simp only [Color.mk.injEq]
      refine ⟨?_, ?_, ?_⟩ <;> ring
  | @refractive n1 n2 N1 N2 h1 h2 p1 p2 hne =>
    obtain ⟨I, hI, hm12, n', i', m1, m2, ci, s2, eg, hn', hi', hm1, hm2, hci, hs2⟩ :=
      refractGeom_is h1 h2 p1 p2 hr.2 hn hu hN
    have q1 : 0 < I.m₁ := by rcases hm12 with ⟨e, -⟩ | ⟨e, -⟩ <;> rw [e] <;> assumption
    have q2 : 0 < I.m₂ := by rcases hm12 with ⟨-, e⟩ | ⟨-, e⟩ <;> rw [e] <;> assumption
    have q12 : I.m₁ ≠ I.m₂ := by rcases hm12 with ⟨e, e'⟩ | ⟨e, e'⟩ <;> rw [e, e'] <;> first | exact hne | exact hne.symm
    have hq0 : 0 ≤ I.m₁ * I.sinI / I.m₂ := div_nonneg (mul_nonneg q1.le (sinI_nonneg I)) q2.le
    have hiff : (I.m₁ * I.sinI / I.m₂) ^ 2 ≤ 1 ↔ I.m₁ * I.sinI ≤ I.m₂ := by
      rw [sq_le_one_iff₀ hq0, div_le_one q2]
    by_cases htot : I.m₁ * I.sinI ≤ I.m₂
    · have hQ := hiff.2 htot
      obtain ⟨k1, k2, k3, k4⟩ := refract_snell I hI.i_unit hI.n_unit q2 rfl hQ
      have hR := refractR_is hm1 hm2 q1 q2 hci (by linarith [hI.side]) hs2 hQ (by
        by_contra hcon
        push Not at hcon
        have hz : I.i.dot I.n = 0 := by linarith [hI.side, hcon.1]
        have hsq := sinI_sq I hI.i_unit hI.n_unit
        rw [hz] at hsq
        have hs1 : I.sinI = 1 := by
          have := sinI_nonneg I
          nlinarith
        rw [hs1, mul_one] at htot hcon
        have : I.m₁ / I.m₂ < 1 := (div_lt_one q2).2 (lt_of_le_of_ne htot q12)
        have h0 : 0 ≤ I.m₁ / I.m₂ := by positivity
        nlinarith [hcon.2])
      rw [k4] at hR
      have hD := refractDir_is (hm1.div hm2 q2.ne') hci hs2 hQ hi' hn'
      have hrefl := reflect_is hi' hn'
      have hside : (refractDir (I.m₁ / I.m₂) (-I.i.dot I.n) ((I.m₁ * I.sinI / I.m₂) ^ 2) I.i I.n).dot I.n ≤ 0 := by
        rw [k1]
        linarith [Real.sqrt_nonneg (1 - (I.m₁ * I.sinI / I.m₂) ^ 2)]
      obtain ⟨a, A, ctx1, e1, ha, hA, hf1⟩ := hlf .direct ⟨r.at (t + tiny), refractDir (m1 / m2) ci s2 i' n'⟩ ⟨R.at (T + gap), _⟩ ctx.takeRay.2
        ⟨hr.at (ht.add tiny_is), hD⟩ k2 ((hcast I hI).2 htot _ k2 hside k3) hf
      obtain ⟨b, B, ctx2, e2, hb, hB, hf2⟩ := hlf .direct ⟨r.at (t - tiny), reflect i' n'⟩ ⟨R.at (T - gap), _⟩ ctx1.takeRay.2
        ⟨hr.at (ht.sub tiny_is), hrefl⟩ (reflect_unit hI.i_unit hI.n_unit)
        ((hcast I hI).1 _ (.inr (C44_mirror _ _ hI.n_unit))) hf1
      refine ⟨_, _, (ctx2.putRay ctx1.takeRay.1).putRay ctx.takeRay.1, ?_, ((hb.mul hR).add (ha.mul (lit1_is.sub hR))).of_eq ?_,
        ⟨I, hI, .inr ⟨htot, _, _, A, B, _, k2, hside, k3, C44_mirror _ _ hI.n_unit, rfl, hA, hB, rfl⟩⟩, hf2⟩
      · simp only [Mat.shade, shadeRefractive]
        rw [eg]
        dsimp only
        rw [lit1_is.lt hs2, if_neg (by simpa using hQ)]
        rw [e1, ok_bind]
        dsimp only
        rw [e2, ok_bind]
        rfl
      · simp only [Color.mk.injEq]
        refine ⟨?_, ?_, ?_⟩ <;> ring
    · obtain ⟨b, B, ctx2, e3, hb, hnx, hf2⟩ := withRay_sends hlf .direct _ _ ctx hback hru ((hcast I hI).1 _ (.inl hmir)) hf
      refine ⟨b, B, ctx2, ?_, hb, ⟨I, hI, .inl ⟨not_le.1 htot, _, hmir, hnx⟩⟩, hf2⟩
      simp only [Mat.shade, shadeRefractive]
      rw [eg]
      dsimp only
      rw [lit1_is.lt hs2, if_pos (by rw [decide_eq_true_eq, ← not_le, hiff]; exact htot)]
      exact e3
  | @transparent tex useRec k K e hk =>
    obtain ⟨b, B, ctx2, e3, hb, hnx, hf2⟩ := hlf .indirect ⟨r.at (t + tiny), r.dir⟩ ⟨R.at (T + gap), R.dir⟩ ctx.takeRay.2
      ⟨hr.at (ht.add tiny_is), hr.2⟩ hu hcast hf
    refine ⟨_, _, ctx2.putRay ctx.takeRay.1, ?_, (hb.mul3 hk).of_eq ?_, ⟨B, hnx, rfl⟩, hf2⟩
    · simp only [Mat.shade]
      rw [e3, ok_bind]
      dsimp only
      rw [e, ok_bind]
      rfl
    · simp only [Color.mk.injEq]
      refine ⟨?_, ?_, ?_⟩ <;> ring
  | @twoSided m m' X Y _ _ ih1 ih2 =>
    simp only [Mat.shade]
    rw [lit0_is.lt (hr.2.dot hn)]
    by_cases h0 : 0 < R.dir.dot N
    · rw [if_pos (by simpa using h0)]
      obtain ⟨c, C, ctx', e, hc, hg, hf'⟩ := ih1 (hcast.1 h0) ctx hf
      exact ⟨c, C, ctx', e, hc, .inl ⟨h0, hg⟩, hf'⟩
    · rw [if_neg (by simpa using h0)]
      obtain ⟨c, C, ctx', e, hc, hg, hf'⟩ := ih2 (hcast.2 (not_lt.1 h0)) ctx hf
      exact ⟨c, C, ctx', e, hc, .inr ⟨not_lt.1 h0, hg⟩, hf'⟩
  | @blend a b A B m m' X Y hA hB _ _ ih1 ih2 =>
    obtain ⟨c, C, ctx1, e1, hc, hg, hf1⟩ := ih1 hcast.1 ctx hf
    obtain ⟨c', C', ctx2, e2, hc', hg', hf2⟩ := ih2 hcast.2 ctx1 hf1
    refine ⟨_, _, ctx2, ?_, ((hc.mul hA).madd hB hc').of_eq ?_, ⟨C, C', fun _ => hg, fun _ => hg', rfl⟩, hf2⟩
    · simp only [Mat.shade]
      rw [e1, ok_bind]
      dsimp only
      rw [e2, ok_bind]
      rfl
    · simp only [Color.mk.injEq]
      refine ⟨?_, ?_, ?_⟩ <;> ring
  | @blendMap tex c K m m' X Y e hK k0 k1 _ _ ih1 ih2 =>
    have opt : ∀ {key : Ext} {κ : ℝ} {mm : Mat Ext} {Z : Surface}, key.Is κ → 0 ≤ κ →
        (∀ ctx : Ctx Ext S, ctx.frame = f → ∃ c C ctx', mm.shade rng s lf r ⟨t, n, loc⟩ ctx = .ok (c, ctx') ∧ c.Is C ∧
          Gives scatter (fun R' len => ThroughAll R' len things) lamps next R T N Z C ∧ ctx'.frame = f) → ∀ ctx : Ctx Ext S, ctx.frame = f →
        ∃ c C ctx', whenPos key (mm.shade rng s lf r ⟨t, n, loc⟩) ctx = .ok (c, ctx') ∧ c.Is C ∧
          (κ ≠ 0 → Gives scatter (fun R' len => ThroughAll R' len things) lamps next R T N Z C) ∧ ctx'.frame = f := by
      intro key κ mm Z hk h0 ih ctx hf
      unfold whenPos
      rw [lit0_is.lt hk]
      by_cases hz : 0 < κ
      · rw [if_pos (by simpa using hz)]
        obtain ⟨c, C, ctx', e, hc, hg, hf'⟩ := ih ctx hf
        exact ⟨c, C, ctx', e, hc, fun _ => hg, hf'⟩
      · rw [if_neg (by simpa using hz)]
        exact ⟨_, _, ctx, rfl, black_is, fun h => absurd (le_antisymm (not_lt.1 hz) h0) h, hf⟩
    have hK2 := lit1_is.sub hK
    obtain ⟨ca, C, ctx1, e1, hc, hg, hf1⟩ := opt hK k0 (ih1 hcast.1) ctx hf
    obtain ⟨cb, C', ctx2, e2, hc', hg', hf2⟩ := opt hK2 (sub_nonneg.2 k1) (ih2 hcast.2) ctx1 hf1
    refine ⟨_, _, ctx2, ?_, ((hc.mul hK).madd hK2 hc').of_eq ?_, ⟨C, C', hg, hg', rfl⟩, hf2⟩
    · simp only [Mat.shade]
      rw [e, ok_bind, e1, ok_bind]
      dsimp only
      rw [e2, ok_bind]
      rfl
    · simp only [Color.mk.injEq]
      refine ⟨?_, ?_, ?_⟩ <;> ring

/-- What one hit says about the bodies or the sky. -/
private def TellsAll (sky : Option (Vec ℝ → Color ℝ)) (ghost : Prop) (R : Ray ℝ) (hit : HitRecord Ext (Mat Ext)) (bodies : List Body) : Prop :=
  (∃ T, ∃ b ∈ bodies, hit.t.Is T ∧ 0 < T ∧ b.on (R.at T) ∧ TellsOf b (R.at T) hit ∧
      ∀ other ∈ bodies, ∀ T' > 0, other.on (R.at T') → T ≤ T') ∨
    ((∀ b ∈ bodies, ∀ T > 0, ¬ b.on (R.at T)) ∧
      ((lit 0 <. hit.t) = false ∨ ghost ∧ (hit.t <. (lit (9 * 10 ^ 99) : Ext)) = false)) ∨
    (bodies = [] ∧ hit.t.Is (10 ^ 99) ∧ ∃ col tex c, sky = some col ∧ hit.mat = some (.flat tex) ∧ tex hit.loc = .ok c ∧
      Color.Is c (col R.dir))

/-- What is reported along a ray by all objects a light field sees, when the lights are point lights. -/
private theorem seen_reports {s : Scene Ext} {sky : Option (Vec ℝ → Color ℝ)} {things : List (List Body)} {lamps : List Bulb}
    {g : Prop} {R : Ray ℝ} (hs : List.Forall₂ (StandsFor sky g R) s.objects things) (hl : List.Forall₂ IsBulb s.lights lamps)
    (fld : Field) {r : Ray Ext} (hr : r.Is R) :
    ∃ hits misses, Reports (s.seen fld) r (hits ++ misses) ∧ List.Forall₂ (TellsAll sky g R) hits things ∧
      (∀ h ∈ misses, h.t.Is 0) ∧ ((∃ col, ∃ o ∈ s.objects, IsSky col o) → ∃ hit ∈ hits, hit.t.Is (10 ^ 99)) := by
  have h1 : ∀ {objs : List (Obj Ext (Mat Ext))} {things : List (List Body)}, List.Forall₂ (StandsFor sky g R) objs things →
      ∃ hits, Reports objs r hits ∧ List.Forall₂ (TellsAll sky g R) hits things ∧
        ((∃ col, ∃ o ∈ objs, IsSky col o) → ∃ hit ∈ hits, hit.t.Is (10 ^ 99)) := by
    intro objs bodies h
    induction h with
    | nil => exact ⟨[], .nil, .nil, by simp⟩
    | @cons o b objs bodies h _ ih =>
      obtain ⟨hits, h1, h2, h3⟩ := ih
      rcases h with h | ⟨rfl, col, hsky, tex, rfl, htex⟩
      · obtain ⟨hit, e, hg⟩ := h r hr
        refine ⟨hit :: hits, .cons ⟨r, e⟩ h1, .cons (hg.imp_right .inl) h2, ?_⟩
        rintro ⟨col, o', ho, hcol⟩
        rcases List.mem_cons.1 ho with rfl | ho
        · obtain ⟨tex, rfl, -⟩ := hcol
          rw [Obj.intersect] at e
          cases e
          exact ⟨_, List.mem_cons_self, sky_is⟩
        · obtain ⟨hit', h4, h5⟩ := h3 ⟨col, o', ho, hcol⟩
          exact ⟨hit', List.mem_cons_of_mem _ h4, h5⟩
      · obtain ⟨c, ec, hc⟩ := htex r.dir R.dir hr.2
        refine ⟨_ :: hits, .cons ⟨r, rfl⟩ h1, .cons (.inr (.inr ⟨rfl, sky_is, col, tex, c, hsky, rfl, ec, hc⟩)) h2, fun _ => ?_⟩
        exact ⟨_, List.mem_cons_self, sky_is⟩
  have h2 : ∀ {lights : List (Light Ext)} {lamps : List Bulb}, List.Forall₂ IsBulb lights lamps → ∀ g : Light Ext → Obj Ext (Mat Ext),
      (∀ pos pow, ∃ h r', (g (.point pos pow)).intersect r = .ok (h, r') ∧ h.t.Is 0) →
      ∃ misses, Reports (lights.map g) r misses ∧ ∀ h ∈ misses, h.t.Is 0 := by
    intro lights lamps h g hg
    induction h with
    | nil => exact ⟨[], .nil, by simp⟩
    | cons h _ ih =>
      obtain ⟨ms, h1, h2⟩ := ih
      obtain ⟨pos, pow, rfl, -⟩ := h
      obtain ⟨hit, r', e, h0⟩ := hg pos pow
      refine ⟨hit :: ms, .cons ⟨r', e⟩ h1, ?_⟩
      intro x hx
      rcases List.mem_cons.1 hx with rfl | hx
      · exact h0
      · exact h2 x hx
  obtain ⟨hits, a1, a2, a3⟩ := h1 hs
  cases fld with
  | direct =>
    obtain ⟨ms, b1, b2⟩ := h2 hl Light.object fun _ _ => ⟨HitRecord.miss, r, rfl, lit0_is⟩
    exact ⟨hits, ms, List.rel_append a1 b1, a2, b2, a3⟩
  | indirect =>
    obtain ⟨ms, b1, b2⟩ := h2 hl (fun l => .withMaterial (some .black) l.object) fun _ _ => ⟨_, r, rfl, lit0_is⟩
    exact ⟨hits, ms, List.rel_append a1 b1, a2, b2, a3⟩

/-- The light field of things and lamps. -/
theorem lightField_looksBy (rng : Rng Ext S) {s : Scene Ext} (hmed : s.media = []) {sky : Option (Vec ℝ → Color ℝ)}
    {things : List (List Body)} {lamps : List Bulb} (hl : List.Forall₂ IsBulb s.lights lamps)
    (scatter : ℕ → Vec ℝ → Vec ℝ → Prop) (n : Nat) (fld : Field) {r : Ray Ext} {R : Ray ℝ} (hr : r.Is R)
    (hu : R.dir.dot R.dir = 1) (hs : Followed sky s.objects things lamps n R) (ctx : Ctx Ext S)
    (hd : ∀ i : Nat, Draws rng { ctx.frame with depth := ctx.depth + 1 + i } (scatter i))
    (hdepth : ctx.depth + n = s.recursionDepth) :
    ∃ c C ctx', s.lightField rng n fld r ctx = .ok (c, ctx') ∧ c.Is C ∧
      LooksBy (skyColor sky) things lamps scatter n R C ∧ ctx'.frame = ctx.frame := by
  induction n generalizing scatter fld r R ctx with
  | zero =>
    refine ⟨Color.black, _, ctx, ?_, black_is, rfl, rfl⟩
    rw [Scene.lightField, lightFieldFrom_limit _ _ _ _ _ (by simpa using hdepth.symm)]
  | succ n ih =>
    have hne : s.recursionDepth ≠ ctx.depth := by omega
    obtain ⟨hs, hsky, hcasts⟩ := hs
    obtain ⟨hits, ms, hrep, hgood, hms, hback⟩ := seen_reports hs hl fld hr
    obtain ⟨front, efront, hf⟩ := C13_nearest _ r _ hrep
    have hmiss : ∀ h ∈ ms, (lit 0 <. h.t) = false := by
      intro h hh
      rw [lit0_is.lt (hms h hh)]; simp
    -- whatever is met is reported not before its first point
    have met : ∀ b ∈ things.flatten, ∀ T > 0, b.on (R.at T) → ∃ hit ∈ hits, ∃ T2, hit.t.Is T2 ∧ 0 < T2 ∧ T2 ≤ T := by
      intro b hb T hT hon
      obtain ⟨bs, hbs, hb⟩ := List.mem_flatten.1 hb
      obtain ⟨hit, hh, hg⟩ := forall₂_right hgood bs hbs
      rcases hg with ⟨T2, -, -, ht2, h20, -, -, hle⟩ | ⟨hnone, -⟩ | ⟨rfl, -⟩
      · exact ⟨hit, hh, T2, ht2, h20, hle b hb T hT hon⟩
      · exact absurd hon (hnone b hb T hT)
      · simp at hb
    rw [Scene.lightField, Scene.lightFieldFrom, if_neg hne]
    dsimp only
    rw [efront, ok_bind]
    dsimp only
    rcases hf with ⟨before, after, e, hpos, h1, h2⟩ | ⟨hfr, hno⟩
    · have hfm : front ∈ hits := by
        have : front ∈ hits ++ ms := by rw [e]; simp
        rcases List.mem_append.1 this with h | h
        · exact h
        · have hf := hmiss front h
          rw [hpos] at hf; cases hf
      have nearest : ∀ hit ∈ hits, ∀ T2, hit.t.Is T2 → 0 < T2 → (front.t <=. hit.t) = true := by
        intro hit hh T2 ht2 h20
        have hp2 : (lit 0 <. hit.t) = true := by rw [lit0_is.lt ht2]; simpa using h20
        have hh' : hit ∈ hits ++ ms := List.mem_append_left _ hh
        rw [e] at hh'
        rcases List.mem_append.1 hh' with hh | hh
        · exact h1 hit hh hp2
        · rcases List.mem_cons.1 hh with rfl | hh
          · rw [ht2.le ht2]; simp
          · obtain ⟨a, b, ka, kb, hab⟩ := (CmpModel.lt_iff _ _).1 (h2 hit hh hp2)
            exact (CmpModel.le_iff _ _).2 ⟨a, b, ka, kb, hab.le⟩
      obtain ⟨bs, hbs, hg⟩ := forall₂_left hgood front hfm
      have behind : ∀ hit ∈ hits, ∀ T2, hit.t.Is T2 → 0 < T2 → T2 < 9 * 10 ^ 99 →
          (front.t <. (lit (9 * 10 ^ 99) : Ext)) = false → False := by
        intro hit hh T2 ht2 h20 hlt hfar
        have hb' : (hit.t <. (lit (9 * 10 ^ 99) : Ext)) = true := by
          rw [ht2.lt big_is]; simpa using hlt
        obtain ⟨x, y, kx, ky, hxy⟩ := (CmpModel.le_iff _ _).1 (nearest hit hh T2 ht2 h20)
        obtain ⟨y', z, ky', kz, hyz⟩ := (CmpModel.lt_iff _ _).1 hb'
        rw [ky] at ky'
        cases ky'
        rw [(CmpModel.lt_iff _ _).2 ⟨x, z, kx, kz, lt_of_le_of_lt hxy hyz⟩] at hfar
        cases hfar
      rcases hg with hg | ⟨-, h | ⟨hsome | ⟨b, hb, T, hT, hlt, hon⟩, hfar⟩⟩ | ⟨-, hT, col, tex, c, ecol, hmat, etex, hc⟩
      rotate_left
      · rw [hpos] at h; cases h
      · obtain ⟨col, ecol⟩ := Option.ne_none_iff_exists'.1 hsome
        obtain ⟨hit, hh, ht⟩ := hback ⟨col, (hsky col ecol).1⟩
        exact (behind hit hh _ ht (by norm_num) (by norm_num) hfar).elim
      · obtain ⟨hit, hh, T2, ht2, h20, hle⟩ := met b hb T hT hon
        exact (behind hit hh T2 ht2 h20 (lt_of_le_of_lt hle hlt) hfar).elim
      · refine ⟨c, col R.dir, ctx, ?_, hc, .inr ⟨?_, by rw [ecol]; rfl⟩, rfl⟩
        · simp only [shadeFront, hmat, Mat.shade, etex, ok_bind, hmed, mediaLoop, pure_ok]
          simp
        · intro b hb T hT' hon
          obtain ⟨b', hb', T', hT1, hlt, hon'⟩ := (hsky col ecol).2 b hb T hT' hon
          obtain ⟨hit, hh, T2, ht2, h20, hle⟩ := met b' hb' T' hT1 hon'
          have := nearest hit hh T2 ht2 h20
          rw [hT.le ht2, decide_eq_true_eq] at this
          linarith
      obtain ⟨T, b, hb, hT, hT0, hon, ⟨N, m, hN, hN0, hNu, hmat, happ⟩, hfirst⟩ := hg
      have hmeets : Meets things.flatten R b T := by
        refine ⟨List.mem_flatten.2 ⟨bs, hbs, hb⟩, ⟨hT0, hon, fun T' hT' => hfirst b hb T' hT'⟩, ?_⟩
        intro other ho T' hT' hon'
        obtain ⟨hit, hh, T2, ht2, h20, hle⟩ := met other ho T' hT' hon'
        have := nearest hit hh T2 ht2 h20
        rw [hT.le ht2, decide_eq_true_eq] at this
        exact this.trans hle
      have hnn : front.normal.normalized.Is (b.normal (R.at T)) := by
        rw [← hNu]; exact hN.normalized hN0
      have hnu : (b.normal (R.at T)).dot (b.normal (R.at T)) = 1 := by rw [← hNu]; exact unitVec_dot hN0
      have hsend : Sends (s.lightFieldFrom rng (fun _ _ _ => .error .diverge) n) ({ ctx with depth := ctx.depth + 1 } : Ctx Ext S).frame
          (Followed sky s.objects things lamps n) (LooksBy (skyColor sky) things lamps (fun i => scatter (i + 1)) n) := by
        intro fld' r' R' ctx' hr' hu' hask hf'
        have hdep : ctx'.depth = ctx.depth + 1 := congrArg Frame.depth hf'
        obtain ⟨c, C, ctx2, e1, e2, e3, e4⟩ := ih (fun i => scatter (i + 1)) fld' hr' hu' hask ctx' (by
            intro i
            have := hd (i + 1)
            rw [hf', hdep]
            push_cast at this
            rw [show ctx.depth + 1 + ((i : Int) + 1) = ctx.depth + 1 + 1 + i by ring] at this
            exact this) (by push_cast at hdepth; omega)
        exact ⟨c, C, ctx2, e1, e2, e3, e4.trans hf'⟩
      obtain ⟨c, C, ctx', e1, hc, hgives, hf'⟩ := shade_gives rng hl hsend (scatter := scatter 0) (by
          have := hd 0
          rw [Nat.cast_zero, add_zero] at this
          exact this) hr hu hT hnn hnu happ (hcasts b T hmeets) { ctx with depth := ctx.depth + 1 } rfl
      refine ⟨c, C, { ctx' with depth := ctx'.depth - 1 }, ?_, hc, .inl ⟨b, T, hmeets, hgives⟩, ?_⟩
      · simp only [shadeFront, hmat]
        rw [e1, ok_bind]
        dsimp only
        rw [hmed, mediaLoop, ok_bind]
        rfl
      · have hdep : ctx'.depth = ctx.depth + 1 := congrArg Frame.depth hf'
        unfold Ctx.frame at hf' ⊢
        rw [Frame.mk.injEq] at hf' ⊢
        refine ⟨by dsimp only; omega, hf'.2⟩
    · subst hfr
      refine ⟨Color.black, _, ctx, ?_, black_is, .inr ⟨?_, ?_⟩, rfl⟩
      · simp only [shadeFront, Mat.shade, ok_bind, hmed, mediaLoop, pure_ok]
        simp
      · intro b hb T hT hon
        obtain ⟨hit, hh, T2, ht2, h20, -⟩ := met b hb T hT hon
        have := hno hit (List.mem_append_left _ hh)
        rw [lit0_is.lt ht2] at this
        simp [h20] at this
      · rcases hcol : sky with - | col
        · rfl
        · obtain ⟨hit, hh, ht⟩ := hback ⟨col, (hsky col hcol).1⟩
          have := hno hit (List.mem_append_left _ hh)
          rw [lit0_is.lt ht] at this
          norm_num at this

theorem lightField_looksAll (rng : Rng Ext S) {s : Scene Ext} (hmed : s.media = []) {sky : Option (Vec ℝ → Color ℝ)}
    {things : List (List Body)} {lamps : List Bulb} (hl : List.Forall₂ IsBulb s.lights lamps)
    (n : Nat) (fld : Field) {r : Ray Ext} {R : Ray ℝ} (hr : r.Is R) (hu : R.dir.dot R.dir = 1)
    (hs : Followed sky s.objects things lamps n R) (ctx : Ctx Ext S)
    (hd : UnitDraws rng ctx.frame) (h0 : 0 ≤ ctx.depth) (hdepth : ctx.depth + n = s.recursionDepth) :
    ∃ c C ctx', s.lightField rng n fld r ctx = .ok (c, ctx') ∧ c.Is C ∧ LooksAll (skyColor sky) things lamps n R C ∧
      ctx'.frame = ctx.frame :=
  lightField_looksBy rng hmed hl _ n fld hr hu hs ctx
    (fun i => draws_any ⟨hd.rng, hd.seq1, hd.seq2⟩ (by show 0 < ctx.depth + 1 + (i : Int); omega)) hdepth

/-! ## Single bodies, along all rays -/

theorem flatten_single (bodies : List Body) : (bodies.map fun b => [b]).flatten = bodies := by
  induction bodies <;> simp_all

theorem meets_single {bodies : List Body} {R : Ray ℝ} {b : Body} {T : ℝ} :
    Meets (bodies.map fun b => [b]).flatten R b T ↔ Meets bodies R b T := by
  rw [flatten_single]

theorem throughAll_single {R : Ray ℝ} {len : ℝ} {bodies : List Body} {c c' : Color ℝ} :
    ThroughAll R len (bodies.map fun b => [b]) c c' ↔ Through R len bodies c c' := by
  induction bodies generalizing c with
  | nil => rfl
  | cons b bs ih =>
    have hm : ∀ b' T, Meets [b] R b' T ↔ b' = b ∧ b.First R T := by
      intro b' T
      simp only [Meets, List.mem_singleton, forall_eq]
      constructor
      · rintro ⟨rfl, h, -⟩; exact ⟨rfl, h⟩
      · rintro ⟨rfl, h⟩; exact ⟨rfl, h, h.2.2⟩
    simp only [List.map_cons, ThroughAll, Through, ih, hm, List.mem_singleton, forall_eq]
    refine or_congr Iff.rfl (or_congr ?_ ?_)
    · constructor
      · rintro ⟨b', T, hT, ⟨rfl, h⟩, k, hk⟩; exact ⟨T, hT, h, k, hk⟩
      · rintro ⟨T, hT, h, k, hk⟩; exact ⟨b, T, hT, ⟨rfl, h⟩, k, hk⟩
    · constructor
      · rintro ⟨b', T, hT, ⟨rfl, h⟩, k, hk⟩; exact ⟨T, hT, h, k, hk⟩
      · rintro ⟨T, hT, h, k, hk⟩; exact ⟨b, T, hT, ⟨rfl, h⟩, k, hk⟩

theorem looksAll_single {bodies : List Body} {lamps : List Bulb} {n : Nat} {R : Ray ℝ} {C : Color ℝ} :
    LooksAll (fun _ => ⟨0, 0, 0⟩) (bodies.map fun b => [b]) lamps n R C ↔ Looks bodies lamps n R C := by
  induction n generalizing R C with
  | zero => rfl
  | succ n ih =>
    have e1 : (fun R' len => ThroughAll R' len (bodies.map fun b => [b])) = fun R' len => Through R' len bodies := by
      funext R' len c c'; exact propext throughAll_single
    have e2 : LooksBy (fun _ => ⟨0, 0, 0⟩) (bodies.map fun b => [b]) lamps (fun _ => AnyAbove) n = Looks bodies lamps n := by
      funext R C; exact propext ih
    rw [LooksAll, LooksBy, Looks, e1, e2, flatten_single]

theorem presents_along {o : Obj Ext (Mat Ext)} {b : Body} (h : Presents o b) {R : Ray ℝ} (hu : R.dir.dot R.dir = 1) (g : Prop) :
    PresentsAll g R o [b] := by
  intro r hr
  obtain ⟨hit, r', e, hf, hm⟩ := h r R hr hu
  obtain rfl := C15_ray_unchanged _ _ _ _ e
  refine ⟨hit, e, ?_⟩
  rcases hf with ⟨T, hT, hT0, hon, hfirst⟩ | ⟨hno, hneg | hbad⟩
  · refine .inl ⟨T, b, List.mem_singleton.2 rfl, hT, hT0, hon, hm T hT hT0, ?_⟩
    intro other ho
    rw [List.mem_singleton.1 ho]
    exact hfirst
  · refine .inr ⟨?_, .inl hneg⟩
    intro other ho
    rw [List.mem_singleton.1 ho]
    exact hno
  · exact hbad.1.elim

theorem presents_list {objs : List (Obj Ext (Mat Ext))} {bodies : List Body} (hs : List.Forall₂ Presents objs bodies)
    {R : Ray ℝ} (hu : R.dir.dot R.dir = 1) (g : Prop) : List.Forall₂ (PresentsAll g R) objs (bodies.map fun b => [b]) := by
  induction hs with
  | nil => exact .nil
  | cons h _ ih => exact .cons (presents_along h hu g) ih

/-- What casts nothing but rays of unit length and does not touch the lamps. -/
theorem casts_all {shadow : Ray ℝ → ℝ → Prop} {next : Ray ℝ → Prop} {lamps : List Bulb} {R : Ray ℝ} {T : ℝ} {N : Vec ℝ}
    (hu : R.dir.dot R.dir = 1) (hN : N.dot N = 1)
    (hsh : ∀ (R' : Ray ℝ) (len : ℝ), R'.dir.dot R'.dir = 1 → shadow R' len) (hnx : ∀ R' : Ray ℝ, R'.dir.dot R'.dir = 1 → next R')
    (hfar : ∀ L ∈ lamps, gap < length3 (L.pos.sub (R.at T))) (X : Surface) : Casts shadow next lamps R T N X := by
  have mir : ∀ {i n w : Vec ℝ}, i.dot i = 1 → n.dot n = 1 → IsMirror i n w → w.dot w = 1 := by
    rintro i n w hi hn ⟨h1, h2⟩
    simp only [geo] at hi hn h1 h2 ⊢
    obtain ⟨e1, e2, e3⟩ := h2
    rw [h1] at e1 e2 e3
    have e1' : w.x = i.x - 2 * (i.x * n.x + i.y * n.y + i.z * n.z) * n.x := by linarith
    have e2' : w.y = i.y - 2 * (i.x * n.x + i.y * n.y + i.z * n.z) * n.y := by linarith
    have e3' : w.z = i.z - 2 * (i.x * n.x + i.y * n.y + i.z * n.z) * n.z := by linarith
    rw [e1', e2', e3']
    linear_combination hi + 4 * (i.x * n.x + i.y * n.y + i.z * n.z) ^ 2 * hn
  have hlamp : ∀ L ∈ lamps, L.pos ≠ (R.at T).add ((facing N R.dir).mul gap) := by
    intro L hL e
    have := hfar L hL
    rw [e] at this
    have hfu := facing_unit (D := R.dir) hN
    generalize facing N R.dir = fn at this hfu
    generalize R.at T = P at this
    have e2 : length3 ((P.add (fn.mul gap)).sub P) = gap := by
      have hg : 0 ≤ gap := by unfold gap; norm_num
      unfold length3
      have : ((P.add (fn.mul gap)).sub P).x ^ 2 + ((P.add (fn.mul gap)).sub P).y ^ 2 + ((P.add (fn.mul gap)).sub P).z ^ 2 =
          gap ^ 2 := by
        simp only [geo] at hfu ⊢
        linear_combination gap ^ 2 * hfu
      rw [this, Real.sqrt_sq hg]
    rw [e2] at this
    exact lt_irrefl _ this
  induction X with
  | glow => trivial
  | matte =>
    refine ⟨fun L hL => ⟨hlamp L hL, fun _ => hsh _ _ (unitVec_dot ?_)⟩, fun ω hω _ => hnx _ hω⟩
    intro e
    apply hlamp L hL
    simp only [geo] at e ⊢
    refine ⟨?_, ?_, ?_⟩ <;> linarith [e.1, e.2.1, e.2.2]
  | mirror => exact fun w hw => hnx _ (mir hu hN hw)
  | varnish n X ih => exact ⟨fun w hw => hnx _ (mir hu hN hw), ih⟩
  | glass n1 n2 =>
    exact fun I hI => ⟨fun w hw => hnx _ (hw.elim (mir hu hN) (mir hI.i_unit hI.n_unit)), fun _ t ht _ _ => hnx _ ht⟩
  | clear => exact hnx _ hu
  | mix a X b Y ih1 ih2 => exact ⟨ih1, ih2⟩
  | sides X Y ih1 ih2 => exact ⟨fun _ => ih1, fun _ => ih2⟩

/-- Bodies that are presented along all rays are presented however far light is followed. -/
theorem followed_all {objs : List (Obj Ext (Mat Ext))} {bodies : List Body} (hs : List.Forall₂ Presents objs bodies)
    {lamps : List Bulb} (hapart : LampsApart bodies lamps) (n : Nat) {R : Ray ℝ} (hu : R.dir.dot R.dir = 1) :
    Followed none objs (bodies.map fun b => [b]) lamps n R := by
  induction n generalizing R with
  | zero => trivial
  | succ n ih =>
    have stands : ∀ (g : Prop) {R : Ray ℝ}, R.dir.dot R.dir = 1 →
        List.Forall₂ (StandsFor none g R) objs (bodies.map fun b => [b]) := fun g R hu =>
      (presents_list hs hu g).imp fun _ _ => .inl
    refine ⟨stands _ hu, by simp, ?_⟩
    intro b T hm
    obtain ⟨hb, ⟨hT0, hon, hfirst⟩, -⟩ := meets_single.1 hm
    refine casts_all hu ?_ (fun R' len hu' => ⟨stands _ hu', by simp⟩) (fun R' hu' => ih hu')
      (fun L hL => hapart b hb L hL _ hon) _
    -- the normal is of unit length
    obtain ⟨o, -, ho⟩ := forall₂_right hs b hb
    have real : ∀ x : ℝ, (Ext.num x false).Is x := fun x => ⟨false, rfl⟩
    obtain ⟨hit, r', -, hf, htell⟩ := ho ⟨⟨.num R.start.x false, .num R.start.y false, .num R.start.z false⟩,
      ⟨.num R.dir.x false, .num R.dir.y false, .num R.dir.z false⟩⟩ R ⟨⟨real _, real _, real _⟩, real _, real _, real _⟩ hu
    rcases hf with ⟨T2, h1, h2, h3, h4⟩ | ⟨hno, -⟩
    · obtain rfl : T2 = T := le_antisymm (h4 T hT0 hon) (hfirst T2 h2 h3)
      obtain ⟨N, m, -, hN0, hNu, -⟩ := htell T2 h1 h2
      rw [← hNu]
      exact unitVec_dot hN0
    · exact absurd hon (hno T hT0)

/-- The light field of bodies and lamps. -/
theorem lightField_looks (rng : Rng Ext S) {s : Scene Ext} (hmed : s.media = []) {bodies : List Body} {lamps : List Bulb}
    (hs : List.Forall₂ Presents s.objects bodies) (hl : List.Forall₂ IsBulb s.lights lamps) (hapart : LampsApart bodies lamps)
    (n : Nat) (fld : Field) {r : Ray Ext} {R : Ray ℝ} (hr : r.Is R) (hu : R.dir.dot R.dir = 1) (ctx : Ctx Ext S)
    (hd : UnitDraws rng ctx.frame) (h0 : 0 ≤ ctx.depth) (hdepth : ctx.depth + n = s.recursionDepth) :
    ∃ c C ctx', s.lightField rng n fld r ctx = .ok (c, ctx') ∧ c.Is C ∧ Looks bodies lamps n R C ∧
      ctx'.frame = ctx.frame := by
  obtain ⟨c, C, ctx', e, hc, hlook, hf⟩ := lightField_looksAll rng hmed hl n fld hr hu (followed_all hs hapart n hu) ctx hd
    h0 hdepth
  exact ⟨c, C, ctx', e, hc, looksAll_single.1 hlook, hf⟩

end BR
