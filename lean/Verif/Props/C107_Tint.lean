import Verif.Spec.TintDouble
import Verif.Lemmas.LampShade
import Verif.Props.C106_Glass

/-! C107: coloured shadows, in double precision. -/

namespace BR
set_option linter.unusedSectionVars false

open Flo

variable {S : Type} {p pos : Vec Flo} {P Q L : Vec ℝ}

theorem LampRay.way (h : LampRay p pos P Q L) : ∃ v g, Way p pos P Q L v g := by
  have w : Within 1024 P := ⟨h.near.1.trans (by norm_num), h.near.2.1.trans (by norm_num), h.near.2.2.trans (by norm_num)⟩
  obtain ⟨v, g, hv, hg, e1, e2, e3, eg⟩ := towards_is h.start h.lamp w h.there h.far
  exact ⟨v, g, h.start, hv, hg, h.near, h.there, h.close, h.far, eg, e1, e2, e3⟩

/-- **Transparent things colour the light that goes through them**, in double precision (partial: each thing counts once, also a box, of
which two surfaces are in the way; see `C107_violated`): if the light of a lamp clearly passes all things
but some transparent ones that are clearly in its way, what arrives is the light of the lamp times their colours, each taken once. -/
theorem C107_tint_partial (s : Scene Flo) (h : LampRay p pos P Q L) {things : List (Option (Mat Flo) × Obstacle)} {tints : List (Color Flo)}
    (hF : List.Forall₂ (fun o t => t.2.Built t.1 o) s.objects things) (hd : Dims Q L things tints) (c : Color Flo) :
    s.occlude ⟨p, (pos.sub p).normalized⟩ (pos.sub p).len c = .ok (tints.foldl Color.mul3 c, ⟨p, (pos.sub p).normalized⟩) := by
  obtain ⟨v, g, hw⟩ := h.way
  unfold Scene.occlude
  exact occlude_dims hw hF hd c

/-- **An opaque thing makes a full shadow**, in double precision, whatever transparent things there are as well, before or behind it. -/
theorem C107_dark (s : Scene Flo) (h : LampRay p pos P Q L) {things : List (Option (Mat Flo) × Obstacle)}
    (hF : List.Forall₂ (fun o t => t.2.Built t.1 o) s.objects things) (hd : Darkened Q L things) (c : Color Flo) :
    s.occlude ⟨p, (pos.sub p).normalized⟩ (pos.sub p).len c = .ok (Color.black, ⟨p, (pos.sub p).normalized⟩) := by
  obtain ⟨v, g, hw⟩ := h.way
  unfold Scene.occlude
  exact occlude_dark hw hF hd c

/-- **The colour of the light is right**, in double precision (partial, as `C107_tint_partial`): in each of the three colours, what arrives is the light of the lamp times the
part that each of the transparent things lets through, up to a part in `2^52` for each of them. -/
theorem C107_value_partial (s : Scene Flo) (h : LampRay p pos P Q L) {things : List (Option (Mat Flo) × Obstacle)} {tints : List (Color Flo)}
    (hF : List.Forall₂ (fun o t => t.2.Built t.1 o) s.objects things) (hd : Dims Q L things tints) (hfew : tints.length ≤ 2 ^ 20) {c : Color Flo}
    (k : Primary) {e : ℝ} (he : (c.pick k).Is e) (e1 : |e| ≤ 10 ^ 12) {κs : List (Primary → ℝ)}
    (hκ : List.Forall₂ (fun t κ => ∀ k, (t.pick k).Is (κ k) ∧ 0 ≤ κ k ∧ κ k ≤ 1) tints κs) :
    ∃ col x, s.occlude ⟨p, (pos.sub p).normalized⟩ (pos.sub p).len c = .ok (col, ⟨p, (pos.sub p).normalized⟩) ∧ (col.pick k).Is x ∧
      |x - (κs.map fun κ => κ k).prod * e| ≤ tints.length * (1 / 2 ^ 52 * |(κs.map fun κ => κ k).prod * e| + 1 / 2 ^ 199) := by
  obtain ⟨z, hz, ez⟩ := tints_value k hκ 0 (by rw [zero_add]; exact hfew) he (y := e) (e1.trans (by norm_num)) (by simp)
  refine ⟨_, z, C107_tint_partial s h hF hd c, hz, ez.trans_eq ?_⟩
  rw [zero_add]
  congr 1
  ring

/-! ## A glass box between a point and a lamp -/

/-- From the camera of the scene with the glass box to a lamp behind the box. -/
theorem glass_ray : LampRay ⟨lit 0, lit 0, lit 0⟩ ⟨lit 0, lit 0, lit ((-20 : ℤ) : ℚ)⟩ ⟨0, 0, 0⟩ ⟨0, 0, 0⟩ ⟨0, 0, -20⟩ := by
  have m20 : (lit ((-20 : ℤ) : ℚ) : Flo).Is (-20) := by simpa using int_is (-20) (by norm_num)
  refine ⟨⟨Ball.flo_zero, Ball.flo_zero, Ball.flo_zero⟩, ⟨Ball.flo_zero, Ball.flo_zero, m20⟩, by norm_num [Within], by norm_num [Within], ?_, ?_⟩
  · rw [apart_origin]
    exact Real.le_sqrt_of_sq_le (by norm_num)
  · rw [apart_origin]
    norm_num

theorem glass_dims : Dims ⟨0, 0, 0⟩ ⟨0, 0, -20⟩ [(some (.transparent greyFlo.tex true), .block ⟨-8, -8, -8⟩ ⟨8, 8, -4⟩), (some (.flat whiteFlo.tex), .sky)]
    [greyFlo] := by
  refine .tint ⟨?_, 3 / 10, by norm_num, by norm_num, ?_⟩ (.clear trivial .nil)
  · rintro ⟨-, -, -, h⟩
    norm_num at h
  · norm_num [InBox, onWay, along, Vec.sub]

/-- **What is lit through a box and what is seen through it do not match**: a box that lets half of the light through at each surface
is looked through with a quarter of the light, but lamps shine through it with half of their light (only one of its two surfaces is
counted). -/
theorem C107_violated (rng : Rng Flo S) {q : Ray Flo} {v d : Vec ℝ} (hg : Glance q v d) (hc : CloseTo ⟨⟨0, 0, 0⟩, ⟨0, 0, -1⟩⟩ v d) (ctx : Ctx Flo S)
    (h0 : ctx.depth = 0) (hready : ctx.Ready) (k : Primary) :
    (∃ col ctx' x, glassScene.lightField rng 3 .direct q ctx = .ok (col, ctx') ∧ (col.pick k).Is x ∧ |x - 1 / 4| ≤ 1 / 2 ^ 50) ∧
      ∃ col r' x, glassScene.occlude ⟨⟨lit 0, lit 0, lit 0⟩, ((⟨lit 0, lit 0, lit ((-20 : ℤ) : ℚ)⟩ : Vec Flo).sub ⟨lit 0, lit 0, lit 0⟩).normalized⟩
        ((⟨lit 0, lit 0, lit ((-20 : ℤ) : ℚ)⟩ : Vec Flo).sub ⟨lit 0, lit 0, lit 0⟩).len whiteFlo = .ok (col, r') ∧ (col.pick k).Is x ∧ |x - 1 / 2| ≤ 1 / 2 ^ 50 := by
  constructor
  · obtain ⟨val, tol, hs, hb⟩ := glass_steady v d (by rw [ahead_sight]; exact hc)
    obtain ⟨col, ctx', e, -, hk⟩ := C105_seen rng rfl hs hg (ctx := ctx) (by omega) (by rw [h0]; rfl) hready .direct
    obtain ⟨x, hx, ex⟩ := hk k
    refine ⟨col, ctx', x, e, hx, ?_⟩
    have h1 := abs_add_le (x - val k) (val k - 1 / 4)
    rw [sub_add_sub_cancel] at h1
    have h2 := hb k
    norm_num at *
    linarith
  · have one : (lit ((1 : ℤ) : ℚ) : Flo).Is 1 := by simpa using int_is 1 (by norm_num)
    obtain ⟨col, x, e, hx, ex⟩ := C107_value_partial glassScene glass_ray (things := [(_, .block ⟨-8, -8, -8⟩ ⟨8, 8, -4⟩), (_, .sky)]) (tints := [greyFlo])
      (.cons (wall_built _) (.cons .sky .nil)) glass_dims (by norm_num) (c := whiteFlo) k (e := 1) (by cases k <;> exact one) (by norm_num)
      (κs := [fun _ => 1 / 2]) (.cons (fun k => ⟨by cases k <;> exact Turn.half_is, by norm_num, by norm_num⟩) .nil)
    refine ⟨col, _, x, e, hx, ?_⟩
    norm_num at ex ⊢
    linarith

/-- The box is in the way of the lamp, and transparent; behind an opaque box there is a full shadow. -/
example : Darkened ⟨0, 0, 0⟩ ⟨0, 0, -20⟩ [(some (.transparent greyFlo.tex true), .block ⟨-8, -8, -8⟩ ⟨8, 8, -4⟩), (none, .block ⟨-8, -8, -8⟩ ⟨8, 8, -4⟩)] := by
  have hb : (Obstacle.block ⟨-8, -8, -8⟩ ⟨8, 8, -4⟩).Blocks ⟨0, 0, 0⟩ ⟨0, 0, -20⟩ := by
    refine ⟨?_, 3 / 10, by norm_num, by norm_num, ?_⟩
    · rintro ⟨-, -, -, h⟩
      norm_num at h
    · norm_num [InBox, onWay, along, Vec.sub]
  refine ⟨fun t ht => ?_, (none, .block ⟨-8, -8, -8⟩ ⟨8, 8, -4⟩), by simp, hb, rfl⟩
  simp only [List.mem_cons, List.not_mem_nil, or_false] at ht
  rcases ht with rfl | rfl
  · exact .inr ⟨hb, .inr ⟨_, _, rfl⟩⟩
  · exact .inr ⟨hb, .inl rfl⟩

end BR
