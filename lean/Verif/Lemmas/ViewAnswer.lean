import Verif.Spec.PictureDouble
import Verif.Props.C102_View
import Verif.Props.C85_Crash

/-! Matte things that are clearly met get a colour, in double precision. -/

namespace BR
set_option linter.unusedSectionVars false

open Flo

variable {S : Type} {r : Ray Flo} {v d : Vec ℝ} {mt : Option (Mat Flo)} {o : Obj Flo (Mat Flo)} {b : Obstacle}

/-- A thing does not get in the way of the light that falls on it. -/
theorem Glance.same (h : Glance r v d) (rng : Rng Flo S) (s : Scene Flo) (lf : LF Flo S) (tex : Tex Flo) (hb : b.Built mt o)
    {before after : List (Obj Flo (Mat Flo))} (hobj : s.objects = before ++ o :: after) {X : ℝ} {N : Vec ℝ} (hm : b.MetAt v d X N)
    (wQ : Within 63 (along v d X)) (lamps : List Fitting) (hlights : s.lights = lamps.map Fitting.light)
    (hclear : ∀ x ∈ lamps, b.Spares x.bulb.pos) (hl : ∀ x ∈ lamps, LampFor (along v d X) x.pos x.power x.bulb)
    {hit : HitRecord Flo (Mat Flo)} (hi : o.intersect r = .ok (hit, r)) :
    ∃ P n, (∀ ctx : Ctx Flo S, shadeMatte rng s lf tex r ⟨hit.t, hit.normal.normalized, hit.loc⟩ ctx =
        shadeMatte rng ⟨s.lights, before ++ after, s.media, s.recursionDepth⟩ lf tex r ⟨hit.t, hit.normal.normalized, hit.loc⟩ ctx) ∧
      Patch ((r.at hit.t).madd tiny (flipTowards hit.normal.normalized r.dir)) (flipTowards hit.normal.normalized r.dir) P n (along v d X) N ∧
      Within 64 P := by
  obtain ⟨hit', T, hi', hmat, hT, T0, eT⟩ := h.met hb hm wQ
  rw [hi] at hi'
  cases hi'
  cases hb with
  | @ball diam center c R hcen hd wc R0 R1 =>
    obtain ⟨hR, hstart, hin, X0, hX, hfirst, rfl⟩ := hm
    have hk := h.look hcen hd wc R0 R1
    obtain ⟨hpos, hface, P, n, hp, wP⟩ := ball_patch hk hR hstart hin X0 hX hfirst wQ hi
    have hflip : flipTowards hit.normal.normalized r.dir = hit.normal.normalized := by
      unfold flipTowards
      rw [hface]
      rfl
    refine ⟨P, n, fun ctx => ?_, by rw [hflip]; exact hp, wP⟩
    exact C87_shade rng s lf tex mt diam center before after hobj r v d c R hk hR (by
      rw [hlights]
      intro l hlm target ctx pos col ctx' e
      obtain ⟨x, hx, rfl⟩ := List.mem_map.1 hlm
      cases e
      exact ⟨_, (hl x hx).pos, (hl x hx).near, hclear x hx⟩) hit r hi hpos hface ctx
  | @block bb lo hi' h1 h2 w1 w2 ho =>
    obtain ⟨X0, i, up, hon, rfl, hd⟩ := hm
    exact box_same rng s lf tex mt bb hobj (h.look_box h1 h2 w1 w2 ho) X0 hon hd wQ lamps hlights hl hi
  | @floor K w dp c W D C o q ho =>
    obtain ⟨hoff, X0, hX, hin, hdiag, rfl⟩ := hm
    have hX1 := h.reach wQ
    have hk := h.look_floor hoff
    have hpos : (hit.t >. BR.GoFloat.lit 0) = true := by
      change (BR.GoFloat.lit 0 <. hit.t) = true
      rw [lt_is Ball.flo_zero hT]
      exact decide_eq_true T0
    have hnear : (hit.t <. BR.GoFloat.lit (9 * 10 ^ 99)) = true := by
      obtain ⟨x, hx, hx1, -⟩ := flo_far
      rw [lt_is hT hx]
      refine decide_eq_true (lt_of_lt_of_le ?_ hx1)
      have h1 := (abs_le.1 eT).2
      have h2 : (8192 : ℝ) ≤ 2 ^ 200 := by norm_num
      norm_num at h1
      linarith
    obtain ⟨P, n, hp, wP⟩ := floor_patch K mt q ho hk X0 hX wQ hi hpos hnear
    refine ⟨P, n, fun ctx => ?_, hp, wP⟩
    exact C100_shade K rng s lf tex mt q ho before after hobj hk (by
      rw [hlights]
      intro l hlm target ctx pos col ctx' e
      obtain ⟨x, hx, rfl⟩ := List.mem_map.1 hlm
      cases e
      exact ⟨_, (hl x hx).pos, (hl x hx).near, hclear x hx⟩) hi hpos hnear ctx
  | sky => exact hm.elim

/-- Random numbers can be drawn. -/
theorem generate2_answers (rng : Rng Flo S) (ctx : Ctx Flo S) (hdep : 1 ≤ ctx.depth) (hready : ctx.Ready) :
    ∃ uv ctx', ctx.generate2 rng = .ok (uv, ctx') ∧ ctx'.frame = ctx.frame := by
  unfold Ctx.generate2
  rw [if_neg (by omega)]
  split
  · obtain ⟨uv, huv⟩ := hready.1
    rw [huv]
    exact ⟨uv, ctx, rfl, rfl⟩
  · split
    · obtain ⟨uv, huv⟩ := hready.2
      rw [huv]
      exact ⟨uv, ctx, rfl, rfl⟩
    · exact ⟨_, _, rfl, rfl⟩

/-- The matte material answers, if the surroundings do. -/
theorem shade_answers (rng : Rng Flo S) (s : Scene Flo) (lf : LF Flo S) (refl : Color Flo) (r : Ray Flo) (h : HitCoords Flo) {P m Q N : Vec ℝ}
    (hp : Patch ((r.at h.t).madd tiny (flipTowards h.normal r.dir)) (flipTowards h.normal r.dir) P m Q N) (wP : Within 64 P)
    (lamps : List Fitting) (hlights : s.lights = lamps.map Fitting.light) (hfew : lamps.length ≤ 2 ^ 20)
    {things : List (Option (Mat Flo) × Obstacle)} (hF : List.Forall₂ (fun o t => t.2.Built t.1 o) s.objects things)
    (hl : ∀ x ∈ lamps, LampFor Q x.pos x.power x.bulb ∧ Decided things Q x.bulb x.part)
    (ctx : Ctx Flo S) (hdep : 1 ≤ ctx.depth) (hready : ctx.Ready)
    (hlf : ∀ ray (c : Ctx Flo S), c.depth = ctx.depth → lf .indirect ray c = .ok (Color.black, c)) :
    ∃ col ctx', shadeMatte rng s lf refl.tex r h ctx = .ok (col, ctx') ∧ ctx'.frame = ctx.frame := by
  unfold shadeMatte
  dsimp only
  generalize flipTowards h.normal r.dir = n at *
  generalize (r.at h.t).madd tiny n = p at *
  obtain ⟨acc, e, -⟩ := direct_lit hp rng s.occlude lamps (fun x hx => (hl x hx).1) (fun x hx => (hl x hx).2.part_mem) (by
    intro x hx c
    obtain ⟨v, g, hw⟩ := hp.way wP (hl x hx).1
    exact occlude_decided hw hF (hl x hx).2 c) 0 Color.black (fun _ => 0) (fun _ => 0) (fun k => Tally.zero (pick_black k))
    (by rw [zero_add]; exact hfew.trans (by norm_num)) ctx.takeRay.2
  obtain ⟨uv, ctx1, hgen, hf⟩ := generate2_answers rng ctx.takeRay.2 hdep hready
  have hd1 : ctx1.depth = ctx.depth := congrArg Frame.depth hf
  rw [hlights, e, ok_bind]
  dsimp only
  rw [hgen, ok_bind]
  dsimp only
  rw [hlf _ ctx1 hd1, ok_bind]
  exact ⟨_, _, rfl, hf⟩

/-- The level of recursion goes back to what it was. -/
theorem frame_back {ctx ctx1 : Ctx Flo S} (hf : ctx1.frame = Ctx.frame { ctx with depth := ctx.depth + 1 }) :
    Ctx.frame { ctx1 with depth := ctx1.depth - 1 } = ctx.frame := by
  simp only [Ctx.frame, Frame.mk.injEq] at hf ⊢
  exact ⟨by rw [hf.1, add_sub_cancel_right], hf.2⟩

/-- What shines by itself is found in its colour. -/
theorem Glows.found {s : Scene Flo} {χ : Primary → ℝ} (hd : Glows s v d χ) (h : Glance r v d) (hno : s.media = []) (rng : Rng Flo S) (ctx : Ctx Flo S)
    (hdep : s.recursionDepth ≠ ctx.depth) (fuel : ℕ) (fld : Field) :
    ∃ col, s.lightField rng (fuel + 1) fld r ctx = .ok (col, ctx) ∧ ∀ k, (col.pick k).Is (χ k) := by
  cases hd with
  | @met before after o col b _ X N lamps things hobj hb hχ hm wQ hlights hF hc =>
    obtain ⟨hit, T, hfront, hi, hmat, -⟩ := C102_front s fld h hobj hb hm wQ lamps hlights hF hc
    refine ⟨col, ?_, hχ⟩
    rw [Scene.lightField, Scene.lightFieldFrom, if_neg hdep, hfront, ok_bind]
    dsimp only
    rw [shadeFront, hmat, hno]
    dsimp only [Mat.shade, Color.tex]
    simp only [ok_bind, pure_ok, mediaLoop]
    rw [add_sub_cancel_right]
  | @sky before after col _ lamps things hobj hχ hlights hF hc =>
    exact ⟨col, C102_sky rng s hno fld h hobj lamps hlights hF hc (fuel := fuel) hdep, hχ⟩

/-- What is to be seen along a line is what the program finds, at the last level of recursion. -/
theorem Displays.found {s : Scene Flo} {val tol : Primary → ℝ} (hd : Displays s v d val tol) (h : Glance r v d) (hno : s.media = [])
    (rng : Rng Flo S) (ctx : Ctx Flo S) (h0 : 0 ≤ ctx.depth) (hrec : s.recursionDepth = ctx.depth + 1) (hready : ctx.Ready) (fld : Field) :
    ∃ col ctx', s.lightField rng (0 + 1) fld r ctx = .ok (col, ctx') ∧ ctx'.frame = ctx.frame ∧
      ∀ k, ∃ x, (col.pick k).Is x ∧ |x - val k| ≤ tol k := by
  cases hd with
  | @matte before after o refl b ρ X N lamps things hobj hb hρ hm wQ hlights hfew hclear hF hc hl =>
    obtain ⟨hit, T, hfront, hi, hmat, -⟩ := C102_front s fld h hobj hb hm wQ lamps hlights hF hc
    obtain ⟨P, n, hsame, hp, wP⟩ := h.same rng s (s.lightField rng 0) refl.tex hb hobj hm wQ lamps hlights hclear (fun x hx => (hl x hx).1) hi
    obtain ⟨col, ctx1, hcol, hf⟩ := shade_answers rng ⟨s.lights, before ++ after, s.media, s.recursionDepth⟩ (s.lightField rng 0) refl r
      ⟨hit.t, hit.normal.normalized, hit.loc⟩ hp wP lamps hlights hfew hF hl { ctx with depth := ctx.depth + 1 } (show 1 ≤ ctx.depth + 1 by omega) hready (by
        intro ray c hc
        unfold Scene.lightField Scene.lightFieldFrom
        rw [if_pos (by rw [hc, hrec])])
    have he : s.lightField rng (0 + 1) fld r ctx = .ok (col, { ctx1 with depth := ctx1.depth - 1 }) := by
      rw [Scene.lightField, Scene.lightFieldFrom, if_neg (by omega), hfront, ok_bind]
      dsimp only
      rw [shadeFront, hmat]
      dsimp only [Mat.shade]
      have := (hsame { ctx with depth := ctx.depth + 1 }).trans hcol
      rw [Scene.lightField] at this
      rw [this, ok_bind]
      dsimp only
      rw [hno]
      rfl
    refine ⟨col, _, he, frame_back hf, fun k => ?_⟩
    obtain ⟨loc, refl', ht, hk⟩ := C102_direct rng s hno fld h hobj hb hm wQ lamps hlights hfew hclear hF hc hl hrec he
    cases ht
    exact hk k (ρ k) (hρ k).1 (hρ k).2.1 (hρ k).2.2
  | plain hg =>
    obtain ⟨col, e, hk⟩ := hg.found h hno rng ctx (by omega) 0 fld
    exact ⟨col, ctx, e, rfl, fun k => ⟨_, hk k, by simp⟩⟩

end BR
