import Verif.Lemmas.Through
import Verif.Props.C103_Picture

/-! C106: what is behind transparent things is seen through them, in double precision. -/

namespace BR
set_option linter.unusedSectionVars false

open Flo

variable {S : Type} {r : Ray Flo} {v d : Vec ℝ} {mt : Option (Mat Flo)} {o : Obj Flo (Mat Flo)} {b : Obstacle}

/-- What a ray that goes on looks like. -/
theorem Glance.further (h : Glance r v d) {p : Vec Flo} {Q v' : Vec ℝ} (wQ : Within 63 Q) (h1 : Within (1 / 2 ^ 19) (v'.sub Q)) (hp : p.FIs v') :
    Glance ⟨p, r.dir⟩ v' d := by
  have key : ∀ {a c : ℝ}, |a - c| ≤ 1 / 2 ^ 19 → |c| ≤ 63 → |a| ≤ 64 := by
    intro a c h1 h2
    rw [abs_le] at *
    norm_num at h1
    constructor <;> linarith
  exact ⟨hp, h.dir, ⟨key h1.1 wQ.1, key h1.2.1 wQ.2.1, key h1.2.2 wQ.2.2⟩, h.long, h.short⟩

/-- The light that comes through a transparent material. -/
theorem light_through (rng : Rng Flo S) (s : Scene Flo) (hno : s.media = []) (fld : Field) {tint : Color Flo} {u : Bool} {hit : HitRecord Flo (Mat Flo)}
    (hfront : intersectFrontmost (s.seen fld) r = .ok (hit, r)) (hmat : hit.mat = some (.transparent tint.tex u))
    {ctx : Ctx Flo S} (hdep : s.recursionDepth ≠ ctx.depth) (fuel : ℕ) :
    ∃ ctx1 : Ctx Flo S, ctx1.frame = Ctx.frame { ctx with depth := ctx.depth + 1 } ∧
      (∀ e, s.lightField rng fuel .indirect ⟨r.at (hit.t + tiny), r.dir⟩ ctx1 = .error e → s.lightField rng (fuel + 1) fld r ctx = .error e) ∧
      ∀ col ctx2, s.lightField rng fuel .indirect ⟨r.at (hit.t + tiny), r.dir⟩ ctx1 = .ok (col, ctx2) →
        ∃ ctx3, s.lightField rng (fuel + 1) fld r ctx = .ok (col.mul3 tint, ctx3) ∧ ctx3.frame = Ctx.frame { ctx2 with depth := ctx2.depth - 1 } := by
  refine ⟨({ ctx with depth := ctx.depth + 1 } : Ctx Flo S).takeRay.2, rfl, ?_, ?_⟩
  · intro e he
    rw [Scene.lightField] at he
    rw [Scene.lightField, Scene.lightFieldFrom, if_neg hdep, hfront, ok_bind]
    dsimp only
    rw [shadeFront, hmat]
    dsimp only [Mat.shade]
    rw [he]
    rfl
  · intro col ctx2 he
    rw [Scene.lightField] at he
    refine ⟨{ ctx2.putRay ({ ctx with depth := ctx.depth + 1 } : Ctx Flo S).takeRay.1 with depth := ctx2.depth - 1 }, ?_, rfl⟩
    rw [Scene.lightField, Scene.lightFieldFrom, if_neg hdep, hfront, ok_bind]
    dsimp only
    rw [shadeFront, hmat]
    dsimp only [Mat.shade]
    rw [he, hno]
    rfl

/-- **What is behind a transparent thing is seen through it**, in double precision. In a scene of balls, boxes, floors and skies with
lamps without size, a line clearly meets a transparent thing first, not at a grazing angle. Then the light that comes along the ray
is that which comes along one that goes on in exactly the same direction, times the colour of the thing; it starts within `2^-19` of
where the thing is met, and past its surface, so that the surface is not met again: inside of a ball or box, or on its way from a floor. -/
theorem C106_pane (rng : Rng Flo S) (s : Scene Flo) (hno : s.media = []) (fld : Field) (h : Glance r v d)
    {before after : List (Obj Flo (Mat Flo))} (hobj : s.objects = before ++ o :: after) {tint : Color Flo} {u : Bool}
    (hb : b.Built (some (.transparent tint.tex u)) o) {X : ℝ} {N : Vec ℝ} (hm : b.MetAt v d X N) (wQ : Within 63 (along v d X))
    (hg : N.x * d.x + N.y * d.y + N.z * d.z ≤ -(1 / 16)) (lamps : List Fitting) (hlights : s.lights = lamps.map Fitting.light)
    {things : List (Option (Mat Flo) × Obstacle)} (hF : List.Forall₂ (fun o t => t.2.Built t.1 o) (before ++ after) things)
    (hc : ∀ t ∈ things, t.2.Passed v d (X + 1 / 1024)) {ctx : Ctx Flo S} (hdep : s.recursionDepth ≠ ctx.depth) (fuel : ℕ) :
    ∃ q v', Glance q v' d ∧ GoesOn b (along v d X) d v' ∧ ∃ ctx1 : Ctx Flo S,
      ctx1.frame = Ctx.frame { ctx with depth := ctx.depth + 1 } ∧
      (∀ e, s.lightField rng fuel .indirect q ctx1 = .error e → s.lightField rng (fuel + 1) fld r ctx = .error e) ∧
      ∀ col ctx2, s.lightField rng fuel .indirect q ctx1 = .ok (col, ctx2) →
        ∃ ctx3, s.lightField rng (fuel + 1) fld r ctx = .ok (col.mul3 tint, ctx3) ∧ ctx3.frame = Ctx.frame { ctx2 with depth := ctx2.depth - 1 } := by
  obtain ⟨hit, T, hfront, hi, hmat, -⟩ := C102_front s fld h hobj hb hm wQ lamps hlights hF hc
  obtain ⟨v', hv', hon⟩ := h.goes_on hb hm wQ hg hi
  exact ⟨_, v', h.further wQ hon.1 hv', hon, light_through rng s hno fld hfront hmat hdep fuel⟩

/-- **Light gets out of a transparent ball or box again**, in double precision: a line that starts in a ball or box, if only just, and
clearly leaves it, before it meets anything else, goes on in exactly the same direction from within `2^-19` of that point, and outside,
so that the thing is not met again; its colour is applied once more. -/
theorem C106_out (rng : Rng Flo S) (s : Scene Flo) (hno : s.media = []) (fld : Field) (h : Glance r v d)
    {before after : List (Obj Flo (Mat Flo))} (hobj : s.objects = before ++ o :: after) {tint : Color Flo} {u : Bool}
    (hb : b.Built (some (.transparent tint.tex u)) o) {X : ℝ} (hl : LeavesAt b v d X) (wQ : Within 63 (along v d X))
    (lamps : List Fitting) (hlights : s.lights = lamps.map Fitting.light)
    {things : List (Option (Mat Flo) × Obstacle)} (hF : List.Forall₂ (fun o t => t.2.Built t.1 o) (before ++ after) things)
    (hc : ∀ t ∈ things, t.2.Passed v d (X + 1 / 1024)) {ctx : Ctx Flo S} (hdep : s.recursionDepth ≠ ctx.depth) (fuel : ℕ) :
    ∃ q v', Glance q v' d ∧ GoesOut b (along v d X) d v' ∧ ∃ ctx1 : Ctx Flo S,
      ctx1.frame = Ctx.frame { ctx with depth := ctx.depth + 1 } ∧
      (∀ e, s.lightField rng fuel .indirect q ctx1 = .error e → s.lightField rng (fuel + 1) fld r ctx = .error e) ∧
      ∀ col ctx2, s.lightField rng fuel .indirect q ctx1 = .ok (col, ctx2) →
        ∃ ctx3, s.lightField rng (fuel + 1) fld r ctx = .ok (col.mul3 tint, ctx3) ∧ ctx3.frame = Ctx.frame { ctx2 with depth := ctx2.depth - 1 } := by
  obtain ⟨hit, T, v', hi, hmat, hT, T0, eT, hv', hout⟩ := h.goes_out hb hl wQ
  have hfront := front_of s fld h hobj wQ hl.2.1 hi hT T0 eT lamps hlights hF hc
  exact ⟨_, v', h.further wQ hout.1 hv', hout, light_through rng s hno fld hfront hmat hdep fuel⟩

end BR
