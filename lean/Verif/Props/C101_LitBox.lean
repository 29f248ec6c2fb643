import Verif.Props.C101_LitDouble
import Verif.Lemmas.BoxPatch

/-! C101: lit boxes have the right brightness, in double precision. -/

namespace BR
set_option linter.unusedSectionVars false

open Flo

variable {S : Type}

/-- A box does not get in the way of the light that falls on its own side. -/
theorem box_same (rng : Rng Flo S) (s : Scene Flo) (lf : LF Flo S) (tex : Tex Flo) (m : Option (Mat Flo)) (b : BBox Flo)
    {before after : List (Obj Flo (Mat Flo))} (hobj : s.objects = before ++ Obj.box b m :: after) {r r' : Ray Flo} {v d lo hi : Vec ℝ}
    (h : LookingAtBox r b v d lo hi) {X : ℝ} (X0 : 1 / 1024 ≤ X) {i : Fin 3} {up : Bool} (hX : OnSide lo hi i up (along v d X))
    (hd : (sideNormal i up).x * d.x + (sideNormal i up).y * d.y + (sideNormal i up).z * d.z ≤ -(1 / 2 ^ 13)) (wQ : Within 63 (along v d X))
    (lamps : List Fitting) (hlights : s.lights = lamps.map Fitting.light) (hl : ∀ x ∈ lamps, LampFor (along v d X) x.pos x.power x.bulb)
    {hit : HitRecord Flo (Mat Flo)} (hi : (Obj.box b m).intersect r = .ok (hit, r')) :
    ∃ P n, (∀ ctx : Ctx Flo S, shadeMatte rng s lf tex r ⟨hit.t, hit.normal.normalized, hit.loc⟩ ctx =
        shadeMatte rng ⟨s.lights, before ++ after, s.media, s.recursionDepth⟩ lf tex r ⟨hit.t, hit.normal.normalized, hit.loc⟩ ctx) ∧
      Patch ((r.at hit.t).madd tiny (flipTowards hit.normal.normalized r.dir)) (flipTowards hit.normal.normalized r.dir) P n (along v d X) (sideNormal i up) ∧
      Within 64 P := by
  have hd' : sgnOf up * d.get i ≤ -(1 / 2 ^ 13) := by
    refine le_of_eq_of_le ?_ hd
    fin_cases i <;> simp [sideNormal, sgnOf, Vec.get]
  obtain ⟨-, hflip, P, hp, wP, hout⟩ := box_patch m h X0 hX hd' wQ hi
  refine ⟨P, _, fun ctx => ?_, by rw [hflip]; exact hp, wP⟩
  unfold shadeMatte
  dsimp only
  rw [hflip]
  have key := fun acc (ctx : Ctx Flo S) => directLoop_pass rng before after (Obj.box b m)
    ((r.at hit.t).madd tiny hit.normal.normalized) hit.normal.normalized
    (fun pos => ∃ power l, LampFor (along v d X) pos power l) (by
      rintro pos ⟨power, l, hlamp⟩ hcos
      obtain ⟨v', g, hw⟩ := hp.way wP hlamp
      have hlook := hw.look_box h.min h.max h.min_le h.max_le h.ordered
      refine ⟨_, box_passes m hw hlook hp.normal hout hcos, ?_⟩
      have : ((HitRecord.miss : HitRecord Flo (Mat Flo)).t >. lit 0) = false := by
        change ((lit 0 : Flo) <. lit 0) = false
        rw [lt_is Ball.flo_zero Ball.flo_zero]
        simp
      rw [this, Bool.false_and]) s.lights (by
        rw [hlights]
        intro l hlm target ctx pos col ctx' e
        obtain ⟨x, hx, rfl⟩ := List.mem_map.1 hlm
        cases e
        exact ⟨_, _, hl x hx⟩) acc ctx
  have e1 : s.occlude = fun r len orig => occludeLoop (before ++ Obj.box b m :: after) len orig r := by
    funext r len orig
    rw [Scene.occlude, hobj]
  have e2 : (⟨s.lights, before ++ after, s.media, s.recursionDepth⟩ : Scene Flo).occlude =
      fun r len orig => occludeLoop (before ++ after) len orig r := rfl
  rw [e1, e2, key]

/-- **A lit box has the right brightness**, in double precision. In a scene of balls, boxes and floors a ray that starts outside a
box meets a side of it at `Q`, not near an edge, and not at a grazing angle. Each lamp is clearly seen from `Q` past the other
things or clearly hidden by them, or clearly behind transparent ones. Then the matte material shows the light of the lamps on the outer side that are seen by the
laws of optics, and the light found in the one direction looked into for the surroundings, both times the part that the surface
returns. The box takes no light from that side of itself. -/
theorem C101_box (rng : Rng Flo S) (s : Scene Flo) (lf : LF Flo S) (tex : Tex Flo) (m : Option (Mat Flo)) (b : BBox Flo)
    (before after : List (Obj Flo (Mat Flo))) (hobj : s.objects = before ++ Obj.box b m :: after) {r r' : Ray Flo} {v d lo hi : Vec ℝ}
    (h : LookingAtBox r b v d lo hi) {X : ℝ} (X0 : 1 / 1024 ≤ X) {Q : Vec ℝ} (hQ : Q = along v d X) {i : Fin 3} {up : Bool}
    (hX : OnSide lo hi i up Q)
    (hd : (sideNormal i up).x * d.x + (sideNormal i up).y * d.y + (sideNormal i up).z * d.z ≤ -(1 / 2 ^ 13)) (wQ : Within 63 Q)
    (lamps : List Fitting) (hlights : s.lights = lamps.map Fitting.light) (hfew : lamps.length ≤ 2 ^ 20)
    {things : List (Option (Mat Flo) × Obstacle)} (hF : List.Forall₂ (fun o t => t.2.Built t.1 o) (before ++ after) things)
    (hl : ∀ x ∈ lamps, LampFor Q x.pos x.power x.bulb ∧ Decided things Q x.bulb x.part)
    {hit : HitRecord Flo (Mat Flo)} (hi : (Obj.box b m).intersect r = .ok (hit, r'))
    {ctx ctx' : Ctx Flo S} {col : Color Flo}
    (he : shadeMatte rng s lf tex r ⟨hit.t, hit.normal.normalized, hit.loc⟩ ctx = .ok (col, ctx')) :
    ∃ (ray : Ray Flo) (ctx1 ctx2 : Ctx Flo S) (around refl : Color Flo), lf .indirect ray ctx1 = .ok (around, ctx2) ∧
      ctx1.depth = ctx.depth ∧ tex hit.loc = .ok refl ∧ RightColor lamps Q (sideNormal i up) refl around col := by
  subst hQ
  obtain ⟨P, n, hsame, hp, wP⟩ := box_same rng s lf tex m b hobj h X0 hX hd wQ lamps hlights (fun x hx => (hl x hx).1) hi
  rw [hsame] at he
  exact shade_lit rng ⟨s.lights, before ++ after, s.media, s.recursionDepth⟩ lf tex r ⟨hit.t, hit.normal.normalized, hit.loc⟩
    hp wP lamps hlights hfew hF hl he

/-- Such a scene: the box from `(-1, -1, -1)` to `(1, 1, 1)`, seen from `(0, 0, -3)`, with lamps at `(3, 0, -5)` and `(0, 8, -9)` and
a ball of radius one around `(0, 4, -5)` that hides the second lamp. The point seen is 5 from the first lamp and the cosine is
4/5. -/
example (rng : Rng Flo S) (m : Option (Mat Flo)) (hit : HitRecord Flo (Mat Flo)) (r' : Ray Flo)
    (hi : (Obj.box ⟨⟨lit ((-1 : ℤ) : ℚ), lit ((-1 : ℤ) : ℚ), lit ((-1 : ℤ) : ℚ)⟩, ⟨lit ((1 : ℤ) : ℚ), lit ((1 : ℤ) : ℚ), lit ((1 : ℤ) : ℚ)⟩⟩ m).intersect
      ⟨⟨lit 0, lit 0, lit (-3)⟩, ⟨lit 0, lit 0, lit 1⟩⟩ = .ok (hit, r'))
    (ctx ctx' : Ctx Flo S) (col : Color Flo)
    (he : shadeMatte rng ⟨twoLamps.map Fitting.light, [Obj.box ⟨⟨lit ((-1 : ℤ) : ℚ), lit ((-1 : ℤ) : ℚ), lit ((-1 : ℤ) : ℚ)⟩,
          ⟨lit ((1 : ℤ) : ℚ), lit ((1 : ℤ) : ℚ), lit ((1 : ℤ) : ℚ)⟩⟩ m,
        Obj.sphere none (lit 2) ⟨lit ((0 : ℤ) : ℚ), lit ((4 : ℤ) : ℚ), lit ((-5 : ℤ) : ℚ)⟩], [], 3⟩
      (fun _ _ ctx => .ok (⟨lit 0, lit 0, lit 0⟩, ctx)) (fun _ => .ok ⟨lit ((1 : ℤ) : ℚ), lit ((1 : ℤ) : ℚ), lit ((1 : ℤ) : ℚ)⟩)
      ⟨⟨lit 0, lit 0, lit (-3)⟩, ⟨lit 0, lit 0, lit 1⟩⟩ ⟨hit.t, hit.normal.normalized, hit.loc⟩ ctx = .ok (col, ctx')) :
    ∃ v, col.R.Is v ∧ |v - 100 / (4 * Real.pi * 5 ^ 2) * (4 / 5)| ≤ 1 / 6000 := by
  have a5 : apart (⟨3, 0, -5⟩ : Vec ℝ) ⟨0, 0, -1⟩ = 5 := by
    rw [apart, show ((3 - 0) ^ 2 + (0 - 0) ^ 2 + (-5 - -1) ^ 2 : ℝ) = 5 ^ 2 by norm_num, Real.sqrt_sq (by norm_num)]
  have h1 : LampFor ⟨0, 0, -1⟩ ⟨lit ((3 : ℤ) : ℚ), lit ((0 : ℤ) : ℚ), lit ((-5 : ℤ) : ℚ)⟩ ⟨lit ((100 : ℤ) : ℚ), lit ((100 : ℤ) : ℚ), lit ((100 : ℤ) : ℚ)⟩
      ⟨⟨3, 0, -5⟩, ⟨100, 100, 100⟩⟩ := by
    simpa using hundred_lamp (Q := ⟨0, 0, -1⟩) (a := 3) (b := 0) (c := -5) (by norm_num) (by norm_num) (by norm_num) (by push_cast; rw [a5]; norm_num)
  have h2 : LampFor ⟨0, 0, -1⟩ ⟨lit ((0 : ℤ) : ℚ), lit ((8 : ℤ) : ℚ), lit ((-9 : ℤ) : ℚ)⟩ ⟨lit ((100 : ℤ) : ℚ), lit ((100 : ℤ) : ℚ), lit ((100 : ℤ) : ℚ)⟩
      ⟨⟨0, 8, -9⟩, ⟨100, 100, 100⟩⟩ := by
    simpa using hundred_lamp (Q := ⟨0, 0, -1⟩) (a := 0) (b := 8) (c := -9) (by norm_num) (by norm_num) (by norm_num)
      (Real.le_sqrt_of_sq_le (by norm_num))
  have i2 : (lit 2 : Flo).Is (2 * 1) := by simpa using flo_int_is 2 (by norm_num)
  have i1 : (lit ((1 : ℤ) : ℚ) : Flo).Is 1 := by simpa using flo_int_is 1 (by norm_num)
  have j1 : (lit ((-1 : ℤ) : ℚ) : Flo).Is (-1) := by simpa using flo_int_is (-1) (by norm_num)
  have hlook : LookingAtBox ⟨⟨lit 0, lit 0, lit (-3)⟩, ⟨lit 0, lit 0, lit 1⟩⟩
      ⟨⟨lit ((-1 : ℤ) : ℚ), lit ((-1 : ℤ) : ℚ), lit ((-1 : ℤ) : ℚ)⟩, ⟨lit ((1 : ℤ) : ℚ), lit ((1 : ℤ) : ℚ), lit ((1 : ℤ) : ℚ)⟩⟩
      ⟨0, 0, -3⟩ ⟨0, 0, 1⟩ ⟨-1, -1, -1⟩ ⟨1, 1, 1⟩ :=
    ⟨⟨Ball.flo_zero, Ball.flo_zero, by simpa using flo_int_is (-3) (by norm_num)⟩, ⟨Ball.flo_zero, Ball.flo_zero, by simpa using flo_int_is 1 (by norm_num)⟩,
      ⟨j1, j1, j1⟩, ⟨i1, i1, i1⟩, by norm_num [Within], by norm_num [Within], by norm_num [Within], by norm_num, by norm_num, by norm_num⟩
  obtain ⟨ray, ctx1, ctx2, around, refl, hlf, -, htex, hcol⟩ := C101_box rng ⟨twoLamps.map Fitting.light, _, [], 3⟩ _ _ m _ []
    [Obj.sphere none (lit 2) ⟨lit ((0 : ℤ) : ℚ), lit ((4 : ℤ) : ℚ), lit ((-5 : ℤ) : ℚ)⟩] rfl hlook (X := 2) (by norm_num) (Q := ⟨0, 0, -1⟩)
    (by simp only [along]; norm_num) (i := 2) (up := false)
    ⟨by norm_num [outside, Vec.get], by norm_num [Vec.get], by
      intro j hj
      fin_cases j
      · norm_num [Vec.get]
      · norm_num [Vec.get]
      · exact absurd rfl hj⟩ (by norm_num [sideNormal])
    (by norm_num [Within]) twoLamps rfl (by norm_num [twoLamps])
    (things := [(none, .ball ⟨0, 4, -5⟩ 1)])
    (.cons (.ball ⟨by simpa using flo_int_is 0 (by norm_num), by simpa using flo_int_is 4 (by norm_num), by simpa using flo_int_is (-5) (by norm_num)⟩ i2
      (by norm_num [Within]) (by norm_num) (by norm_num)) .nil)
    (by
      intro x hx
      simp only [twoLamps, List.mem_cons, List.not_mem_nil, or_false] at hx
      rcases hx with rfl | rfl
      · refine ⟨h1, .clear ?_⟩
        intro t ht
        obtain rfl := List.mem_singleton.1 ht
        intro f f0 f1
        have h4 : 4 ≤ apart (onWay ⟨0, 0, -1⟩ ⟨3, 0, -5⟩ f) ⟨0, 4, -5⟩ := by
          refine Real.le_sqrt_of_sq_le ?_
          simp only [onWay, along, Vec.sub]
          nlinarith [sq_nonneg f, sq_nonneg (1 - f)]
        rw [abs_of_nonneg (by linarith)]
        linarith
      · have hb : (Obstacle.ball ⟨0, 4, -5⟩ 1).Blocks ⟨0, 0, -1⟩ ⟨0, 8, -9⟩ := by
          refine ⟨?_, 1 / 2, by norm_num, by norm_num, ?_⟩
          · rw [apart, Real.sq_sqrt (by positivity)]
            norm_num
          · rw [apart, Real.sq_sqrt (by positivity)]
            simp only [onWay, along, Vec.sub]
            norm_num
        exact ⟨h2, .shade (by
          intro t ht
          obtain rfl := List.mem_singleton.1 ht
          exact .inr ⟨hb, rfl⟩) ⟨_, List.mem_singleton.2 rfl, hb, rfl⟩⟩) hi he
  cases hlf
  cases htex
  obtain ⟨v, hv, e⟩ := hcol .red 0 1 Ball.flo_zero le_rfl (by norm_num) i1 (by norm_num) le_rfl
  refine ⟨v, hv, ?_⟩
  have hs : slant ⟨0, 0, -1⟩ (sideNormal 2 false) ⟨⟨3, 0, -5⟩, ⟨100, 100, 100⟩⟩ = 4 / 5 := by
    rw [slant, show sideNormal 2 false = ⟨0, 0, -1⟩ by simp [sideNormal]]
    dsimp only
    rw [a5]
    norm_num
  simp only [twoLamps, List.map_cons, List.map_nil, List.sum_cons, List.sum_nil, Fitting.gives, Fitting.most, one_mul, zero_mul, hs, squarely, a5,
    Color.pick, add_zero, one_mul, mul_zero] at e
  norm_num at e ⊢
  have pi3 := Real.pi_gt_three
  have : (100 : ℝ) / (4 * Real.pi * 25) ≤ 1 / 3 := by
    rw [div_le_iff₀ (by positivity)]
    linarith
  refine e.trans ?_
  linarith

end BR
