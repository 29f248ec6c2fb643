import Verif.Lemmas.ViewLeave
import Verif.Lemmas.Tree

/-! C102: the nearest thing is seen, with the right colour, in double precision. -/

namespace BR
set_option linter.unusedSectionVars false

open Flo

variable {S : Type}

/-- **The nearest thing is the one that is seen**, in double precision. In a scene of balls, boxes, floors and skies with lamps
without size, a line clearly meets one thing at distance `X`, and passes all others that far and `1/1024` beyond. Then
the material that is asked for a colour is the one of that thing, at distance `X` up to `2^-23`. -/
theorem C102_front (s : Scene Flo) (fld : Field) {r : Ray Flo} {v d : Vec ℝ} (h : Glance r v d) {before after : List (Obj Flo (Mat Flo))}
    {o : Obj Flo (Mat Flo)} (hobj : s.objects = before ++ o :: after) {mt : Option (Mat Flo)} {b : Obstacle} (hb : b.Built mt o) {X : ℝ} {N : Vec ℝ}
    (hm : b.MetAt v d X N) (wQ : Within 63 (along v d X)) (lamps : List Fitting) (hlights : s.lights = lamps.map Fitting.light)
    {things : List (Option (Mat Flo) × Obstacle)} (hF : List.Forall₂ (fun o t => t.2.Built t.1 o) (before ++ after) things)
    (hc : ∀ t ∈ things, t.2.Passed v d (X + 1 / 1024)) :
    ∃ hit T, intersectFrontmost (s.seen fld) r = .ok (hit, r) ∧ o.intersect r = .ok (hit, r) ∧ hit.mat = mt ∧ hit.t.Is T ∧ |T - X| ≤ 1 / 2 ^ 23 := by
  obtain ⟨hit, T, hi, hmat, hT, T0, eT⟩ := h.met hb hm wQ
  have hX1 := h.reach wQ
  have hTX : T ≤ X + 1 / 1024 := by
    have := (abs_le.1 eT).2
    norm_num at *
    linarith
  have pass : ∀ o ∈ before ++ after, GoesBy o r T := by
    intro o ho
    obtain ⟨t, ht, hbt⟩ := forall₂_left hF _ ho
    refine GoesBy.mono (h.passes hbt (by linarith) ?_ (hc t ht)) hTX
    have : (8192 : ℝ) ≤ 2 ^ 100 := by norm_num
    linarith
  obtain ⟨rest, e, hrest⟩ := seen_split s lamps hlights fld
  refine ⟨hit, T, ?_, hi, hmat, hT, eT⟩
  rw [e, hobj, List.append_assoc, List.cons_append]
  refine frontmost_is hi hT T0 (fun o ho => pass o (by simp [ho])) ?_
  intro o ho
  rcases List.mem_append.1 ho with ho | ho
  · exact pass o (by simp [ho])
  · exact hrest o ho r T

/-- **The nearest thing is seen with the right colour**, in double precision, if it is matte: the light that comes along the ray
is that of the lamps which are seen from the point met, by the laws of optics, and the light found in the one direction looked
into for the surroundings, both times the part that the surface returns. -/
theorem C102_seen (rng : Rng Flo S) (s : Scene Flo) (hno : s.media = []) (fld : Field) {r : Ray Flo} {v d : Vec ℝ} (h : Glance r v d)
    {before after : List (Obj Flo (Mat Flo))} {o : Obj Flo (Mat Flo)} (hobj : s.objects = before ++ o :: after) {tex : Tex Flo} {b : Obstacle}
    (hb : b.Built (some (.matte tex)) o) {X : ℝ} {N : Vec ℝ} (hm : b.MetAt v d X N) (wQ : Within 63 (along v d X)) (lamps : List Fitting)
    (hlights : s.lights = lamps.map Fitting.light) (hfew : lamps.length ≤ 2 ^ 20) (hclear : ∀ x ∈ lamps, b.Spares x.bulb.pos)
    {things : List (Option (Mat Flo) × Obstacle)} (hF : List.Forall₂ (fun o t => t.2.Built t.1 o) (before ++ after) things)
    (hc : ∀ t ∈ things, t.2.Passed v d (X + 1 / 1024))
    (hl : ∀ x ∈ lamps, LampFor (along v d X) x.pos x.power x.bulb ∧ Decided things (along v d X) x.bulb x.part)
    {fuel : ℕ} {ctx ctx' : Ctx Flo S} (hdep : s.recursionDepth ≠ ctx.depth) {col : Color Flo}
    (he : s.lightField rng (fuel + 1) fld r ctx = .ok (col, ctx')) :
    ∃ (ray : Ray Flo) (ctx1 ctx2 : Ctx Flo S) (around refl : Color Flo) (loc : Vec Flo), s.lightField rng fuel .indirect ray ctx1 = .ok (around, ctx2) ∧
      ctx1.depth = ctx.depth + 1 ∧ tex loc = .ok refl ∧ RightColor lamps (along v d X) N refl around col := by
  obtain ⟨hit, T, hfront, hi, hmat, -⟩ := C102_front s fld h hobj hb hm wQ lamps hlights hF hc
  rw [Scene.lightField, Scene.lightFieldFrom, if_neg hdep, hfront, ok_bind] at he
  dsimp only at he
  rw [shadeFront, hmat] at he
  dsimp only [Mat.shade] at he
  rw [hno] at he
  obtain ⟨⟨c, ctx3⟩, hsh, he⟩ := bind_eq_ok.1 he
  obtain ⟨ray, ctx1, ctx2, around, refl, h1, hd, h2, h3⟩ := h.lit rng s _ tex hb hobj hm wQ lamps hlights hfew hclear hF hl hi hsh
  simp only [mediaLoop, ok_bind, pure_ok, Except.ok.injEq, Prod.mk.injEq] at he
  rw [← he.1]
  refine ⟨ray, ctx1, ctx2, around, refl, _, h1, hd, h2, h3⟩

/-- **What is seen without looking around**, in double precision: at the last level of recursion the surroundings are taken to be
black, and the light is that of the lamps alone, times the part that the surface returns. In each channel the error is at most a
part in 2048 of the light of the lamps if they all stood squarely above the surface, and `2^-100`. -/
theorem C102_direct (rng : Rng Flo S) (s : Scene Flo) (hno : s.media = []) (fld : Field) {r : Ray Flo} {v d : Vec ℝ} (h : Glance r v d)
    {before after : List (Obj Flo (Mat Flo))} {o : Obj Flo (Mat Flo)} (hobj : s.objects = before ++ o :: after) {tex : Tex Flo} {b : Obstacle}
    (hb : b.Built (some (.matte tex)) o) {X : ℝ} {N : Vec ℝ} (hm : b.MetAt v d X N) (wQ : Within 63 (along v d X)) (lamps : List Fitting)
    (hlights : s.lights = lamps.map Fitting.light) (hfew : lamps.length ≤ 2 ^ 20) (hclear : ∀ x ∈ lamps, b.Spares x.bulb.pos)
    {things : List (Option (Mat Flo) × Obstacle)} (hF : List.Forall₂ (fun o t => t.2.Built t.1 o) (before ++ after) things)
    (hc : ∀ t ∈ things, t.2.Passed v d (X + 1 / 1024))
    (hl : ∀ x ∈ lamps, LampFor (along v d X) x.pos x.power x.bulb ∧ Decided things (along v d X) x.bulb x.part)
    {fuel : ℕ} {ctx ctx' : Ctx Flo S} (hdep : s.recursionDepth = ctx.depth + 1) {col : Color Flo}
    (he : s.lightField rng (fuel + 1) fld r ctx = .ok (col, ctx')) :
    ∃ loc refl, tex loc = .ok refl ∧ ∀ k ρ, (refl.pick k).Is ρ → 0 ≤ ρ → ρ ≤ 1 → ∃ x, (col.pick k).Is x ∧
      |x - ρ * (lamps.map (Fitting.gives (along v d X) N k)).sum| ≤ 1 / 2048 * (lamps.map (Fitting.most (along v d X) k)).sum + 1 / 2 ^ 100 := by
  obtain ⟨ray, ctx1, ctx2, around, refl, loc, ha, hd, ht, hcol⟩ := C102_seen rng s hno fld h hobj hb hm wQ lamps hlights hfew hclear hF hc hl
    (by omega) he
  refine ⟨loc, refl, ht, fun k ρ hρ ρ0 ρ1 => ?_⟩
  have hblack : around = Color.black := by
    unfold Scene.lightField Scene.lightFieldFrom at ha
    rw [if_pos (by omega)] at ha
    cases ha
    rfl
  subst hblack
  obtain ⟨x, hx, e⟩ := hcol k 0 ρ (by cases k <;> exact Ball.flo_zero) le_rfl (by norm_num) hρ ρ0 ρ1
  refine ⟨x, hx, ?_⟩
  rw [add_zero, mul_zero, add_zero] at e
  exact e

/-- A scene: a white ball of radius one around the origin, one around `(0, 4, -5)`, and a sky. -/
noncomputable def twoBalls (tex sky : Tex Flo) : List (Obj Flo (Mat Flo)) :=
  [Obj.sphere (some (.matte tex)) (lit 2) ⟨lit 0, lit 0, lit 0⟩,
    Obj.sphere none (lit 2) ⟨lit ((0 : ℤ) : ℚ), lit ((4 : ℤ) : ℚ), lit ((-5 : ℤ) : ℚ)⟩, Obj.backdrop (some (.flat sky))]

/-- What is in it besides the first ball. -/
noncomputable def otherThings (sky : Tex Flo) : List (Option (Mat Flo) × Obstacle) := [(none, .ball ⟨0, 4, -5⟩ 1), (some (.flat sky), .sky)]

theorem two_is : (lit 2 : Flo).Is (2 * 1) := by simpa using flo_int_is 2 (by norm_num)

theorem second_ball : (Obstacle.ball ⟨0, 4, -5⟩ 1).Built none (Obj.sphere none (lit 2) ⟨lit ((0 : ℤ) : ℚ), lit ((4 : ℤ) : ℚ), lit ((-5 : ℤ) : ℚ)⟩) :=
  .ball ⟨by simpa using flo_int_is 0 (by norm_num), by simpa using flo_int_is 4 (by norm_num), by simpa using flo_int_is (-5) (by norm_num)⟩ two_is
    (by norm_num [Within]) (by norm_num) (by norm_num)

theorem first_ball (m : Option (Mat Flo)) : (Obstacle.ball ⟨0, 0, 0⟩ 1).Built m (Obj.sphere m (lit 2) ⟨lit 0, lit 0, lit 0⟩) :=
  .ball ⟨Ball.flo_zero, Ball.flo_zero, Ball.flo_zero⟩ two_is (by norm_num [Within]) (by norm_num) (by norm_num)

theorem apart_origin (x y z : ℝ) : apart (⟨x, y, z⟩ : Vec ℝ) ⟨0, 0, 0⟩ = Real.sqrt (x ^ 2 + y ^ 2 + z ^ 2) := by simp [apart]

/-- Straight ahead from `(0, 0, -3)`. -/
theorem ahead_glance : Glance ⟨⟨lit 0, lit 0, lit (-3)⟩, ⟨lit 0, lit 0, lit 1⟩⟩ ⟨0, 0, -3⟩ ⟨0, 0, 1⟩ :=
  ⟨⟨Ball.flo_zero, Ball.flo_zero, by simpa using flo_int_is (-3) (by norm_num)⟩, ⟨Ball.flo_zero, Ball.flo_zero, by simpa using flo_int_is 1 (by norm_num)⟩,
    by norm_num [Within], by norm_num, by norm_num⟩

/-- Straight back from there. -/
theorem back_glance : Glance ⟨⟨lit 0, lit 0, lit (-3)⟩, ⟨lit 0, lit 0, lit ((-1 : ℤ) : ℚ)⟩⟩ ⟨0, 0, -3⟩ ⟨0, 0, -1⟩ :=
  ⟨⟨Ball.flo_zero, Ball.flo_zero, by simpa using flo_int_is (-3) (by norm_num)⟩, ⟨Ball.flo_zero, Ball.flo_zero, by simpa using flo_int_is (-1) (by norm_num)⟩,
    by norm_num [Within], by norm_num, by norm_num⟩

theorem ball_met : (Obstacle.ball ⟨0, 0, 0⟩ 1).MetAt ⟨0, 0, -3⟩ ⟨0, 0, 1⟩ 2 (outward ⟨0, 0, 0⟩ (along ⟨0, 0, -3⟩ ⟨0, 0, 1⟩ 2)) := by
  refine ⟨by norm_num, ?_, ⟨3, by norm_num, ?_⟩, by norm_num, ?_, ?_, rfl⟩
  · rw [apart_origin, Real.sq_sqrt (by positivity)]
    norm_num
  · rw [along, apart_origin, Real.sq_sqrt (by positivity)]
    norm_num
  · rw [along, apart_origin]
    norm_num
  · intro T T0 T2
    rw [along, apart_origin]
    intro h
    have := congrArg (· ^ 2) h
    dsimp only at this
    rw [Real.sq_sqrt (by positivity)] at this
    nlinarith

/-- In that scene, seen straight ahead from `(0, 0, -3)` without looking around, the first ball shows the light of the lamp that is not
hidden, at the distance 5 and with the cosine 4/5. -/
example (rng : Rng Flo S) (sky : Tex Flo) (fuel : ℕ) (ctx ctx' : Ctx Flo S) (hd : ctx.depth = 0) (col : Color Flo)
    (he : (⟨twoLamps.map Fitting.light, twoBalls (fun _ => .ok ⟨lit ((1 : ℤ) : ℚ), lit ((1 : ℤ) : ℚ), lit ((1 : ℤ) : ℚ)⟩) sky, [], 1⟩ : Scene Flo).lightField
      rng (fuel + 1) .direct ⟨⟨lit 0, lit 0, lit (-3)⟩, ⟨lit 0, lit 0, lit 1⟩⟩ ctx = .ok (col, ctx')) :
    ∃ x, col.R.Is x ∧ |x - 100 / (4 * Real.pi * 5 ^ 2) * (4 / 5)| ≤ 1 / 6000 := by
  have eQ : along (⟨0, 0, -3⟩ : Vec ℝ) ⟨0, 0, 1⟩ 2 = ⟨0, 0, -1⟩ := by
    simp only [along]
    norm_num
  have a1 : apart (⟨0, 0, -1⟩ : Vec ℝ) ⟨0, 0, 0⟩ = 1 := by rw [apart_origin]; norm_num
  have a5 : apart (⟨3, 0, -5⟩ : Vec ℝ) ⟨0, 0, -1⟩ = 5 := by
    rw [apart, show ((3 - 0) ^ 2 + (0 - 0) ^ 2 + (-5 - -1) ^ 2 : ℝ) = 5 ^ 2 by norm_num, Real.sqrt_sq (by norm_num)]
  have h1 : LampFor ⟨0, 0, -1⟩ ⟨lit ((3 : ℤ) : ℚ), lit ((0 : ℤ) : ℚ), lit ((-5 : ℤ) : ℚ)⟩ ⟨lit ((100 : ℤ) : ℚ), lit ((100 : ℤ) : ℚ), lit ((100 : ℤ) : ℚ)⟩
      ⟨⟨3, 0, -5⟩, ⟨100, 100, 100⟩⟩ := by
    simpa using hundred_lamp (Q := ⟨0, 0, -1⟩) (a := 3) (b := 0) (c := -5) (by norm_num) (by norm_num) (by norm_num) (by push_cast; rw [a5]; norm_num)
  have h2 : LampFor ⟨0, 0, -1⟩ ⟨lit ((0 : ℤ) : ℚ), lit ((8 : ℤ) : ℚ), lit ((-9 : ℤ) : ℚ)⟩ ⟨lit ((100 : ℤ) : ℚ), lit ((100 : ℤ) : ℚ), lit ((100 : ℤ) : ℚ)⟩
      ⟨⟨0, 8, -9⟩, ⟨100, 100, 100⟩⟩ := by
    simpa using hundred_lamp (Q := ⟨0, 0, -1⟩) (a := 0) (b := 8) (c := -9) (by norm_num) (by norm_num) (by norm_num)
      (Real.le_sqrt_of_sq_le (by norm_num))
  obtain ⟨loc, refl, ht, hcol⟩ := C102_direct rng _ rfl .direct ahead_glance (before := []) rfl (first_ball _) ball_met (by rw [eQ]; norm_num [Within]) twoLamps rfl
    (by norm_num [twoLamps])
    (by
      intro x hx
      simp only [twoLamps, List.mem_cons, List.not_mem_nil, or_false] at hx
      rcases hx with rfl | rfl
      · change _ ≤ apart _ _
        rw [apart_origin]
        exact Real.le_sqrt_of_sq_le (by norm_num)
      · change _ ≤ apart _ _
        rw [apart_origin]
        exact Real.le_sqrt_of_sq_le (by norm_num))
    (things := otherThings sky) (.cons second_ball (.cons .sky .nil))
    (by
      intro t ht
      simp only [otherThings, List.mem_cons, List.not_mem_nil, or_false] at ht
      refine .inl ?_
      rcases ht with rfl | rfl
      · intro f f0 f1
        have h4 : 4 ≤ apart (onWay ⟨0, 0, -3⟩ (along ⟨0, 0, -3⟩ ⟨0, 0, 1⟩ (2 + 1 / 1024)) f) ⟨0, 4, -5⟩ := by
          refine Real.le_sqrt_of_sq_le ?_
          simp only [onWay, along, Vec.sub]
          nlinarith [sq_nonneg f]
        rw [abs_of_nonneg (by linarith)]
        linarith
      · trivial)
    (by
      rw [eQ]
      intro x hx
      simp only [twoLamps, List.mem_cons, List.not_mem_nil, or_false] at hx
      rcases hx with rfl | rfl
      · refine ⟨h1, .clear ?_⟩
        intro t ht
        simp only [otherThings, List.mem_cons, List.not_mem_nil, or_false] at ht
        rcases ht with rfl | rfl
        · intro f f0 f1
          have h4 : 4 ≤ apart (onWay ⟨0, 0, -1⟩ ⟨3, 0, -5⟩ f) ⟨0, 4, -5⟩ := by
            refine Real.le_sqrt_of_sq_le ?_
            simp only [onWay, along, Vec.sub]
            nlinarith [sq_nonneg f, sq_nonneg (1 - f)]
          rw [abs_of_nonneg (by linarith)]
          linarith
        · trivial
      · have hb : (Obstacle.ball ⟨0, 4, -5⟩ 1).Blocks ⟨0, 0, -1⟩ ⟨0, 8, -9⟩ := by
          refine ⟨?_, 1 / 2, by norm_num, by norm_num, ?_⟩
          · rw [apart, Real.sq_sqrt (by positivity)]
            norm_num
          · rw [apart, Real.sq_sqrt (by positivity)]
            simp only [onWay, along, Vec.sub]
            norm_num
        exact ⟨h2, .shade (by
          intro t ht
          simp only [otherThings, List.mem_cons, List.not_mem_nil, or_false] at ht
          rcases ht with rfl | rfl
          · exact .inr ⟨hb, rfl⟩
          · exact .inl trivial) ⟨_, List.mem_cons_self, hb, rfl⟩⟩) (by rw [hd]; rfl) he
  cases ht
  have i1 : (lit ((1 : ℤ) : ℚ) : Flo).Is 1 := by simpa using flo_int_is 1 (by norm_num)
  obtain ⟨x, hx, e⟩ := hcol .red 1 i1 (by norm_num) le_rfl
  refine ⟨x, hx, ?_⟩
  rw [eQ] at e
  have hs : slant ⟨0, 0, -1⟩ (outward ⟨0, 0, 0⟩ ⟨0, 0, -1⟩) ⟨⟨3, 0, -5⟩, ⟨100, 100, 100⟩⟩ = 4 / 5 := by
    rw [slant, outward]
    dsimp only
    rw [a1, a5]
    norm_num
  simp only [twoLamps, List.map_cons, List.map_nil, List.sum_cons, List.sum_nil, Fitting.gives, Fitting.most, one_mul, zero_mul, hs, squarely, a5,
    Color.pick, add_zero, one_mul, mul_zero] at e
  norm_num at e ⊢
  have pi3 := Real.pi_gt_three
  have : (100 : ℝ) / (4 * Real.pi * 25) ≤ 1 / 3 := by
    rw [div_le_iff₀ (by positivity)]
    linarith
  refine e.trans ?_
  linarith

/-- **The sky is seen where nothing else is**, in double precision: a line that passes all other things, however far, shows
the colour of the sky in its direction. -/
theorem C102_sky (rng : Rng Flo S) (s : Scene Flo) (hno : s.media = []) (fld : Field) {r : Ray Flo} {v d : Vec ℝ} (h : Glance r v d)
    {before after : List (Obj Flo (Mat Flo))} {tex : Tex Flo} (hobj : s.objects = before ++ Obj.backdrop (some (.flat tex)) :: after)
    (lamps : List Fitting) (hlights : s.lights = lamps.map Fitting.light)
    {things : List (Option (Mat Flo) × Obstacle)} (hF : List.Forall₂ (fun o t => t.2.Built t.1 o) (before ++ after) things)
    (hc : ∀ t ∈ things, t.2 ≠ .sky ∧ ∀ Y, 0 < Y → t.2.Passed v d Y)
    {fuel : ℕ} {ctx : Ctx Flo S} (hdep : s.recursionDepth ≠ ctx.depth) :
    s.lightField rng (fuel + 1) fld r ctx = (tex r.dir).map fun col => (col, ctx) := by
  obtain ⟨T, Y, hT, hY, T0, hTY⟩ := sky_far
  have pass : ∀ o ∈ before ++ after, GoesBy o r T := by
    intro o ho
    obtain ⟨t, ht, hbt⟩ := forall₂_left hF _ ho
    have far : ∀ x, (lit (9 * 10 ^ 99) : Flo).Is x → T < x := fun x hx => by
      rw [Bounce.is_inj hx hY]
      exact hTY
    rcases (hc t ht).2 T T0 with hcl | hlv
    · exact h.goes_by' hbt T0 far (fun e => absurd e (hc t ht).1) hcl
    · exact h.leaves hbt hlv far
  obtain ⟨rest, e, hrest⟩ := seen_split s lamps hlights fld
  have hfront : intersectFrontmost (s.seen fld) r = .ok (⟨lit (10 ^ 99), r.dir, r.dir, some (.flat tex)⟩, r) := by
    rw [e, hobj, List.append_assoc, List.cons_append]
    refine frontmost_is (o := Obj.backdrop _) rfl hT T0 (fun o ho => pass o (by simp [ho])) ?_
    intro o ho
    rcases List.mem_append.1 ho with ho | ho
    · exact pass o (by simp [ho])
    · exact hrest o ho r T
  rw [Scene.lightField, Scene.lightFieldFrom, if_neg hdep, hfront, ok_bind]
  dsimp only
  rw [shadeFront, hno]
  dsimp only [Mat.shade]
  cases tex r.dir with
  | error e => rfl
  | ok col =>
    simp only [ok_bind, pure_ok, mediaLoop, Except.map]
    rw [add_sub_cancel_right]

/-- In the scene above the sky is seen straight back from `(0, 0, -3)`. -/
example (rng : Rng Flo S) (tex sky : Tex Flo) (fuel : ℕ) (ctx : Ctx Flo S) (hd : ctx.depth = 0) :
    (⟨twoLamps.map Fitting.light, twoBalls tex sky, [], 1⟩ : Scene Flo).lightField rng (fuel + 1) .direct
      ⟨⟨lit 0, lit 0, lit (-3)⟩, ⟨lit 0, lit 0, lit ((-1 : ℤ) : ℚ)⟩⟩ ctx =
      (sky ⟨lit 0, lit 0, lit ((-1 : ℤ) : ℚ)⟩).map fun col => (col, ctx) := by
  refine C102_sky rng _ rfl .direct back_glance (before := [_, _]) (after := []) rfl twoLamps rfl
    (things := [(_, .ball ⟨0, 0, 0⟩ 1), (_, .ball ⟨0, 4, -5⟩ 1)]) (.cons (first_ball _) (.cons second_ball .nil)) ?_ (by rw [hd]; norm_num)
  intro t ht
  simp only [List.mem_cons, List.not_mem_nil, or_false] at ht
  rcases ht with rfl | rfl
  · refine ⟨nofun, fun Y Y0 => .inl fun f f0 f1 => ?_⟩
    have h4 : 3 ≤ apart (onWay ⟨0, 0, -3⟩ (along ⟨0, 0, -3⟩ ⟨0, 0, -1⟩ Y) f) ⟨0, 0, 0⟩ := by
      refine Real.le_sqrt_of_sq_le ?_
      simp only [onWay, along, Vec.sub]
      nlinarith [mul_nonneg Y0.le f0, sq_nonneg (f * Y)]
    rw [abs_of_nonneg (by linarith)]
    linarith
  · refine ⟨nofun, fun Y Y0 => .inl fun f f0 f1 => ?_⟩
    have h4 : 4 ≤ apart (onWay ⟨0, 0, -3⟩ (along ⟨0, 0, -3⟩ ⟨0, 0, -1⟩ Y) f) ⟨0, 4, -5⟩ := by
      refine Real.le_sqrt_of_sq_le ?_
      simp only [onWay, along, Vec.sub]
      nlinarith [sq_nonneg (2 - f * Y)]
    rw [abs_of_nonneg (by linarith)]
    linarith

end BR
