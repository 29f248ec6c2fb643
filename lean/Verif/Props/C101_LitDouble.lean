import Verif.Lemmas.BallPatch
import Verif.Lemmas.FloorPatch

/-! C101: lit surfaces have the right brightness, in double precision. -/

namespace BR
set_option linter.unusedSectionVars false

open Flo

variable {S : Type}

/-- **A lit ball has the right brightness**, in double precision. In a scene of balls, boxes and floors a ray starts clearly
outside a ball, goes clearly through it, and meets it first at `Q`. The lamps are clear of the ball, and each is clearly seen
from `Q` past the other things or clearly hidden by them. Then the matte material shows the light of the lamps that are seen
by the laws of optics (the inverse square of the distance and the cosine of the angle), and the light found in the one
direction looked into for the surroundings, both times the part that the surface returns. The ball takes no light from
itself. -/
theorem C101_ball (rng : Rng Flo S) (s : Scene Flo) (lf : LF Flo S) (tex : Tex Flo) (m : Option (Mat Flo)) (diam : Flo)
    (center : Vec Flo) (before after : List (Obj Flo (Mat Flo)))
    (hobj : s.objects = before ++ Obj.sphere m diam center :: after) {r r' : Ray Flo} {v d c : Vec ℝ} {R : ℝ}
    (h : Looking r diam center v d c R) (hR : 1 / 32 ≤ R) (hstart : R ^ 2 + 1 / 2 ^ 8 ≤ apart v c ^ 2)
    (hin : ∃ T, 0 < T ∧ apart (along v d T) c ^ 2 ≤ R ^ 2 - 1 / 2 ^ 8) {X : ℝ} (X0 : 0 < X) {Q : Vec ℝ} (hQ : Q = along v d X)
    (hX : apart Q c = R) (hfirst : ∀ T, 0 < T → T < X → apart (along v d T) c ≠ R) (wQ : Within 63 Q)
    (lamps : List Fitting) (hlights : s.lights = lamps.map Fitting.light) (hfew : lamps.length ≤ 2 ^ 20)
    (hclear : ∀ x ∈ lamps, R + 1 / 1024 ≤ apart x.bulb.pos c)
    {things : List (Option (Mat Flo) × Obstacle)} (hF : List.Forall₂ (fun o t => t.2.Built t.1 o) (before ++ after) things)
    (hl : ∀ x ∈ lamps, LampFor Q x.pos x.power x.bulb ∧ Decided things Q x.bulb x.part)
    {hit : HitRecord Flo (Mat Flo)} (hi : (Obj.sphere m diam center).intersect r = .ok (hit, r'))
    {ctx ctx' : Ctx Flo S} {col : Color Flo}
    (he : shadeMatte rng s lf tex r ⟨hit.t, hit.normal.normalized, hit.loc⟩ ctx = .ok (col, ctx')) :
    ∃ (ray : Ray Flo) (ctx1 ctx2 : Ctx Flo S) (around refl : Color Flo), lf .indirect ray ctx1 = .ok (around, ctx2) ∧
      ctx1.depth = ctx.depth ∧ tex hit.loc = .ok refl ∧ RightColor lamps Q (outward c Q) refl around col := by
  subst hQ
  obtain ⟨hpos, hface, P, n, hp, wP⟩ := ball_patch h hR hstart hin X0 hX hfirst wQ hi
  rw [C87_shade rng s lf tex m diam center before after hobj r v d c R h hR (by
    rw [hlights]
    intro l hlm target ctx pos col ctx' e
    obtain ⟨x, hx, rfl⟩ := List.mem_map.1 hlm
    cases e
    exact ⟨_, (hl x hx).1.pos, (hl x hx).1.near, hclear x hx⟩) hit r' hi hpos hface ctx] at he
  have hflip : flipTowards hit.normal.normalized r.dir = hit.normal.normalized := by
    unfold flipTowards
    rw [hface]
    rfl
  exact shade_lit rng ⟨s.lights, before ++ after, s.media, s.recursionDepth⟩ lf tex r ⟨hit.t, hit.normal.normalized, hit.loc⟩
    (by rw [hflip]; exact hp) wP lamps hlights hfew hF hl he

/-- **A lit floor has the right brightness**, in double precision and on the side of the viewer. In a scene of balls, boxes and
floors a ray meets a floor at `Q`. The lamps are above or below the floor, and each is clearly seen from `Q` past the other
things or clearly hidden by them, or clearly behind transparent ones. Then the matte material shows the light of the lamps on the viewer's side that are seen by
the laws of optics, and the light found in the one direction looked into for the surroundings, both times the part that the
surface returns. The floor takes no light from itself. -/
theorem C101_floor (K : Sorter (Obj Flo (Mat Flo))) (rng : Rng Flo S) (s : Scene Flo) (lf : LF Flo S) (tex : Tex Flo) (m : Option (Mat Flo))
    {w dp : Flo} {c : Vec Flo} {W D : ℝ} {C : Vec ℝ} (q : LevelRectangle w dp c W D C) {o : Obj Flo (Mat Flo)}
    (ho : rectangle K m w dp c = .ok o) (before after : List (Obj Flo (Mat Flo))) (hobj : s.objects = before ++ o :: after)
    {r r' : Ray Flo} {v d : Vec ℝ} (h : LookingFrom r v d C.y) {X : ℝ} (X0 : 0 < X) {Q : Vec ℝ} (hQ : Q = along v d X)
    (hX : Q.y = C.y) (wQ : Within 63 Q)
    (lamps : List Fitting) (hlights : s.lights = lamps.map Fitting.light) (hfew : lamps.length ≤ 2 ^ 20)
    (hclear : ∀ x ∈ lamps, 1 / 1024 ≤ |x.bulb.pos.y - C.y|)
    {things : List (Option (Mat Flo) × Obstacle)} (hF : List.Forall₂ (fun o t => t.2.Built t.1 o) (before ++ after) things)
    (hl : ∀ x ∈ lamps, LampFor Q x.pos x.power x.bulb ∧ Decided things Q x.bulb x.part)
    {hit : HitRecord Flo (Mat Flo)} (hi : o.intersect r = .ok (hit, r')) (hpos : (hit.t >. lit 0) = true)
    (hnear : (hit.t <. lit (9 * 10 ^ 99)) = true) {ctx ctx' : Ctx Flo S} {col : Color Flo}
    (he : shadeMatte rng s lf tex r ⟨hit.t, hit.normal.normalized, hit.loc⟩ ctx = .ok (col, ctx')) :
    ∃ (ray : Ray Flo) (ctx1 ctx2 : Ctx Flo S) (around refl : Color Flo), lf .indirect ray ctx1 = .ok (around, ctx2) ∧
      ctx1.depth = ctx.depth ∧ tex hit.loc = .ok refl ∧ RightColor lamps Q ⟨0, sideOf C.y v.y, 0⟩ refl around col := by
  subst hQ
  obtain ⟨P, n, hp, wP⟩ := floor_patch K m q ho h X0 hX wQ hi hpos hnear
  rw [C100_shade K rng s lf tex m q ho before after hobj h (by
    rw [hlights]
    intro l hlm target ctx pos col ctx' e
    obtain ⟨x, hx, rfl⟩ := List.mem_map.1 hlm
    cases e
    exact ⟨_, (hl x hx).1.pos, (hl x hx).1.near, hclear x hx⟩) hi hpos hnear ctx] at he
  exact shade_lit rng ⟨s.lights, before ++ after, s.media, s.recursionDepth⟩ lf tex r ⟨hit.t, hit.normal.normalized, hit.loc⟩
    hp wP lamps hlights hfew hF hl he

/-- Two lamps, of which the second is hidden by a ball. -/
noncomputable def twoLamps : List Fitting :=
  [⟨⟨lit ((3 : ℤ) : ℚ), lit ((0 : ℤ) : ℚ), lit ((-5 : ℤ) : ℚ)⟩, ⟨lit ((100 : ℤ) : ℚ), lit ((100 : ℤ) : ℚ), lit ((100 : ℤ) : ℚ)⟩,
      ⟨⟨3, 0, -5⟩, ⟨100, 100, 100⟩⟩, fun _ => 1⟩,
    ⟨⟨lit ((0 : ℤ) : ℚ), lit ((8 : ℤ) : ℚ), lit ((-9 : ℤ) : ℚ)⟩, ⟨lit ((100 : ℤ) : ℚ), lit ((100 : ℤ) : ℚ), lit ((100 : ℤ) : ℚ)⟩,
      ⟨⟨0, 8, -9⟩, ⟨100, 100, 100⟩⟩, fun _ => 0⟩]

theorem hundred_lamp {Q : Vec ℝ} {a b c : ℤ} (ha : |a| ≤ 1000) (hb : |b| ≤ 1000) (hc : |c| ≤ 1000) (hf : (1 / 8 : ℝ) ≤ apart ⟨a, b, c⟩ Q) :
    LampFor Q ⟨lit (a : ℚ), lit (b : ℚ), lit (c : ℚ)⟩ ⟨lit ((100 : ℤ) : ℚ), lit ((100 : ℤ) : ℚ), lit ((100 : ℤ) : ℚ)⟩
      ⟨⟨a, b, c⟩, ⟨100, 100, 100⟩⟩ := by
  have hi : (lit ((100 : ℤ) : ℚ) : Flo).Is 100 := by simpa using flo_int_is 100 (by norm_num)
  have w : ∀ {a : ℤ}, |a| ≤ 1000 → |(a : ℝ)| ≤ 1024 := by
    intro a h
    have : |(a : ℝ)| ≤ 1000 := by exact_mod_cast h
    linarith
  refine ⟨⟨flo_int_is a (lt_of_le_of_lt ha (by norm_num)), flo_int_is b (lt_of_le_of_lt hb (by norm_num)),
    flo_int_is c (lt_of_le_of_lt hc (by norm_num))⟩, ?_, ⟨w ha, w hb, w hc⟩, hf, ?_, ?_⟩
  · rintro (_ | _ | _) <;> exact hi
  · rintro (_ | _ | _) <;> norm_num [Color.pick]
  · rintro (_ | _ | _) <;> norm_num [Color.pick]

/-- Such a scene: a ball of radius one around the origin, seen from `(0, 0, -3)`, with lamps at `(3, 0, -5)` and `(0, 8, -9)` and
a ball of radius one around `(0, 4, -5)` that hides the second lamp. The point seen is 5 from the first lamp and the cosine is
4/5. -/
example (rng : Rng Flo S) (m : Option (Mat Flo)) (hit : HitRecord Flo (Mat Flo)) (r' : Ray Flo)
    (hi : (Obj.sphere m (lit 2) ⟨lit 0, lit 0, lit 0⟩).intersect ⟨⟨lit 0, lit 0, lit (-3)⟩, ⟨lit 0, lit 0, lit 1⟩⟩ = .ok (hit, r'))
    (ctx ctx' : Ctx Flo S) (col : Color Flo)
    (he : shadeMatte rng ⟨twoLamps.map Fitting.light, [Obj.sphere m (lit 2) ⟨lit 0, lit 0, lit 0⟩,
        Obj.sphere none (lit 2) ⟨lit ((0 : ℤ) : ℚ), lit ((4 : ℤ) : ℚ), lit ((-5 : ℤ) : ℚ)⟩], [], 3⟩
      (fun _ _ ctx => .ok (⟨lit 0, lit 0, lit 0⟩, ctx)) (fun _ => .ok ⟨lit ((1 : ℤ) : ℚ), lit ((1 : ℤ) : ℚ), lit ((1 : ℤ) : ℚ)⟩)
      ⟨⟨lit 0, lit 0, lit (-3)⟩, ⟨lit 0, lit 0, lit 1⟩⟩ ⟨hit.t, hit.normal.normalized, hit.loc⟩ ctx = .ok (col, ctx')) :
    ∃ v, col.R.Is v ∧ |v - 100 / (4 * Real.pi * 5 ^ 2) * (4 / 5)| ≤ 1 / 6000 := by
  have ap : ∀ x y z : ℝ, apart (⟨x, y, z⟩ : Vec ℝ) ⟨0, 0, 0⟩ = Real.sqrt (x ^ 2 + y ^ 2 + z ^ 2) := by
    intro x y z
    simp [apart]
  have a1 : apart (⟨0, 0, -1⟩ : Vec ℝ) ⟨0, 0, 0⟩ = 1 := by rw [ap]; norm_num
  have a5 : apart (⟨3, 0, -5⟩ : Vec ℝ) ⟨0, 0, -1⟩ = 5 := by
    rw [apart, show ((3 - 0) ^ 2 + (0 - 0) ^ 2 + (-5 - -1) ^ 2 : ℝ) = 5 ^ 2 by norm_num, Real.sqrt_sq (by norm_num)]
  have h1 : LampFor ⟨0, 0, -1⟩ ⟨lit ((3 : ℤ) : ℚ), lit ((0 : ℤ) : ℚ), lit ((-5 : ℤ) : ℚ)⟩ ⟨lit ((100 : ℤ) : ℚ), lit ((100 : ℤ) : ℚ), lit ((100 : ℤ) : ℚ)⟩
      ⟨⟨3, 0, -5⟩, ⟨100, 100, 100⟩⟩ := by
    simpa using hundred_lamp (Q := ⟨0, 0, -1⟩) (a := 3) (b := 0) (c := -5) (by norm_num) (by norm_num) (by norm_num) (by push_cast; rw [a5]; norm_num)
  have h2 : LampFor ⟨0, 0, -1⟩ ⟨lit ((0 : ℤ) : ℚ), lit ((8 : ℤ) : ℚ), lit ((-9 : ℤ) : ℚ)⟩ ⟨lit ((100 : ℤ) : ℚ), lit ((100 : ℤ) : ℚ), lit ((100 : ℤ) : ℚ)⟩
      ⟨⟨0, 8, -9⟩, ⟨100, 100, 100⟩⟩ := by
    simpa using hundred_lamp (Q := ⟨0, 0, -1⟩) (a := 0) (b := 8) (c := -9) (by norm_num) (by norm_num) (by norm_num)
      (Real.le_sqrt_of_sq_le (by norm_num))
  have i2 : (lit 2 : Flo).Is (2 * 1) := by simpa using flo_int_is 2 (by norm_num)
  obtain ⟨ray, ctx1, ctx2, around, refl, hlf, -, htex, hcol⟩ := C101_ball rng ⟨twoLamps.map Fitting.light, _, [], 3⟩ _ _ m (lit 2) ⟨lit 0, lit 0, lit 0⟩ []
    [Obj.sphere none (lit 2) ⟨lit ((0 : ℤ) : ℚ), lit ((4 : ℤ) : ℚ), lit ((-5 : ℤ) : ℚ)⟩] rfl looking_example (by norm_num)
    (by rw [ap, Real.sq_sqrt (by positivity)]; norm_num)
    ⟨3, by norm_num, by rw [along, ap, Real.sq_sqrt (by positivity)]; norm_num⟩ (X := 2) (by norm_num) (Q := ⟨0, 0, -1⟩)
    (by simp only [along]; norm_num) a1
    (by
      intro T T0 T2
      rw [along, ap]
      intro h
      have := congrArg (· ^ 2) h
      dsimp only at this
      rw [Real.sq_sqrt (by positivity)] at this
      nlinarith)
    (by norm_num [Within]) twoLamps rfl (by norm_num [twoLamps])
    (by
      intro x hx
      simp only [twoLamps, List.mem_cons, List.not_mem_nil, or_false] at hx
      rcases hx with rfl | rfl
      · rw [ap]
        exact Real.le_sqrt_of_sq_le (by norm_num)
      · rw [ap]
        exact Real.le_sqrt_of_sq_le (by norm_num))
    (things := [(none, .ball ⟨0, 4, -5⟩ 1)])
    (.cons (.ball ⟨by simpa using flo_int_is 0 (by norm_num), by simpa using flo_int_is 4 (by norm_num), by simpa using flo_int_is (-5) (by norm_num)⟩ i2
      (by norm_num [Within]) (by norm_num) (by norm_num)) .nil)
    (by
      intro x hx
      simp only [twoLamps, List.mem_cons, List.not_mem_nil, or_false] at hx
      rcases hx with rfl | rfl
      · refine ⟨h1, .clear ?_⟩
        intro t ht
        obtain rfl := List.mem_singleton.1 ht
        intro f f0 f1
        have h4 : 4 ≤ apart (onWay ⟨0, 0, -1⟩ ⟨3, 0, -5⟩ f) ⟨0, 4, -5⟩ := by
          refine Real.le_sqrt_of_sq_le ?_
          simp only [onWay, along, Vec.sub]
          nlinarith [sq_nonneg f, sq_nonneg (1 - f)]
        rw [abs_of_nonneg (by linarith)]
        linarith
      · have hb : (Obstacle.ball ⟨0, 4, -5⟩ 1).Blocks ⟨0, 0, -1⟩ ⟨0, 8, -9⟩ := by
          refine ⟨?_, 1 / 2, by norm_num, by norm_num, ?_⟩
          · rw [apart, Real.sq_sqrt (by positivity)]
            norm_num
          · rw [apart, Real.sq_sqrt (by positivity)]
            simp only [onWay, along, Vec.sub]
            norm_num
        exact ⟨h2, .shade (by
          intro t ht
          obtain rfl := List.mem_singleton.1 ht
          exact .inr ⟨hb, rfl⟩) ⟨_, List.mem_singleton.2 rfl, hb, rfl⟩⟩) hi he
  cases hlf
  cases htex
  have i1 : (lit ((1 : ℤ) : ℚ) : Flo).Is 1 := by simpa using flo_int_is 1 (by norm_num)
  obtain ⟨v, hv, e⟩ := hcol .red 0 1 Ball.flo_zero le_rfl (by norm_num) i1 (by norm_num) le_rfl
  refine ⟨v, hv, ?_⟩
  have hs : slant ⟨0, 0, -1⟩ (outward ⟨0, 0, 0⟩ ⟨0, 0, -1⟩) ⟨⟨3, 0, -5⟩, ⟨100, 100, 100⟩⟩ = 4 / 5 := by
    rw [slant, outward]
    dsimp only
    rw [a1, a5]
    norm_num
  simp only [twoLamps, List.map_cons, List.map_nil, List.sum_cons, List.sum_nil, Fitting.gives, Fitting.most, one_mul, zero_mul, hs, squarely, a5,
    Color.pick, add_zero, one_mul, mul_zero] at e
  norm_num at e ⊢
  have pi3 := Real.pi_gt_three
  have : (100 : ℝ) / (4 * Real.pi * 25) ≤ 1 / 3 := by
    rw [div_le_iff₀ (by positivity)]
    linarith
  refine e.trans ?_
  linarith

/-- A lamp straight above, and one that is hidden by a box. -/
noncomputable def highLamps : List Fitting :=
  [⟨⟨lit ((1 : ℤ) : ℚ), lit ((4 : ℤ) : ℚ), lit ((1 : ℤ) : ℚ)⟩, ⟨lit ((100 : ℤ) : ℚ), lit ((100 : ℤ) : ℚ), lit ((100 : ℤ) : ℚ)⟩,
      ⟨⟨1, 4, 1⟩, ⟨100, 100, 100⟩⟩, fun _ => 1⟩,
    ⟨⟨lit ((5 : ℤ) : ℚ), lit ((4 : ℤ) : ℚ), lit ((1 : ℤ) : ℚ)⟩, ⟨lit ((100 : ℤ) : ℚ), lit ((100 : ℤ) : ℚ), lit ((100 : ℤ) : ℚ)⟩,
      ⟨⟨5, 4, 1⟩, ⟨100, 100, 100⟩⟩, fun _ => 0⟩]

/-- Such a scene: the floor of 8 by 8 around the origin, seen from `(1, 2, 1)`, with lamps at `(1, 4, 1)` and `(5, 4, 1)` and a box
from `(2, 1, 0)` to `(4, 3, 2)` that hides the second lamp. The point seen is 4 below the first lamp. -/
example (K : Sorter (Obj Flo (Mat Flo))) (rng : Rng Flo S) (m : Option (Mat Flo)) (o : Obj Flo (Mat Flo))
    (ho : rectangle K m (lit 8) (lit 8) ⟨lit 0, lit 0, lit 0⟩ = .ok o) (hit : HitRecord Flo (Mat Flo)) (r' : Ray Flo)
    (hi : o.intersect ⟨⟨lit 1, lit 2, lit 1⟩, ⟨lit 0, lit ((-1 : ℤ) : ℚ), lit 0⟩⟩ = .ok (hit, r'))
    (ctx ctx' : Ctx Flo S) (col : Color Flo)
    (he : shadeMatte rng ⟨highLamps.map Fitting.light, [Obj.box ⟨⟨lit ((2 : ℤ) : ℚ), lit ((1 : ℤ) : ℚ), lit ((0 : ℤ) : ℚ)⟩,
        ⟨lit ((4 : ℤ) : ℚ), lit ((3 : ℤ) : ℚ), lit ((2 : ℤ) : ℚ)⟩⟩ none, o], [], 3⟩
      (fun _ _ ctx => .ok (⟨lit 0, lit 0, lit 0⟩, ctx)) (fun _ => .ok ⟨lit ((1 : ℤ) : ℚ), lit ((1 : ℤ) : ℚ), lit ((1 : ℤ) : ℚ)⟩)
      ⟨⟨lit 1, lit 2, lit 1⟩, ⟨lit 0, lit ((-1 : ℤ) : ℚ), lit 0⟩⟩ ⟨hit.t, hit.normal.normalized, hit.loc⟩ ctx = .ok (col, ctx')) :
    ∃ v, col.R.Is v ∧ |v - 100 / (4 * Real.pi * 4 ^ 2)| ≤ 1 / 3000 := by
  have hl := over_eight (-1) (.inr rfl)
  obtain ⟨h, T, hi', -, hT, eT⟩ := C100_seen_partial K m eight_floor ho hl (by norm_num) (T0 := 2) (by norm_num) (by norm_num [along])
    (by intro T _; norm_num [along, OverFloor]) (by norm_num [along])
  rw [hi'] at hi
  cases hi
  have pos : (hit.t >. lit 0) = true := by
    change (lit 0 <. hit.t) = true
    rw [lt_is Ball.flo_zero hT]
    rw [abs_le] at eT
    exact decide_eq_true (by norm_num at *; linarith)
  have near : (hit.t <. lit (9 * 10 ^ 99)) = true := by
    obtain ⟨x, hx, hx1, -⟩ := flo_far
    rw [lt_is hT hx]
    rw [abs_le] at eT
    exact decide_eq_true (by norm_num at *; linarith)
  have a4 : apart (⟨1, 4, 1⟩ : Vec ℝ) ⟨1, 0, 1⟩ = 4 := by
    rw [apart, show ((1 - 1) ^ 2 + (4 - 0) ^ 2 + (1 - 1) ^ 2 : ℝ) = 4 ^ 2 by norm_num, Real.sqrt_sq (by norm_num)]
  have h1 : LampFor ⟨1, 0, 1⟩ ⟨lit ((1 : ℤ) : ℚ), lit ((4 : ℤ) : ℚ), lit ((1 : ℤ) : ℚ)⟩ ⟨lit ((100 : ℤ) : ℚ), lit ((100 : ℤ) : ℚ), lit ((100 : ℤ) : ℚ)⟩
      ⟨⟨1, 4, 1⟩, ⟨100, 100, 100⟩⟩ := by
    simpa using hundred_lamp (Q := ⟨1, 0, 1⟩) (a := 1) (b := 4) (c := 1) (by norm_num) (by norm_num) (by norm_num) (by push_cast; rw [a4]; norm_num)
  have h2 : LampFor ⟨1, 0, 1⟩ ⟨lit ((5 : ℤ) : ℚ), lit ((4 : ℤ) : ℚ), lit ((1 : ℤ) : ℚ)⟩ ⟨lit ((100 : ℤ) : ℚ), lit ((100 : ℤ) : ℚ), lit ((100 : ℤ) : ℚ)⟩
      ⟨⟨5, 4, 1⟩, ⟨100, 100, 100⟩⟩ := by
    simpa using hundred_lamp (Q := ⟨1, 0, 1⟩) (a := 5) (b := 4) (c := 1) (by norm_num) (by norm_num) (by norm_num)
      (Real.le_sqrt_of_sq_le (by norm_num))
  obtain ⟨ray, ctx1, ctx2, around, refl, hlf, -, htex, hcol⟩ := C101_floor K rng ⟨highLamps.map Fitting.light, _, [], 3⟩ _ _ m eight_floor ho
    [Obj.box ⟨⟨lit ((2 : ℤ) : ℚ), lit ((1 : ℤ) : ℚ), lit ((0 : ℤ) : ℚ)⟩, ⟨lit ((4 : ℤ) : ℚ), lit ((3 : ℤ) : ℚ), lit ((2 : ℤ) : ℚ)⟩⟩ none]
    [] rfl hl (X := 2) (by norm_num) (Q := ⟨1, 0, 1⟩) (by simp only [along]; norm_num) rfl
    (by norm_num [Within]) highLamps rfl (by norm_num [highLamps])
    (by
      intro x hx
      simp only [highLamps, List.mem_cons, List.not_mem_nil, or_false] at hx
      rcases hx with rfl | rfl <;> norm_num)
    (things := [(none, .block ⟨2, 1, 0⟩ ⟨4, 3, 2⟩)])
    (.cons (.block ⟨by simpa using flo_int_is 2 (by norm_num), by simpa using flo_int_is 1 (by norm_num), by simpa using flo_int_is 0 (by norm_num)⟩
      ⟨by simpa using flo_int_is 4 (by norm_num), by simpa using flo_int_is 3 (by norm_num), by simpa using flo_int_is 2 (by norm_num)⟩
      (by norm_num [Within]) (by norm_num [Within]) (by norm_num)) .nil)
    (by
      intro x hx
      simp only [highLamps, List.mem_cons, List.not_mem_nil, or_false] at hx
      rcases hx with rfl | rfl
      · refine ⟨h1, .clear ?_⟩
        intro t ht
        obtain rfl := List.mem_singleton.1 ht
        intro f f0 f1 hon
        have := hon.1.1.1
        simp only [onWay, along, Vec.sub] at this
        norm_num at this
      · have hb : (Obstacle.block ⟨2, 1, 0⟩ ⟨4, 3, 2⟩).Blocks ⟨1, 0, 1⟩ ⟨5, 4, 1⟩ := by
          refine ⟨?_, 1 / 2, by norm_num, by norm_num, ?_⟩
          · intro hin
            have := hin.1.1
            norm_num at this
          · simp only [InBox, onWay, along, Vec.sub]
            norm_num
        exact ⟨h2, .shade (by
          intro t ht
          obtain rfl := List.mem_singleton.1 ht
          exact .inr ⟨hb, rfl⟩) ⟨_, List.mem_singleton.2 rfl, hb, rfl⟩⟩) hi' pos near he
  cases hlf
  cases htex
  have i1 : (lit ((1 : ℤ) : ℚ) : Flo).Is 1 := by simpa using flo_int_is 1 (by norm_num)
  obtain ⟨v, hv, e⟩ := hcol .red 0 1 Ball.flo_zero le_rfl (by norm_num) i1 (by norm_num) le_rfl
  refine ⟨v, hv, ?_⟩
  have hs : slant ⟨1, 0, 1⟩ ⟨0, sideOf 0 2, 0⟩ ⟨⟨1, 4, 1⟩, ⟨100, 100, 100⟩⟩ = 1 := by
    rw [slant, sideOf, if_pos (by norm_num)]
    dsimp only
    rw [a4]
    norm_num
  simp only [highLamps, List.map_cons, List.map_nil, List.sum_cons, List.sum_nil, Fitting.gives, Fitting.most, one_mul, zero_mul, hs, squarely, a4,
    Color.pick, add_zero, one_mul, mul_zero] at e
  norm_num at e ⊢
  have pi3 := Real.pi_gt_three
  have : (100 : ℝ) / (4 * Real.pi * 16) ≤ 100 / 192 := by
    rw [div_le_iff₀ (by positivity)]
    linarith
  refine e.trans ?_
  linarith

end BR
