import Verif.Props.C107_Tint

/-! C107: a wall lit through a transparent ball, in double precision. The theorems C101, C102, C103 and C105 on the brightness of surfaces and
on pictures hold for lamps behind transparent things as well (`Decided`). -/

namespace BR
set_option linter.unusedSectionVars false

open Flo

variable {S : Type}

/-- A lamp at `(3, 0, 0)`, half of whose light comes through. -/
noncomputable def greyLamp : List Fitting :=
  [⟨⟨lit ((3 : ℤ) : ℚ), lit ((0 : ℤ) : ℚ), lit ((0 : ℤ) : ℚ)⟩, ⟨lit ((100 : ℤ) : ℚ), lit ((100 : ℤ) : ℚ), lit ((100 : ℤ) : ℚ)⟩,
      ⟨⟨3, 0, 0⟩, ⟨100, 100, 100⟩⟩, fun _ => 1 / 2⟩]

/-- The wall of C103, with a grey transparent ball between it and the lamp. -/
noncomputable def tintScene : Scene Flo := ⟨greyLamp.map Fitting.light, [Obj.box wallBlock (some (.matte whiteFlo.tex)),
  Obj.sphere (some (.transparent greyFlo.tex true)) (lit ((2 : ℤ) : ℚ)) ⟨lit ((2 : ℤ) : ℚ), lit 0, lit ((-2 : ℤ) : ℚ)⟩], [], 1⟩

/-- The wall shows half of what it shows without the ball. -/
theorem tint_steady : Steady tintScene (aheadView.sight 1 1 0 0) (fun _ => 1 / 2 * (100 / (4 * Real.pi * 5 ^ 2) * (4 / 5))) (fun _ => 1 / 4000) := by
  rw [ahead_sight]
  rintro v d ⟨⟨v1, v2, v3⟩, d1, d2, d3⟩
  simp only [Vec.sub, sub_zero] at v1 v2 v3 d1 d2 d3
  have e3 := abs_le.1 d3
  have f3 := abs_le.1 v3
  norm_num at e3 f3
  have dz : d.z < 0 := by linarith
  obtain ⟨X, hX⟩ : ∃ X, X * d.z = -4 - v.z := ⟨(-4 - v.z) / d.z, div_mul_cancel₀ _ dz.ne⟩
  have X1 : 3 ≤ X := by
    by_contra hlt
    nlinarith
  have X2 : X ≤ 5 := by
    by_contra hlt
    nlinarith
  have small : ∀ {p q : ℝ}, |p| ≤ 1 / 2 ^ 35 → |q| ≤ 1 / 2 ^ 22 → |p + X * q| ≤ 1 / 2 ^ 19 := by
    intro p q hp hq
    have h1 : |X * q| ≤ 5 * (1 / 2 ^ 22) := by
      rw [abs_mul, abs_of_nonneg (by linarith : 0 ≤ X)]
      exact mul_le_mul X2 hq (abs_nonneg _) (by norm_num)
    refine (abs_add_le _ _).trans ?_
    norm_num at *
    linarith
  have q1 := small v1 d1
  have q2 := small v2 d2
  obtain ⟨a1, a2⟩ := wall_apart q1 q2
  have eQ : along v d X = ⟨v.x + X * d.x, v.y + X * d.y, -4⟩ := by
    simp only [along, Vec.mk.injEq, true_and]
    linarith
  have r1 := abs_le.1 q1
  have r2 := abs_le.1 q2
  norm_num at r1 r2
  have int : ∀ z : ℤ, |z| ≤ 1000 → (lit (z : ℚ) : Flo).Is z := fun z hz => flo_int_is z (lt_of_le_of_lt hz (by norm_num))
  have one : (lit ((1 : ℤ) : ℚ) : Flo).Is 1 := by simpa using int 1 (by norm_num)
  have m8 : (lit ((-8 : ℤ) : ℚ) : Flo).Is (-8) := by simpa using int (-8) (by norm_num)
  have p8 : (lit ((8 : ℤ) : ℚ) : Flo).Is 8 := by simpa using int 8 (by norm_num)
  have p2 : (lit ((2 : ℤ) : ℚ) : Flo).Is 2 := by simpa using int 2 (by norm_num)
  have m2 : (lit ((-2 : ℤ) : ℚ) : Flo).Is (-2) := by simpa using int (-2) (by norm_num)
  have m4 : (lit ((-4 : ℤ) : ℚ) : Flo).Is (-4) := by simpa using int (-4) (by norm_num)
  refine ⟨_, _, Displays.matte (s := tintScene) (before := []) (after := [Obj.sphere (some (.transparent greyFlo.tex true)) (lit ((2 : ℤ) : ℚ)) ⟨lit ((2 : ℤ) : ℚ), lit 0, lit ((-2 : ℤ) : ℚ)⟩]) (b := .block ⟨-8, -8, -8⟩ ⟨8, 8, -4⟩) (refl := whiteFlo) (ρ := fun _ => 1) (X := X)
    (N := sideNormal 2 true) (lamps := greyLamp)
    (things := [(some (.transparent greyFlo.tex true), .ball ⟨2, 0, -2⟩ 1)]) rfl (.block ⟨m8, m8, m8⟩ ⟨p8, p8, m4⟩ (by norm_num [Within]) (by norm_num [Within]) (by norm_num))
    (fun k => ⟨by cases k <;> exact one, by norm_num, by norm_num⟩)
    ⟨by linarith, 2, true, ⟨?_, ?_, ?_⟩, rfl, ?_⟩ ?_ rfl (by norm_num [greyLamp]) (fun x _ => trivial)
    (.cons (.ball ⟨p2, Ball.flo_zero, m2⟩ (by simpa using p2) (by norm_num [Within]) (by norm_num) (by norm_num)) .nil) ?_ ?_, ?_⟩
  · rw [eQ]; norm_num [outside, Vec.get]
  · norm_num [Vec.get]
  · rw [eQ]
    intro j hj
    fin_cases j
    · norm_num [Vec.get]; constructor <;> linarith
    · norm_num [Vec.get]; constructor <;> linarith
    · exact absurd rfl hj
  · rw [sideNormal, if_neg (by decide), if_neg (by decide), if_pos rfl]
    norm_num
    linarith
  · rw [eQ]
    refine ⟨?_, ?_, ?_⟩
    · exact q1.trans (by norm_num)
    · exact q2.trans (by norm_num)
    · norm_num
  · intro t ht
    simp only [List.mem_cons, List.not_mem_nil, or_false] at ht
    subst ht
    refine .inl fun f f0 f1 => ?_
    have ex : |(onWay v (along v d (X + 1 / 1024)) f).x| ≤ 1 / 4 := by
      have e : (onWay v (along v d (X + 1 / 1024)) f).x = v.x + f * (X + 1 / 1024) * d.x := by simp only [onWay, along, Vec.sub]; ring
      rw [e]
      have h1 : |f * (X + 1 / 1024) * d.x| ≤ 6 * (1 / 2 ^ 22) := by
        rw [abs_mul, abs_of_nonneg (mul_nonneg f0 (by linarith))]
        exact mul_le_mul (by nlinarith) d1 (abs_nonneg _) (by norm_num)
      refine (abs_add_le _ _).trans ?_
      norm_num at *
      linarith
    have h2 := (apart_comp (onWay v (along v d (X + 1 / 1024)) f) ⟨2, 0, -2⟩).1
    dsimp only at h2
    rw [abs_le] at ex h2
    refine le_trans ?_ (le_abs_self _)
    norm_num at *
    linarith
  · intro x hx
    simp only [greyLamp, List.mem_cons, List.not_mem_nil, or_false] at hx
    subst hx
    have hblk : (Obstacle.ball ⟨2, 0, -2⟩ 1).Blocks ⟨v.x + X * d.x, v.y + X * d.y, -4⟩ ⟨3, 0, 0⟩ := by
      refine ⟨?_, 1 / 2, by norm_num, by norm_num, ?_⟩
      · rw [apart, Real.sq_sqrt (by positivity)]
        nlinarith [sq_nonneg (v.y + X * d.y)]
      · rw [apart, Real.sq_sqrt (by positivity)]
        simp only [onWay, along, Vec.sub]
        nlinarith
    rw [eQ]
    refine ⟨?_, ?_⟩
    swap
    · have h0 := Decided.seen (l := ⟨⟨3, 0, 0⟩, ⟨100, 100, 100⟩⟩) (tints := [greyFlo]) [fun _ => 1 / 2]
        (.tint (u := true) (col := greyFlo) hblk .nil) (by norm_num) (.cons (fun k => ⟨by cases k <;> exact Turn.half_is, by norm_num, by norm_num⟩) .nil)
      simpa using h0
    simpa using hundred_lamp (Q := ⟨v.x + X * d.x, v.y + X * d.y, -4⟩) (a := 3) (b := 0) (c := 0) (by norm_num) (by norm_num) (by norm_num)
      (by push_cast; norm_num at a1 ⊢; linarith)
  · intro k
    rw [eQ]
    obtain ⟨w1, w2⟩ := wall_value a1 a2
    generalize hA : apart (⟨3, 0, 0⟩ : Vec ℝ) ⟨v.x + X * d.x, v.y + X * d.y, -4⟩ = a at *
    have g : Color.pick (⟨100, 100, 100⟩ : Color ℝ) k = 100 := by cases k <;> rfl
    have sn : sideNormal 2 true = ⟨0, 0, 1⟩ := by
      rw [sideNormal, if_neg (by decide), if_neg (by decide), if_pos rfl]
      rfl
    have mx : max 0 ((0 - -4 : ℝ) / a) = 4 / a := by
      rw [max_eq_right]
      · norm_num
      · have : 0 < a := by norm_num at a1; linarith
        norm_num
        positivity
    simp only [List.sum_cons, List.sum_nil, add_zero, greyLamp, List.map_cons, List.map_nil, Fitting.gives, Fitting.most, one_mul, zero_mul, squarely, slant, g, sn]
    simp only [hA, mul_zero, mul_one, zero_add, mx]
    generalize 100 / (4 * Real.pi * a ^ 2) * (4 / a) = y at *
    generalize 100 / (4 * Real.pi * a ^ 2) = z at *
    generalize 100 / (4 * Real.pi * 5 ^ 2) * (4 / 5) = e at *
    rw [one_mul] at w1
    rw [← mul_sub, abs_mul, abs_of_pos (by norm_num : (0 : ℝ) < 1 / 2)]
    norm_num at w1 w2 ⊢
    linarith

/-- A picture of one pixel of the wall in the shade of the ball, of 100 passes: for any workers and schedule, nothing crashes and the pixel
is within `1/3000` of half of `100/(4π5²)·(4/5)`, about 0.1273. -/
example {c : Cam Flo} (hc : Cam.projective (lit ((1 : ℤ) : ℚ) : Flo) = .ok c) (rng : Rng Flo S) (sh : Flo × Flo) {W : Nat} (hW : 0 < W) (seeds : Fin W → S)
    (t : SamplerState Flo (Ctx Flo S) W) (k : Nat)
    (hrun : Runs (ctxShader (tintScene.imageFunc rng ((c.yawPitchRoll (lit 0) (lit 0) (lit 0)).translate ⟨lit 0, lit 0, lit 0⟩))) 1 1 false 100
      (samplerInit 1 1 (fun i => Ctx.new [sh] (seeds i)) fun _ => Cell.zero) k t) (hdone : t.done) (ch : Primary) :
    t.crashed = false ∧ ∃ x, ((t.mem (0, 0)).image.pick ch).Is x ∧ |x - 1 / 2 * (100 / (4 * Real.pi * 5 ^ 2) * (4 / 5))| ≤ 1 / 3000 := by
  have e0 : |1 / 2 * (100 / (4 * Real.pi * 5 ^ 2) * (4 / 5))| ≤ 1 := by
    have := Real.pi_gt_three
    have h : 100 / (4 * Real.pi * 5 ^ 2) ≤ 1 := by
      rw [div_le_one (by positivity)]
      linarith
    rw [abs_of_nonneg (by positivity)]
    linarith
  obtain ⟨h1, h2⟩ := C103_picture tintScene rfl rfl (w := 1) (h := 1) (by norm_num) (by norm_num) (by norm_num) ahead_aims hc
    (fun _ _ => 1 / 2 * (100 / (4 * Real.pi * 5 ^ 2) * (4 / 5))) (fun _ _ => 1 / 4000) false
    (fun p hx hy => by
      obtain ⟨x, y⟩ := p
      obtain rfl : x = 0 := by simpa using hx
      obtain rfl : y = 0 := by simpa using hy
      simpa [sampleRow] using tint_steady)
    (fun p k => by norm_num at e0 ⊢; linarith) rng [sh] (by simp) hW seeds (n := 100) (by norm_num) (by norm_num) t k hrun
  obtain ⟨x, hx, hb⟩ := h2 hdone (0, 0) (by norm_num) (by norm_num) ch
  refine ⟨h1, x, hx, hb.trans ?_⟩
  generalize |1 / 2 * (100 / (4 * Real.pi * 5 ^ 2) * (4 / 5))| = a at *
  norm_num
  linarith

end BR
