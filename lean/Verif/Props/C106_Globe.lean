import Verif.Props.C106_Glass

/-! C106, a scene with a transparent ball. -/

namespace BR
set_option linter.unusedSectionVars false

open Flo

variable {S : Type}

/-- A grey transparent ball in front of the camera, before a white sky. -/
noncomputable def globeScene : Scene Flo :=
  ⟨[], [Obj.sphere (some (.transparent greyFlo.tex true)) (lit ((4 : ℤ) : ℚ)) ⟨lit ((0 : ℤ) : ℚ), lit ((0 : ℤ) : ℚ), lit ((-4 : ℤ) : ℚ)⟩,
    Obj.backdrop (some (.flat whiteFlo.tex))], [], 3⟩

theorem globe_built (m : Option (Mat Flo)) : (Obstacle.ball ⟨0, 0, -4⟩ 2).Built m
    (Obj.sphere m (lit ((4 : ℤ) : ℚ)) ⟨lit ((0 : ℤ) : ℚ), lit ((0 : ℤ) : ℚ), lit ((-4 : ℤ) : ℚ)⟩) := by
  have z : (lit ((0 : ℤ) : ℚ) : Flo).Is 0 := by simpa using int_is 0 (by norm_num)
  have p4 : (lit ((4 : ℤ) : ℚ) : Flo).Is (2 * 2) := by
    have := int_is 4 (by norm_num)
    norm_num at this ⊢
    exact this
  have m4 : (lit ((-4 : ℤ) : ℚ) : Flo).Is (-4) := by simpa using int_is (-4) (by norm_num)
  exact .ball ⟨z, z, m4⟩ p4 (by norm_num [Within]) (by norm_num) (by norm_num)

/-- Behind the ball there is the sky. -/
theorem behind_globe {v d : Vec ℝ} (hl : (Obstacle.ball ⟨0, 0, -4⟩ 2).LeftBy v d) : Glows globeScene v d fun _ => 1 := by
  have one : (lit ((1 : ℤ) : ℚ) : Flo).Is 1 := by simpa using int_is 1 (by norm_num)
  refine Glows.sky (before := [_]) (after := []) (col := whiteFlo) (lamps := []) (things := [(_, .ball ⟨0, 0, -4⟩ 2)]) rfl
    (fun k => by cases k <;> exact one) rfl (.cons (globe_built _) .nil) ?_
  intro t ht
  obtain rfl := List.mem_singleton.1 ht
  exact ⟨nofun, fun Y _ => .inr hl⟩

/-- Distances from a point along a line. -/
theorem apart_along (v d c : Vec ℝ) (T : ℝ) : apart (along v d T) c ^ 2 = (d.x ^ 2 + d.y ^ 2 + d.z ^ 2) * T ^ 2 +
    2 * ((v.x - c.x) * d.x + (v.y - c.y) * d.y + (v.z - c.z) * d.z) * T + apart v c ^ 2 := by
  rw [apart_sq, apart_sq]
  simp only [along]
  ring

/-- The length of a direction nearly straight ahead. -/
theorem ahead_length {d : Vec ℝ} (d1 : |d.x| ≤ 1 / 2 ^ 12) (d2 : |d.y| ≤ 1 / 2 ^ 12) (d3 : |d.z - -1| ≤ 1 / 2 ^ 12) :
    0.99 ≤ d.x ^ 2 + d.y ^ 2 + d.z ^ 2 ∧ d.x ^ 2 + d.y ^ 2 + d.z ^ 2 ≤ 1.01 := by
  have := sq_le_sq' (abs_le.1 d1).1 (abs_le.1 d1).2
  have := sq_le_sq' (abs_le.1 d2).1 (abs_le.1 d2).2
  rw [abs_le] at d3
  norm_num at *
  constructor <;> nlinarith [sq_nonneg d.x, sq_nonneg d.y]

/-- Towards the ball. -/
theorem ahead_dot {v d : Vec ℝ} (v1 : |v.x| ≤ 1 / 2 ^ 9) (v2 : |v.y| ≤ 1 / 2 ^ 9) (d1 : |d.x| ≤ 1 / 2 ^ 12) (d2 : |d.y| ≤ 1 / 2 ^ 12) :
    |v.x * d.x + v.y * d.y| ≤ 1 / 2 ^ 20 := by
  have h1 : |v.x * d.x| ≤ 1 / 2 ^ 9 * (1 / 2 ^ 12) := by rw [abs_mul]; exact mul_le_mul v1 d1 (abs_nonneg _) (by norm_num)
  have h2 : |v.y * d.y| ≤ 1 / 2 ^ 9 * (1 / 2 ^ 12) := by rw [abs_mul]; exact mul_le_mul v2 d2 (abs_nonneg _) (by norm_num)
  refine (abs_add_le _ _).trans ?_
  norm_num at *
  linarith

/-- Distances from the ball of points near the axis. -/
theorem ahead_apart {v : Vec ℝ} (v1 : |v.x| ≤ 1 / 2 ^ 9) (v2 : |v.y| ≤ 1 / 2 ^ 9) :
    (v.z + 4) ^ 2 ≤ apart v ⟨0, 0, -4⟩ ^ 2 ∧ apart v ⟨0, 0, -4⟩ ^ 2 ≤ (v.z + 4) ^ 2 + 1 / 2 ^ 17 := by
  have := sq_le_sq' (abs_le.1 v1).1 (abs_le.1 v1).2
  have := sq_le_sq' (abs_le.1 v2).1 (abs_le.1 v2).2
  rw [apart_sq]
  norm_num at *
  constructor <;> nlinarith [sq_nonneg v.x, sq_nonneg v.y]

/-- Points of the ball are near. -/
theorem globe_within {v d : Vec ℝ} {X : ℝ} (v1 : |v.x| ≤ 1 / 2 ^ 9) (v2 : |v.y| ≤ 1 / 2 ^ 9) (v3 : |v.z| ≤ 3) (d1 : |d.x| ≤ 1 / 2 ^ 12)
    (d2 : |d.y| ≤ 1 / 2 ^ 12) (d3 : |d.z - -1| ≤ 1 / 2 ^ 12) (X0 : 0 ≤ X) (X1 : X ≤ 5) :
    |(along v d X).x| ≤ 1 / 2 ^ 8 ∧ |(along v d X).y| ≤ 1 / 2 ^ 8 ∧ |(along v d X).z - (v.z - X)| ≤ 1 / 2 ^ 9 ∧ Within 63 (along v d X) := by
  have key : ∀ {u : ℝ}, |u| ≤ 1 / 2 ^ 12 → |X * u| ≤ 5 * (1 / 2 ^ 12) := by
    intro u hu
    rw [abs_mul, abs_of_nonneg X0]
    exact mul_le_mul X1 hu (abs_nonneg _) (by norm_num)
  have k1 := key d1
  have k2 := key d2
  have k3 := key d3
  simp only [along, Within]
  rw [abs_le] at *
  norm_num at *
  simp only [abs_le]
  refine ⟨⟨?_, ?_⟩, ⟨?_, ?_⟩, ⟨?_, ?_⟩, ⟨?_, ?_⟩, ⟨?_, ?_⟩, ?_, ?_⟩ <;> linarith

/-- Lines from just inside of the front of the ball leave it at the back. -/
theorem globe_leaves {v d : Vec ℝ} (v1 : |v.x| ≤ 1 / 2 ^ 9) (v2 : |v.y| ≤ 1 / 2 ^ 9) (v3 : |v.z - -2| ≤ 1 / 2 ^ 9) (d1 : |d.x| ≤ 1 / 2 ^ 12)
    (d2 : |d.y| ≤ 1 / 2 ^ 12) (d3 : |d.z - -1| ≤ 1 / 2 ^ 12) (hin : (Obstacle.ball ⟨0, 0, -4⟩ 2).Beyond v d) :
    ∃ X, LeavesAt (.ball ⟨0, 0, -4⟩ 2) v d X ∧ Within 63 (along v d X) := by
  obtain ⟨A1, A2⟩ := ahead_length d1 d2 d3
  have hdot := ahead_dot v1 v2 d1 d2
  obtain ⟨γ1, -⟩ := ahead_apart v1 v2
  have hf := apart_along v d ⟨0, 0, -4⟩
  have eg : ∀ X, ((along v d X).x - 0) * d.x + ((along v d X).y - 0) * d.y + ((along v d X).z - -4) * d.z =
      ((v.x - 0) * d.x + (v.y - 0) * d.y + (v.z - -4) * d.z) + X * (d.x ^ 2 + d.y ^ 2 + d.z ^ 2) := by intro X; simp only [along]; ring
  have hβ : -2.01 ≤ (v.x - 0) * d.x + (v.y - 0) * d.y + (v.z - -4) * d.z ∧ (v.x - 0) * d.x + (v.y - 0) * d.y + (v.z - -4) * d.z ≤ -1.99 := by
    rw [abs_le] at hdot v3 d3
    norm_num at *
    constructor <;> nlinarith
  have hγ : -0.02 ≤ apart v ⟨0, 0, -4⟩ ^ 2 - 4 ∧ apart v ⟨0, 0, -4⟩ ^ 2 - 4 ≤ 0 := by
    have h2 : apart v ⟨0, 0, -4⟩ ^ 2 ≤ 2 ^ 2 - 1 / 2 ^ 25 := hin
    rw [abs_le] at v3
    norm_num at *
    constructor <;> nlinarith
  have hw := fun X X0 X1 => (globe_within (X := X) v1 v2 (by rw [abs_le] at *; norm_num at *; constructor <;> linarith) d1 d2 d3 X0 X1).2.2.2
  have hlen : 9 / 10 ≤ d.x ^ 2 + d.y ^ 2 + d.z ^ 2 := by norm_num at A1 ⊢; linarith
  unfold LeavesAt
  dsimp only at *
  generalize hA : d.x ^ 2 + d.y ^ 2 + d.z ^ 2 = A at *
  generalize (v.x - 0) * d.x + (v.y - 0) * d.y + (v.z - -4) * d.z = β at *
  have hD : 3.9 ≤ β ^ 2 - A * (apart v ⟨0, 0, -4⟩ ^ 2 - 4) ∧ β ^ 2 - A * (apart v ⟨0, 0, -4⟩ ^ 2 - 4) ≤ 4.1 := by
    generalize apart v ⟨0, 0, -4⟩ ^ 2 - 4 = γ at *
    norm_num at *
    constructor <;> nlinarith
  have hs2 := Real.sq_sqrt (show 0 ≤ β ^ 2 - A * (apart v ⟨0, 0, -4⟩ ^ 2 - 4) by norm_num at hD; linarith)
  have hs0 := Real.sqrt_nonneg (β ^ 2 - A * (apart v ⟨0, 0, -4⟩ ^ 2 - 4))
  generalize Real.sqrt (β ^ 2 - A * (apart v ⟨0, 0, -4⟩ ^ 2 - 4)) = s at *
  have hs : 1.9 ≤ s ∧ s ≤ 2.1 := by
    norm_num at *
    constructor <;> nlinarith
  have hA0 : 0 < A := by linarith
  obtain ⟨X, hX⟩ : ∃ X, X * A = s - β := ⟨(s - β) / A, div_mul_cancel₀ _ hA0.ne'⟩
  have X0 : 0 < X := by
    by_contra hlt
    norm_num at *
    nlinarith
  have X1 : X ≤ 5 := by
    by_contra hlt
    norm_num at *
    nlinarith
  refine ⟨X, ⟨hin, X0, ?_, hlen, ?_⟩, hw X X0.le X1⟩
  · refine (sq_eq_sq₀ (a := apart _ _) (Real.sqrt_nonneg _) (by norm_num)).1 ?_
    rw [hf]
    refine mul_left_cancel₀ hA0.ne' ?_
    linear_combination hs2 + (X * A + β + s) * hX
  · rw [eg]
    norm_num at *
    linarith

/-- From inside of the ball half of the light of the sky is seen. -/
theorem globe_inside {v d : Vec ℝ} (v1 : |v.x| ≤ 1 / 2 ^ 9) (v2 : |v.y| ≤ 1 / 2 ^ 9) (v3 : |v.z - -2| ≤ 1 / 2 ^ 9) (d1 : |d.x| ≤ 1 / 2 ^ 12)
    (d2 : |d.y| ≤ 1 / 2 ^ 12) (d3 : |d.z - -1| ≤ 1 / 2 ^ 12) (hin : (Obstacle.ball ⟨0, 0, -4⟩ 2).Beyond v d) :
    Shown globeScene 1 v d (fun _ => 1 / 2 * 1) (fun _ => 1 / 2 * 0 + (|1| + 0) / 2 ^ 53 + 1 / 2 ^ 200) := by
  obtain ⟨X, hl, wQ⟩ := globe_leaves v1 v2 v3 d1 d2 d3 hin
  refine Shown.out (n := 0) (before := []) (after := [_]) (tint := greyFlo) (κ := fun _ => 1 / 2) (X := X) (lamps := []) (things := [(_, .sky)])
    (val := fun _ _ => 1) (tol := fun _ _ => 0) (E := fun _ => 1) (B := fun _ => 0) rfl (globe_built _)
    (fun k => ⟨by cases k <;> exact Turn.half_is, by norm_num, by norm_num⟩) hl wQ rfl (.cons .sky .nil) ?_ ?_ ?_ ?_
  · intro t ht
    obtain rfl := List.mem_singleton.1 ht
    exact .inl trivial
  · intro v' hv'
    exact .plain (behind_globe hv'.2)
  · intro v' _ k
    norm_num
  · norm_num

/-- Where the ball is met. -/
theorem globe_roots {A β γ : ℝ} (hA : 0.99999 ≤ A ∧ A ≤ 1.00001) (hβ : -4.00001 ≤ β ∧ β ≤ -3.99999) (hγ : 15.9999 ≤ γ ∧ γ ≤ 16.0001) :
    ∃ s X, s ^ 2 = β ^ 2 - A * (γ - 4) ∧ 1.99985 ≤ s ∧ X * A = -β - s ∧ 2 - 1 / 2 ^ 12 ≤ X ∧ X ≤ 2 + 1 / 2 ^ 12 := by
  have hD : 3.9995 ≤ β ^ 2 - A * (γ - 4) ∧ β ^ 2 - A * (γ - 4) ≤ 4.0005 := by
    norm_num at *
    constructor <;> nlinarith
  have hs2 := Real.sq_sqrt (show 0 ≤ β ^ 2 - A * (γ - 4) by norm_num at hD; linarith)
  have hs0 := Real.sqrt_nonneg (β ^ 2 - A * (γ - 4))
  generalize Real.sqrt (β ^ 2 - A * (γ - 4)) = s at *
  have hs : 1.99985 ≤ s ∧ s ≤ 2.00015 := by
    norm_num at *
    constructor <;> nlinarith
  have hA0 : 0 < A := by linarith [hA.1]
  obtain ⟨X, hX⟩ : ∃ X, X * A = -β - s := ⟨(-β - s) / A, div_mul_cancel₀ _ hA0.ne'⟩
  have X1 : X ≤ 2 + 1 / 2 ^ 12 := by
    by_contra hlt
    norm_num at *
    nlinarith
  have X0 : 2 - 1 / 2 ^ 12 ≤ X := by
    by_contra hlt
    norm_num at *
    nlinarith
  exact ⟨s, X, hs2, hs.1, hX, X0, X1⟩

/-- Lines straight ahead meet the ball at its front. -/
theorem globe_met {v d : Vec ℝ} (v1 : |v.x| ≤ 1 / 2 ^ 20) (v2 : |v.y| ≤ 1 / 2 ^ 20) (v3 : |v.z| ≤ 1 / 2 ^ 20) (d1 : |d.x| ≤ 1 / 2 ^ 20)
    (d2 : |d.y| ≤ 1 / 2 ^ 20) (d3 : |d.z - -1| ≤ 1 / 2 ^ 20) :
    ∃ X, (Obstacle.ball ⟨0, 0, -4⟩ 2).MetAt v d X (outward ⟨0, 0, -4⟩ (along v d X)) ∧ Within 63 (along v d X) ∧ |X - 2| ≤ 1 / 2 ^ 12 ∧
      (outward ⟨0, 0, -4⟩ (along v d X)).x * d.x + (outward ⟨0, 0, -4⟩ (along v d X)).y * d.y + (outward ⟨0, 0, -4⟩ (along v d X)).z * d.z ≤ -(1 / 16) := by
  have hdot := ahead_dot (v1.trans (by norm_num)) (v2.trans (by norm_num)) (d1.trans (by norm_num)) (d2.trans (by norm_num))
  have hap := ahead_apart (v1.trans (by norm_num)) (v2.trans (by norm_num))
  have hf := apart_along v d ⟨0, 0, -4⟩
  have eg : ∀ X, ((along v d X).x - 0) * d.x + ((along v d X).y - 0) * d.y + ((along v d X).z - -4) * d.z =
      ((v.x - 0) * d.x + (v.y - 0) * d.y + (v.z - -4) * d.z) + X * (d.x ^ 2 + d.y ^ 2 + d.z ^ 2) := by intro X; simp only [along]; ring
  have hA : 0.99999 ≤ d.x ^ 2 + d.y ^ 2 + d.z ^ 2 ∧ d.x ^ 2 + d.y ^ 2 + d.z ^ 2 ≤ 1.00001 := by
    have := sq_le_sq' (abs_le.1 d1).1 (abs_le.1 d1).2
    have := sq_le_sq' (abs_le.1 d2).1 (abs_le.1 d2).2
    rw [abs_le] at d3
    norm_num at *
    constructor <;> nlinarith [sq_nonneg d.x, sq_nonneg d.y]
  have hβ : -4.00001 ≤ (v.x - 0) * d.x + (v.y - 0) * d.y + (v.z - -4) * d.z ∧ (v.x - 0) * d.x + (v.y - 0) * d.y + (v.z - -4) * d.z ≤ -3.99999 := by
    rw [abs_le] at hdot v3 d3
    norm_num at *
    constructor <;> nlinarith
  have hγ : 15.9999 ≤ apart v ⟨0, 0, -4⟩ ^ 2 ∧ apart v ⟨0, 0, -4⟩ ^ 2 ≤ 16.0001 := by
    rw [abs_le] at v3
    norm_num at *
    constructor <;> nlinarith
  have hw := fun X X0 X1 => (globe_within (X := X) (v1.trans (by norm_num)) (v2.trans (by norm_num)) (v3.trans (by norm_num))
    (d1.trans (by norm_num)) (d2.trans (by norm_num)) (d3.trans (by norm_num)) X0 X1).2.2.2
  unfold Obstacle.MetAt
  dsimp only at *
  generalize d.x ^ 2 + d.y ^ 2 + d.z ^ 2 = A at *
  generalize (v.x - 0) * d.x + (v.y - 0) * d.y + (v.z - -4) * d.z = β at *
  clear hap hdot
  obtain ⟨s, X, hs2, hs, hX, X0, X1⟩ := globe_roots hA hβ hγ
  have hA0 : 0 < A := by linarith [hA.1]
  have hQ : apart (along v d X) ⟨0, 0, -4⟩ = 2 := by
    refine (sq_eq_sq₀ (a := apart _ _) (Real.sqrt_nonneg _) (by norm_num)).1 ?_
    rw [hf]
    refine mul_left_cancel₀ hA0.ne' ?_
    linear_combination hs2 + (X * A + β - s) * hX
  have Xp : 0 < X := by norm_num at X0; linarith
  refine ⟨X, ⟨by norm_num, ?_, ⟨4, by norm_num, ?_⟩, Xp, hQ, ?_, rfl⟩, hw X Xp.le (X1.trans (by norm_num)), ?_, ?_⟩
  · norm_num at hγ ⊢
    linarith
  · rw [hf]
    norm_num at *
    linarith
  · intro T _ hT e
    have e2 := hf T
    rw [e] at e2
    have hw1 : T * A + β < -s := by linarith [mul_lt_mul_of_pos_right hT hA0]
    have hw2 : (T * A + β) ^ 2 = s ^ 2 := by linear_combination -hs2 - A * e2
    have := mul_pos_of_neg_of_neg (show T * A + β + s < 0 by linarith) (show T * A + β - s < 0 by linarith)
    linarith
  · rw [abs_le]
    constructor <;> linarith
  · have := eg X
    rw [hX] at this
    simp only [outward, hQ]
    norm_num at *
    linarith

theorem globe_steady : SteadyWith globeScene 2 (aheadView.sight 1 1 0 0) (fun _ => 1 / 4) (fun _ => 1 / 2 ^ 52) := by
  rw [ahead_sight]
  rintro v d ⟨⟨v1, v2, v3⟩, d1, d2, d3⟩
  simp only [Vec.sub, sub_zero] at v1 v2 v3 d1 d2 d3
  obtain ⟨X, hm, wQ, hX, hg⟩ := globe_met (v1.trans (by norm_num)) (v2.trans (by norm_num)) (v3.trans (by norm_num)) (d1.trans (by norm_num))
    (d2.trans (by norm_num)) (d3.trans (by norm_num))
  refine ⟨_, _, Shown.pane (n := 1) (before := []) (after := [_]) (tint := greyFlo) (κ := fun _ => 1 / 2) (X := X) (N := _) (lamps := [])
    (things := [(_, .sky)]) (val := fun _ _ => 1 / 2 * 1) (tol := fun _ _ => 1 / 2 * 0 + (|1| + 0) / 2 ^ 53 + 1 / 2 ^ 200) (E := fun _ => 1 / 2)
    (B := fun _ => 1 / 2 * 0 + (|1| + 0) / 2 ^ 53 + 1 / 2 ^ 200) rfl (globe_built _)
    (fun k => ⟨by cases k <;> exact Turn.half_is, by norm_num, by norm_num⟩) hm wQ hg rfl (.cons .sky .nil) ?_ ?_ ?_ ?_, ?_⟩
  · intro t ht
    obtain rfl := List.mem_singleton.1 ht
    exact .inl trivial
  · rintro v' ⟨⟨a1, a2, a3⟩, hl⟩
    have key : ∀ {u : ℝ}, |u| ≤ 1 / 2 ^ 22 → |X * u| ≤ 4 * (1 / 2 ^ 22) := by
      intro u hu
      rw [abs_mul]
      refine mul_le_mul ?_ hu (abs_nonneg _) (by norm_num)
      rw [abs_le] at hX ⊢
      norm_num at hX
      constructor <;> linarith
    have k1 := key d1
    have k2 := key d2
    have k3 := key d3
    simp only [Vec.sub, along] at a1 a2 a3
    refine globe_inside ?_ ?_ ?_ (d1.trans (by norm_num)) (d2.trans (by norm_num)) (d3.trans (by norm_num)) hl <;> rw [abs_le] at * <;> norm_num at * <;>
      constructor <;> linarith
  · intro v' _ k
    norm_num
  · intro k
    norm_num [abs_of_pos]
  · intro k
    norm_num [abs_of_pos]

/-- What is seen through the ball of the example straight ahead: a quarter of the light of the sky. -/
example (rng : Rng Flo S) {q : Ray Flo} {v d : Vec ℝ} (hg : Glance q v d) (hc : CloseTo ⟨⟨0, 0, 0⟩, ⟨0, 0, -1⟩⟩ v d) (ctx : Ctx Flo S) (h0 : ctx.depth = 0)
    (hready : ctx.Ready) : ∃ col ctx', globeScene.lightField rng 3 .direct q ctx = .ok (col, ctx') ∧ ∃ x, col.G.Is x ∧ |x - 1 / 4| ≤ 1 / 2 ^ 52 := by
  obtain ⟨val, tol, hs, hb⟩ := globe_steady v d (by rw [ahead_sight]; exact hc)
  obtain ⟨col, ctx', e, -, hk⟩ := C105_seen rng rfl hs hg (ctx := ctx) (by omega) (by rw [h0]; rfl) hready .direct
  obtain ⟨x, hx, ex⟩ := hk .green
  refine ⟨col, ctx', e, x, hx, ?_⟩
  have := abs_add_le (x - val .green) (val .green - 1 / 4)
  rw [sub_add_sub_cancel] at this
  have := hb .green
  linarith

/-- A picture of one pixel of the glass ball, of any number of passes, by any workers and schedule: a quarter of the light of the sky comes
through its front and its back. -/
example {c : Cam Flo} (hc : Cam.projective (lit ((1 : ℤ) : ℚ) : Flo) = .ok c) (rng : Rng Flo S) (sh : Flo × Flo) {W : Nat} (hW : 0 < W)
    (seeds : Fin W → S) (t : SamplerState Flo (Ctx Flo S) W) (k n : Nat) (h1 : 1 ≤ n) (hn : n ≤ 2 ^ 26)
    (hrun : Runs (ctxShader (globeScene.imageFunc rng ((c.yawPitchRoll (lit 0) (lit 0) (lit 0)).translate ⟨lit 0, lit 0, lit 0⟩))) 1 1 false n
      (samplerInit 1 1 (fun i => Ctx.new [sh] (seeds i)) fun _ => Cell.zero) k t) (hdone : t.done) (ch : Primary) :
    t.crashed = false ∧ ∃ x, ((t.mem (0, 0)).image.pick ch).Is x ∧ |x - 1 / 4| ≤ 1 / 2 ^ 25 := by
  obtain ⟨h3, h2⟩ := C105_picture globeScene rfl (m := 2) rfl (w := 1) (h := 1) (by norm_num) (by norm_num) (by norm_num) ahead_aims hc
    (fun _ _ => 1 / 4) (fun _ _ => 1 / 2 ^ 52) false
    (fun p hx hy => by
      obtain ⟨x, y⟩ := p
      obtain rfl : x = 0 := by simpa using hx
      obtain rfl : y = 0 := by simpa using hy
      simpa [sampleRow] using globe_steady)
    (fun p k => by norm_num [abs_of_pos]) rng [sh] (by simp) hW seeds (n := n) h1 hn t k hrun
  obtain ⟨x, hx, hb⟩ := h2 hdone (0, 0) (by norm_num) (by norm_num) ch
  refine ⟨h3, x, hx, hb.trans ?_⟩
  have : (n : ℝ) ≤ 2 ^ 26 := by exact_mod_cast hn
  generalize (n : ℝ) = y at *
  norm_num [abs_of_pos] at this ⊢
  linarith

end BR
