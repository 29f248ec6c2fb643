import Verif.Props.C105_Mirror

/-! C106, a scene with a transparent box. -/

namespace BR
set_option linter.unusedSectionVars false

open Flo

variable {S : Type}

/-- A grey transparent box in front of the camera, before a white sky. -/
noncomputable def glassScene : Scene Flo := ⟨[], [Obj.box wallBlock (some (.transparent greyFlo.tex true)), Obj.backdrop (some (.flat whiteFlo.tex))], [], 3⟩

theorem side_front : sideNormal 2 true = ⟨0, 0, 1⟩ := by
  rw [sideNormal, if_neg (by decide), if_neg (by decide), if_pos rfl]
  rfl

theorem side_back : sideNormal 2 false = ⟨0, 0, -1⟩ := by
  rw [sideNormal, if_neg (by decide), if_neg (by decide), if_pos rfl]
  rfl

/-- Behind the box there is the sky. -/
theorem behind_glows {v d : Vec ℝ} (hl : (Obstacle.block ⟨-8, -8, -8⟩ ⟨8, 8, -4⟩).LeftBy v d) : Glows glassScene v d fun _ => 1 := by
  have one : (lit ((1 : ℤ) : ℚ) : Flo).Is 1 := by simpa using int_is 1 (by norm_num)
  refine Glows.sky (before := [_]) (after := []) (col := whiteFlo) (lamps := []) (things := [(_, .block ⟨-8, -8, -8⟩ ⟨8, 8, -4⟩)]) rfl
    (fun k => by cases k <;> exact one) rfl (.cons (wall_built _) .nil) ?_
  intro t ht
  obtain rfl := List.mem_singleton.1 ht
  exact ⟨nofun, fun Y _ => .inr hl⟩

/-- Lines from just inside of the front of the box leave it at the back. -/
theorem inside_leaves {v d : Vec ℝ} (v1 : |v.x| ≤ 1 / 2) (v2 : |v.y| ≤ 1 / 2) (v3 : |v.z - -4| ≤ 1 / 2) (d1 : |d.x| ≤ 1 / 64) (d2 : |d.y| ≤ 1 / 64)
    (d3 : |d.z - -1| ≤ 1 / 64) (hin : InBox ⟨-8, -8, -8⟩ ⟨8, 8, -4⟩ (-(1 / 2 ^ 30)) v) :
    ∃ X, LeavesAt (.block ⟨-8, -8, -8⟩ ⟨8, 8, -4⟩) v d X ∧ Within 63 (along v d X) := by
  rw [abs_le] at *
  obtain ⟨X, hX⟩ : ∃ X, X * d.z = -8 - v.z := ⟨(-8 - v.z) / d.z, div_mul_cancel₀ _ (by linarith)⟩
  have X1 : 3 ≤ X := by
    by_contra hlt
    nlinarith
  have X2 : X ≤ 5 := by
    by_contra hlt
    nlinarith
  have q1 : -1 ≤ v.x + X * d.x ∧ v.x + X * d.x ≤ 1 := by constructor <;> nlinarith
  have q2 : -1 ≤ v.y + X * d.y ∧ v.y + X * d.y ≤ 1 := by constructor <;> nlinarith
  have eQ : along v d X = ⟨v.x + X * d.x, v.y + X * d.y, -8⟩ := by
    simp only [along, Vec.mk.injEq, true_and]
    linarith
  refine ⟨X, ⟨hin, by linarith, 2, false, ⟨?_, ?_, ?_⟩, ?_⟩, ?_⟩
  · rw [eQ]; norm_num [outside, Vec.get]
  · norm_num [Vec.get]
  · rw [eQ]
    intro j hj
    fin_cases j
    · norm_num [Vec.get]; constructor <;> linarith
    · norm_num [Vec.get]; constructor <;> linarith
    · exact absurd rfl hj
  · rw [side_back]
    norm_num
    linarith
  · rw [eQ]
    refine ⟨abs_le.2 ?_, abs_le.2 ?_, by norm_num⟩ <;> dsimp only <;> constructor <;> linarith

/-- From inside of the box half of the light of the sky is seen. -/
theorem inside_shows {v d : Vec ℝ} (v1 : |v.x| ≤ 1 / 2) (v2 : |v.y| ≤ 1 / 2) (v3 : |v.z - -4| ≤ 1 / 2) (d1 : |d.x| ≤ 1 / 64) (d2 : |d.y| ≤ 1 / 64)
    (d3 : |d.z - -1| ≤ 1 / 64) (hin : InBox ⟨-8, -8, -8⟩ ⟨8, 8, -4⟩ (-(1 / 2 ^ 30)) v) :
    Shown glassScene 1 v d (fun _ => 1 / 2 * 1) (fun _ => 1 / 2 * 0 + (|1| + 0) / 2 ^ 53 + 1 / 2 ^ 200) := by
  obtain ⟨X, hl, wQ⟩ := inside_leaves v1 v2 v3 d1 d2 d3 hin
  refine Shown.out (n := 0) (before := []) (after := [_]) (tint := greyFlo) (κ := fun _ => 1 / 2) (X := X) (lamps := []) (things := [(_, .sky)])
    (val := fun _ _ => 1) (tol := fun _ _ => 0) (E := fun _ => 1) (B := fun _ => 0) rfl (wall_built _)
    (fun k => ⟨by cases k <;> exact Turn.half_is, by norm_num, by norm_num⟩) hl wQ rfl (.cons .sky .nil) ?_ ?_ ?_ ?_
  · intro t ht
    obtain rfl := List.mem_singleton.1 ht
    exact .inl trivial
  · intro v' hv'
    exact .plain (behind_glows hv'.2)
  · intro v' _ k
    norm_num
  · norm_num

theorem glass_steady : SteadyWith glassScene 2 (aheadView.sight 1 1 0 0) (fun _ => 1 / 4) (fun _ => 1 / 2 ^ 52) := by
  rw [ahead_sight]
  rintro v d ⟨⟨v1, v2, v3⟩, d1, d2, d3⟩
  simp only [Vec.sub, sub_zero] at v1 v2 v3 d1 d2 d3
  rw [abs_le] at *
  norm_num at v1 v2 v3 d1 d2 d3
  obtain ⟨X, hX⟩ : ∃ X, X * d.z = -4 - v.z := ⟨(-4 - v.z) / d.z, div_mul_cancel₀ _ (by linarith)⟩
  have X1 : 3 ≤ X := by
    by_contra hlt
    nlinarith
  have X2 : X ≤ 5 := by
    by_contra hlt
    nlinarith
  have q1 : -(1 / 64) ≤ v.x + X * d.x ∧ v.x + X * d.x ≤ 1 / 64 := by constructor <;> nlinarith
  have q2 : -(1 / 64) ≤ v.y + X * d.y ∧ v.y + X * d.y ≤ 1 / 64 := by constructor <;> nlinarith
  have eQ : along v d X = ⟨v.x + X * d.x, v.y + X * d.y, -4⟩ := by
    simp only [along, Vec.mk.injEq, true_and]
    linarith
  refine ⟨_, _, Shown.pane (n := 1) (before := []) (after := [_]) (tint := greyFlo) (κ := fun _ => 1 / 2) (X := X) (N := sideNormal 2 true) (lamps := [])
    (things := [(_, .sky)]) (val := fun _ _ => 1 / 2 * 1) (tol := fun _ _ => 1 / 2 * 0 + (|1| + 0) / 2 ^ 53 + 1 / 2 ^ 200) (E := fun _ => 1 / 2)
    (B := fun _ => 1 / 2 * 0 + (|1| + 0) / 2 ^ 53 + 1 / 2 ^ 200) rfl (wall_built _)
    (fun k => ⟨by cases k <;> exact Turn.half_is, by norm_num, by norm_num⟩)
    ⟨by linarith, 2, true, ⟨?_, ?_, ?_⟩, rfl, ?_⟩ ?_ ?_ rfl (.cons .sky .nil) ?_ ?_ ?_ ?_, ?_⟩
  · rw [eQ]; norm_num [outside, Vec.get]
  · norm_num [Vec.get]
  · rw [eQ]
    intro j hj
    fin_cases j
    · norm_num [Vec.get]; constructor <;> linarith
    · norm_num [Vec.get]; constructor <;> linarith
    · exact absurd rfl hj
  · rw [side_front]
    norm_num
    linarith
  · rw [eQ]
    refine ⟨abs_le.2 ?_, abs_le.2 ?_, by norm_num⟩ <;> dsimp only <;> constructor <;> linarith
  · rw [side_front]
    norm_num
    linarith
  · intro t ht
    obtain rfl := List.mem_singleton.1 ht
    exact .inl trivial
  · rintro v' ⟨⟨a1, a2, a3⟩, hl⟩
    rw [eQ] at a1 a2 a3
    simp only [Vec.sub] at a1 a2 a3
    rw [abs_le] at a1 a2 a3
    norm_num at a1 a2 a3
    refine inside_shows ?_ ?_ ?_ ?_ ?_ ?_ hl <;> rw [abs_le] <;> constructor <;> linarith
  · intro v' _ k
    norm_num
  · intro k
    norm_num [abs_of_pos]
  · intro k
    norm_num [abs_of_pos]

/-- What is seen through the box of the example straight ahead: a quarter of the light of the sky. -/
example (rng : Rng Flo S) {q : Ray Flo} {v d : Vec ℝ} (hg : Glance q v d) (hc : CloseTo ⟨⟨0, 0, 0⟩, ⟨0, 0, -1⟩⟩ v d) (ctx : Ctx Flo S) (h0 : ctx.depth = 0)
    (hready : ctx.Ready) : ∃ col ctx', glassScene.lightField rng 3 .direct q ctx = .ok (col, ctx') ∧ ∃ x, col.G.Is x ∧ |x - 1 / 4| ≤ 1 / 2 ^ 52 := by
  obtain ⟨val, tol, hs, hb⟩ := glass_steady v d (by rw [ahead_sight]; exact hc)
  obtain ⟨col, ctx', e, -, hk⟩ := C105_seen rng rfl hs hg (ctx := ctx) (by omega) (by rw [h0]; rfl) hready .direct
  obtain ⟨x, hx, ex⟩ := hk .green
  refine ⟨col, ctx', e, x, hx, ?_⟩
  have := abs_add_le (x - val .green) (val .green - 1 / 4)
  rw [sub_add_sub_cancel] at this
  have := hb .green
  linarith

/-- A picture of one pixel of the glass box, of any number of passes, by any workers and schedule: a quarter of the light of the sky comes
through its two sides. -/
example {c : Cam Flo} (hc : Cam.projective (lit ((1 : ℤ) : ℚ) : Flo) = .ok c) (rng : Rng Flo S) (sh : Flo × Flo) {W : Nat} (hW : 0 < W)
    (seeds : Fin W → S) (t : SamplerState Flo (Ctx Flo S) W) (k n : Nat) (h1 : 1 ≤ n) (hn : n ≤ 2 ^ 26)
    (hrun : Runs (ctxShader (glassScene.imageFunc rng ((c.yawPitchRoll (lit 0) (lit 0) (lit 0)).translate ⟨lit 0, lit 0, lit 0⟩))) 1 1 false n
      (samplerInit 1 1 (fun i => Ctx.new [sh] (seeds i)) fun _ => Cell.zero) k t) (hdone : t.done) (ch : Primary) :
    t.crashed = false ∧ ∃ x, ((t.mem (0, 0)).image.pick ch).Is x ∧ |x - 1 / 4| ≤ 1 / 2 ^ 25 := by
  obtain ⟨h3, h2⟩ := C105_picture glassScene rfl (m := 2) rfl (w := 1) (h := 1) (by norm_num) (by norm_num) (by norm_num) ahead_aims hc
    (fun _ _ => 1 / 4) (fun _ _ => 1 / 2 ^ 52) false
    (fun p hx hy => by
      obtain ⟨x, y⟩ := p
      obtain rfl : x = 0 := by simpa using hx
      obtain rfl : y = 0 := by simpa using hy
      simpa [sampleRow] using glass_steady)
    (fun p k => by norm_num [abs_of_pos]) rng [sh] (by simp) hW seeds (n := n) h1 hn t k hrun
  obtain ⟨x, hx, hb⟩ := h2 hdone (0, 0) (by norm_num) (by norm_num) ch
  refine ⟨h3, x, hx, hb.trans ?_⟩
  have : (n : ℝ) ≤ 2 ^ 26 := by exact_mod_cast hn
  generalize (n : ℝ) = y at *
  norm_num [abs_of_pos] at this ⊢
  linarith

end BR
