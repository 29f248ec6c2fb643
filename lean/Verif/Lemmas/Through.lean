import Verif.Lemmas.ThroughBall
import Verif.Lemmas.Tree

/-! Where a ray goes from a transparent thing, in double precision. -/

namespace BR
set_option linter.unusedSectionVars false

open Flo

variable {r : Ray Flo} {v d : Vec ℝ} {mt : Option (Mat Flo)} {o : Obj Flo (Mat Flo)} {b : Obstacle}

/-- Where the ray that goes on starts. -/
theorem on_near (h : Glance r v d) {t : Flo} {T : ℝ} (ht : t.Is T) (hT : |T| ≤ 8192) :
    ∃ v', (r.at (t + tiny)).FIs v' ∧ Within (1 / 2 ^ 36) (v'.sub (along v d (T + 1 / (1204 * 1024)))) := by
  obtain ⟨d1, d2, d3⟩ := comp_le h.short
  have hb := (ht.near hT).add (1 / 2 ^ 39) 8193 Ball.tiny_near
  have mv : ∀ {a δ : Flo} {x u : ℝ}, a.Is x → |x| ≤ 64 → δ.Is u → |u| ≤ 3 / 2 →
      ∃ w, (a + (t + tiny) * δ).Is w ∧ |w - (x + (T + 1 / (1204 * 1024)) * u)| ≤ 1 / 2 ^ 36 := by
    intro a δ x u ha hx hδ hu
    have h1 := hb.mul (1 / 2 ^ 37) 12290 (hδ.near hu)
    exact ((ha.near hx).add (1 / 2 ^ 36) 12354 h1).1
  obtain ⟨px, ix, ex⟩ := mv h.start.1 h.near.1 h.dir.1 d1
  obtain ⟨py, iy, ey⟩ := mv h.start.2.1 h.near.2.1 h.dir.2.1 d2
  obtain ⟨pz, iz, ez⟩ := mv h.start.2.2 h.near.2.2 h.dir.2.2 d3
  exact ⟨⟨px, py, pz⟩, ⟨ix, iy, iz⟩, ex, ey, ez⟩

/-- It is close to where the thing is met. -/
theorem on_close (hd : d.x ^ 2 + d.y ^ 2 + d.z ^ 2 ≤ 2) {v' : Vec ℝ} {T X : ℝ} (h : Within (1 / 2 ^ 36) (v'.sub (along v d (T + 1 / (1204 * 1024)))))
    (hT : |T - X| ≤ 1 / 2 ^ 23) : Within (1 / 2 ^ 19) (v'.sub (along v d X)) := by
  obtain ⟨d1, d2, d3⟩ := comp_le hd
  have key : ∀ {w x u : ℝ}, |w - (x + (T + 1 / (1204 * 1024)) * u)| ≤ 1 / 2 ^ 36 → |u| ≤ 3 / 2 → |w - (x + X * u)| ≤ 1 / 2 ^ 19 := by
    intro w x u hw hu
    have h1 : |(T - X + 1 / (1204 * 1024)) * u| ≤ (1 / 2 ^ 23 + 1 / (1204 * 1024)) * (3 / 2) := by
      rw [abs_mul]
      refine mul_le_mul ?_ hu (abs_nonneg _) (by norm_num)
      rw [abs_le] at *
      norm_num at *
      constructor <;> linarith
    have h2 := abs_add_le (w - (x + (T + 1 / (1204 * 1024)) * u)) ((T - X + 1 / (1204 * 1024)) * u)
    rw [show w - (x + (T + 1 / (1204 * 1024)) * u) + (T - X + 1 / (1204 * 1024)) * u = w - (x + X * u) by ring] at h2
    refine h2.trans ((add_le_add hw h1).trans ?_)
    norm_num
  exact ⟨key h.1 d1, key h.2.1 d2, key h.2.2 d3⟩

/-- Going on from a floor leaves it. -/
theorem floor_on (h : Glance r v d) (K : Sorter (Obj Flo (Mat Flo))) {w dp : Flo} {c : Vec Flo} {W D : ℝ} {C : Vec ℝ}
    (q : LevelRectangle w dp c W D C) (ho : rectangle K mt w dp c = .ok o) {X : ℝ} {N : Vec ℝ} (hm : (Obstacle.floor W D C).MetAt v d X N)
    (wQ : Within 63 (along v d X)) (hg : N.x * d.x + N.y * d.y + N.z * d.z ≤ -(1 / 16)) {hit : HitRecord Flo (Mat Flo)}
    (hi : o.intersect r = .ok (hit, r)) : ∃ v', (r.at (hit.t + tiny)).FIs v' ∧ GoesOn (.floor W D C) (along v d X) d v' := by
  obtain ⟨hit', T', hi', -, hT', T0', eT'⟩ := h.met (.floor q ho) hm wQ
  rw [hi] at hi'
  cases hi'
  obtain ⟨hoff, X0, hX, hin, hdiag, rfl⟩ := hm
  simp only [zero_mul, zero_add, add_zero] at hg
  have hX1 := h.reach wQ
  have hpos : (hit.t >. BR.GoFloat.lit 0) = true := by
    rw [lt_is Ball.flo_zero hT']
    exact decide_eq_true T0'
  have hnear : (hit.t <. BR.GoFloat.lit (9 * 10 ^ 99)) = true := by
    obtain ⟨x, hx, hx1, -⟩ := flo_far
    rw [lt_is hT' hx]
    refine decide_eq_true (lt_of_lt_of_le ?_ hx1)
    have h1 := (abs_le.1 eT').2
    have h2 : (8192 : ℝ) ≤ 2 ^ 200 := by norm_num
    norm_num at h1
    linarith
  obtain ⟨-, -, T, N, -, -, hT, T0, eT, -, -, hN, eN, -⟩ := C100_on K mt q ho (h.look_floor hoff) hi hpos hnear
  obtain rfl := Bounce.is_inj hT hT'
  obtain ⟨σ, hσ⟩ : ∃ σ, σ = sideOf C.y v.y := ⟨_, rfl⟩
  have hσ1 : σ = 1 ∨ σ = -1 := by
    rw [hσ]; unfold sideOf
    split
    · exact .inl rfl
    · exact .inr rfl
  have hss : σ * σ = 1 := by rcases hσ1 with e | e <;> rw [e] <;> norm_num
  rw [← hσ] at hg
  have d0 : d.y ≠ 0 := by
    rintro e
    rw [e] at hg
    norm_num at hg
  have hXd : X * d.y = C.y - v.y := by
    rw [← hX, along]
    ring
  have hXe : (C.y - v.y) / d.y = X := by rw [← hXd]; field_simp
  rw [hXe, abs_of_pos X0] at eT
  have eTX : |T - X| ≤ 1 / 2 ^ 32 := eT.trans (by norm_num; linarith)
  have hTb : |T| ≤ 8192 := by
    rw [abs_of_pos T0]
    have := (abs_le.1 eTX).2
    norm_num at this
    linarith
  obtain ⟨v', hv', ev⟩ := on_near h hT hTb
  refine ⟨v', hv', on_close h.short ev (eTX.trans (by norm_num)), ?_⟩
  have e1 := abs_le.1 ev.2.1
  simp only [Vec.sub, along] at e1
  have pv : 1 / 2 ^ 30 ≤ -(σ * (v'.y - C.y)) := by
    have t1 := abs_le.1 eTX
    obtain ⟨ε, hε⟩ : ∃ ε, ε = v'.y - (v.y + (T + 1 / (1204 * 1024)) * d.y) := ⟨_, rfl⟩
    rw [← hε] at e1
    have e : -(σ * (v'.y - C.y)) = -(σ * ε) + (1 / (1204 * 1024) + (T - X)) * -(σ * d.y) := by rw [hε]; linear_combination -σ * hXd
    have h2 : (1 / 2 ^ 21) * (1 / 16) ≤ (1 / (1204 * 1024) + (T - X)) * -(σ * d.y) :=
      mul_le_mul (by norm_num at *; linarith) (by linarith) (by norm_num) (by norm_num at *; linarith)
    have h3 : -(1 / 2 ^ 36) ≤ -(σ * ε) := by
      rcases hσ1 with e | e <;> rw [e] <;> norm_num at * <;> linarith
    rw [e]
    norm_num at *
    linarith
  have aσ : |σ| = 1 := by rcases hσ1 with e | e <;> rw [e] <;> norm_num
  constructor
  · have : |v'.y - C.y| = |-(σ * (v'.y - C.y))| := by rw [abs_neg, abs_mul, aσ, one_mul]
    rw [this]
    exact le_trans (le_trans (by norm_num) pv) (le_abs_self _)
  · have : (v'.y - C.y) * d.y = -(σ * (v'.y - C.y)) * -(σ * d.y) := by
      linear_combination -((v'.y - C.y) * d.y) * hss
    rw [this]
    exact mul_nonneg (le_trans (by norm_num) pv) (by linarith)

theorem side_dot (i : Fin 3) (up : Bool) (d : Vec ℝ) :
    (sideNormal i up).x * d.x + (sideNormal i up).y * d.y + (sideNormal i up).z * d.z = sgnOf up * d.get i := by
  fin_cases i <;> simp [sideNormal, sgnOf, Vec.get]

/-- Going on from the side of a box leads into the box. -/
theorem box_on (h : Glance r v d) {bb : BBox Flo} {lo hi : Vec ℝ} (hlk : LookingAtBox r bb v d lo hi)
    {X : ℝ} {N : Vec ℝ} (hm : (Obstacle.block lo hi).MetAt v d X N)
    (wQ : Within 63 (along v d X)) (hg : N.x * d.x + N.y * d.y + N.z * d.z ≤ -(1 / 16)) {hit : HitRecord Flo (Mat Flo)}
    (he : (Obj.box bb mt).intersect r = .ok (hit, r)) : ∃ v', (r.at (hit.t + tiny)).FIs v' ∧ GoesOn (.block lo hi) (along v d X) d v' := by
  obtain ⟨X0, i, up, hon, rfl, -⟩ := hm
  have hX1 := h.reach wQ
  rw [side_dot] at hg
  obtain ⟨T, hT, T0, eT⟩ := box_time mt hlk X0 hon (hg.trans (by norm_num)) he
  have hTb : |T| ≤ 8192 := by
    rw [abs_of_pos T0]
    have := (abs_le.1 eT).2
    norm_num at this
    linarith
  obtain ⟨v', hv', ev⟩ := on_near h hT hTb
  have hcl := on_close h.short ev (eT.trans (by norm_num))
  refine ⟨v', hv', hcl, ?_⟩
  show InBox lo hi (-(1 / 2 ^ 30)) v'
  rw [inBox_get]
  intro j
  have c1 := abs_le.1 (within_get.1 hcl j)
  have e1 : (v'.sub (along v d X)).get j = v'.get j - (along v d X).get j := by fin_cases j <;> rfl
  rw [e1] at c1
  by_cases hj : j = i
  · subst hj
    have h6 := abs_le.1 (within_get.1 ev j)
    have e6 : (v'.sub (along v d (T + 1 / (1204 * 1024)))).get j = v'.get j - (along v d X).get j - (T - X + 1 / (1204 * 1024)) * d.get j := by
      rw [along_get]
      fin_cases j <;> simp [Vec.sub, Vec.get, along] <;> ring
    rw [e6] at h6
    have t1 := abs_le.1 eT
    have h2 : (1 / 2 ^ 21) * (1 / 16) ≤ (T - X + 1 / (1204 * 1024)) * -(sgnOf up * d.get j) :=
      mul_le_mul (by norm_num at *; linarith) (by linarith) (by norm_num) (by norm_num at *; linarith)
    have h7 := hon.flush
    have h8 := hon.thick
    unfold outside at h7
    unfold sgnOf at h2
    generalize T - X + 1 / (1204 * 1024) = τ at *
    cases up <;> simp only [if_true, Bool.false_eq_true, if_false] at h2 h7 <;> norm_num at * <;> constructor <;> linarith
  · obtain ⟨a1, a2⟩ := hon.amid j hj
    norm_num at *
    constructor <;> linarith

/-- Going on from a ball leads into the ball. -/
theorem ball_on (hd : 1 / 2 ≤ d.x ^ 2 + d.y ^ 2 + d.z ^ 2 ∧ d.x ^ 2 + d.y ^ 2 + d.z ^ 2 ≤ 2) {c N v' : Vec ℝ} {R X T : ℝ} (R0 : 0 ≤ R) (R1 : R ≤ 64)
    (hm : (Obstacle.ball c R).MetAt v d X N) (eT : |T - X| ≤ 1 / 2 ^ 23) (ev : Within (1 / 2 ^ 36) (v'.sub (along v d (T + 1 / (1204 * 1024))))) :
    apart v' c ^ 2 ≤ R ^ 2 - 1 / 2 ^ 25 := by
  have hg := ball_entered hd.1 R0 hm
  obtain ⟨-, -, -, -, hX, -, -⟩ := hm
  have eT' := abs_le.1 eT
  have ea : along v d (T + 1 / (1204 * 1024)) = along (along v d X) d (T - X + 1 / (1204 * 1024)) := by
    simp only [along, Vec.mk.injEq]
    refine ⟨?_, ?_, ?_⟩ <;> ring
  rw [ea] at ev
  have τ0 : 6.9 / 10 ^ 7 ≤ T - X + 1 / (1204 * 1024) := by norm_num at *; linarith
  have τ1 : T - X + 1 / (1204 * 1024) ≤ 9.4 / 10 ^ 7 := by norm_num at *; linarith
  generalize T - X + 1 / (1204 * 1024) = τ at *
  have τp : 0 ≤ τ := by norm_num at τ0; linarith
  have hs := ball_step hX R1 τp (τ1.trans (by norm_num)) hd.2 ev
  generalize ((along v d X).x - c.x) * d.x + ((along v d X).y - c.y) * d.y + ((along v d X).z - c.z) * d.z = g at *
  have h1 : 6.9 / 10 ^ 7 * 0.044 ≤ τ * -g := mul_le_mul τ0 (by linarith) (by norm_num) τp
  have h2 : τ ^ 2 * (d.x ^ 2 + d.y ^ 2 + d.z ^ 2) ≤ (9.4 / 10 ^ 7) ^ 2 * 2 :=
    mul_le_mul (pow_le_pow_left₀ τp τ1 2) hd.2 (by linarith [hd.1]) (by norm_num)
  rw [abs_le] at hs
  norm_num at h1 h2 hs ⊢
  linarith

/-- What goes on from a transparent thing. -/
theorem Glance.goes_on (h : Glance r v d) (hb : b.Built mt o) {X : ℝ} {N : Vec ℝ} (hm : b.MetAt v d X N)
    (wQ : Within 63 (along v d X)) (hg : N.x * d.x + N.y * d.y + N.z * d.z ≤ -(1 / 16)) {hit : HitRecord Flo (Mat Flo)}
    (he : o.intersect r = .ok (hit, r)) : ∃ v', (r.at (hit.t + tiny)).FIs v' ∧ GoesOn b (along v d X) d v' := by
  have hb' := hb
  cases hb with
  | ball hcen hd wc R0 R1 =>
    obtain ⟨hit', T, he', -, hT, T0, eT⟩ := h.met hb' hm wQ
    rw [he] at he'
    cases he'
    have hX1 := h.reach wQ
    obtain ⟨v', hv', ev⟩ := on_near h hT (by
      rw [abs_of_pos T0]
      have := (abs_le.1 eT).2
      norm_num at this
      linarith)
    exact ⟨v', hv', on_close h.short ev eT, ball_on ⟨h.long, h.short⟩ R0 R1 hm eT ev⟩
  | block h1 h2 w1 w2 ho => exact box_on h (h.look_box h1 h2 w1 w2 ho) hm wQ hg he
  | floor q ho => exact floor_on h _ q ho hm wQ hg he
  | sky => exact hm.elim

/-- A box is left where it should be. -/
theorem box_out (h : Glance r v d) {bb : BBox Flo} {lo hi : Vec ℝ} (hlk : LookingAtBox r bb v d lo hi) {X : ℝ} (hl : LeavesAt (.block lo hi) v d X)
    (wQ : Within 63 (along v d X)) : ∃ hit T v', (Obj.box bb mt).intersect r = .ok (hit, r) ∧ hit.mat = mt ∧ hit.t.Is T ∧ 0 < T ∧ |T - X| ≤ 1 / 2 ^ 33 ∧
      (r.at (hit.t + tiny)).FIs v' ∧ GoesOut (.block lo hi) (along v d X) d v' := by
  obtain ⟨hin, X0, i, up, hon, hg⟩ := hl
  have hX1 := h.reach wQ
  have hdb : ∀ j, |d.get j| ≤ 2 := fun j => (hlk.axis j).2.2.2.2.2.2.2.2
  have hg' := hg
  rw [side_dot] at hg
  have hin' := inBox_get.1 hin
  obtain ⟨hit, he, hmat, T, hT, T0, ⟨hbox, hface⟩, -, -⟩ := C91_seen mt bb r v d lo hi hlk (.inr (by
      rw [inBox_get]
      intro j
      have := hin' j
      norm_num at *
      constructor <;> linarith)) ⟨1 / 2 ^ 32, by norm_num, by
      rw [inBox_get]
      intro j
      have := hin' j
      have := abs_le.1 (hdb j)
      rw [along_get]
      norm_num at *
      constructor <;> linarith⟩
  have off : ∀ j u T, outside lo hi j u (along v d T) = outside lo hi j u v + T * (sgnOf u * d.get j) := by
    intro j u T
    rw [outside_off j u (along v d T) v, along_get]
    ring
  have oX := off i up X
  rw [hon.flush] at oX
  have oT := off i up T
  have oTX : outside lo hi i up (along v d T) = (T - X) * (sgnOf up * d.get i) := by rw [oT]; linear_combination -oX
  have up1 : T - X ≤ 1 / 2 ^ 34 := by
    by_contra hn
    have h1 : outside lo hi i up (along v d T) ≤ 1 / 2 ^ 38 := by
      have := inBox_get.1 hbox i
      unfold outside
      cases up <;> simp only [if_true, Bool.false_eq_true, if_false] <;> linarith
    rw [oTX] at h1
    have : (1 / 2 ^ 34) * (1 / 16) < (T - X) * (sgnOf up * d.get i) := mul_lt_mul (not_le.1 hn) hg (by norm_num) (by norm_num at *; linarith)
    norm_num at *
    linarith
  have hf : ∃ j u, |outside lo hi j u (along v d T)| ≤ 1 / 2 ^ 38 := by
    rcases hface with h | h | h | h | h | h
    · exact ⟨0, false, by rw [abs_sub_comm] at h; simpa [outside, Vec.get] using h⟩
    · exact ⟨0, true, by simpa [outside, Vec.get] using h⟩
    · exact ⟨1, false, by rw [abs_sub_comm] at h; simpa [outside, Vec.get] using h⟩
    · exact ⟨1, true, by simpa [outside, Vec.get] using h⟩
    · exact ⟨2, false, by rw [abs_sub_comm] at h; simpa [outside, Vec.get] using h⟩
    · exact ⟨2, true, by simpa [outside, Vec.get] using h⟩
  have lo1 : X - T ≤ 1 / 2 ^ 34 := by
    by_contra hn
    have hTX : T < X := by
      norm_num at hn
      linarith
    obtain ⟨j, u, hju⟩ := hf
    rw [abs_le] at hju
    by_cases e : j = i ∧ u = up
    · obtain ⟨rfl, rfl⟩ := e
      rw [oTX] at hju
      have : (1 / 2 ^ 34) * (1 / 16) < (X - T) * (sgnOf u * d.get j) := mul_lt_mul (not_le.1 hn) hg (by norm_num) (by linarith)
      have e' : (T - X) * (sgnOf u * d.get j) = -((X - T) * (sgnOf u * d.get j)) := by ring
      rw [e'] at hju
      norm_num at *
      linarith
    · have hv : outside lo hi j u v ≤ -(1 / 2 ^ 30) := by
        have := hin' j
        unfold outside
        cases u <;> simp only [if_true, Bool.false_eq_true, if_false] <;> linarith
      have hQ : outside lo hi j u (along v d X) ≤ -(1 / 2 ^ 18) := by
        by_cases hj : j = i
        · subst hj
          have h7 := hon.flush
          have h8 := hon.thick
          unfold outside at h7 ⊢
          cases u <;> cases up <;> simp only [if_true, Bool.false_eq_true, if_false, true_and, not_true_eq_false, reduceCtorEq, not_false_eq_true] at * <;> linarith
        · obtain ⟨a1, a2⟩ := hon.amid j hj
          unfold outside
          cases u <;> simp only [if_true, Bool.false_eq_true, if_false] <;> linarith
      have e1 := off j u X
      have e2 := off j u T
      have e3 : X * outside lo hi j u (along v d T) = (X - T) * outside lo hi j u v + T * outside lo hi j u (along v d X) := by
        rw [e1, e2]; ring
      have h1 := mul_le_mul_of_nonneg_left hv (by linarith : 0 ≤ X - T)
      have h2 := mul_le_mul_of_nonneg_left hQ T0.le
      have h3 := mul_le_mul_of_nonneg_left hju.1 X0.le
      norm_num at *
      nlinarith
  have eT : |T - X| ≤ 1 / 2 ^ 33 := by
    rw [abs_le]
    norm_num at *
    constructor <;> linarith
  have hTb : |T| ≤ 8192 := by
    rw [abs_of_pos T0]
    norm_num at *
    linarith
  obtain ⟨v', hv', ev⟩ := on_near h hT hTb
  have hcl := on_close h.short ev (eT.trans (by norm_num))
  refine ⟨hit, T, v', he, hmat, hT, T0, eT, hv', hcl, i, up, ?_, by linarith⟩
  have h6 := abs_le.1 (within_get.1 ev i)
  have e6 : (v'.sub (along v d (T + 1 / (1204 * 1024)))).get i = v'.get i - (along v d X).get i - (T - X + 1 / (1204 * 1024)) * d.get i := by
    rw [along_get]
    fin_cases i <;> simp [Vec.sub, Vec.get, along] <;> ring
  rw [e6] at h6
  have h2 : (1 / 2 ^ 21) * (1 / 16) ≤ (T - X + 1 / (1204 * 1024)) * (sgnOf up * d.get i) :=
    mul_le_mul (by norm_num at *; linarith) hg (by norm_num) (by norm_num at *; linarith)
  have h7 := outside_off (lo := lo) (hi := hi) i up v' (along v d X)
  rw [hon.flush, zero_add] at h7
  rw [h7]
  unfold sgnOf at h2 ⊢
  generalize T - X + 1 / (1204 * 1024) = τ at *
  cases up <;> simp only [if_true, Bool.false_eq_true, if_false] at h2 ⊢ <;> norm_num at * <;> linarith

/-- A ball is left where it should be. -/
theorem ball_out (h : Glance r v d) {diam : Flo} {center : Vec Flo} {c : Vec ℝ} {R : ℝ} (hlk : Looking r diam center v d c R) {X : ℝ}
    (hl : LeavesAt (.ball c R) v d X) (wQ : Within 63 (along v d X)) :
    ∃ hit T v', (Obj.sphere mt diam center).intersect r = .ok (hit, r) ∧ hit.mat = mt ∧ hit.t.Is T ∧ 0 < T ∧ |T - X| ≤ 1 / 2 ^ 23 ∧
      (r.at (hit.t + tiny)).FIs v' ∧ GoesOut (.ball c R) (along v d X) d v' := by
  obtain ⟨hin, X0, hX, hlen, hg⟩ := hl
  have hX1 := h.reach wQ
  obtain ⟨hit, T, he, hmat, hT, T0, eT⟩ := ball_far (mt := mt) hlk hin hX hg
  have eT' := abs_le.1 eT
  obtain ⟨v', hv', ev⟩ := on_near h hT (by
    rw [abs_of_pos T0]
    norm_num at eT'
    linarith)
  refine ⟨hit, T, v', he, hmat, hT, T0, eT, hv', on_close h.short ev eT, ?_⟩
  have ea : along v d (T + 1 / (1204 * 1024)) = along (along v d X) d (T - X + 1 / (1204 * 1024)) := by
    simp only [along, Vec.mk.injEq]
    refine ⟨?_, ?_, ?_⟩ <;> ring
  rw [ea] at ev
  have τ0 : 6.9 / 10 ^ 7 ≤ T - X + 1 / (1204 * 1024) := by norm_num at *; linarith
  have τ1 : T - X + 1 / (1204 * 1024) ≤ 9.4 / 10 ^ 7 := by norm_num at *; linarith
  generalize T - X + 1 / (1204 * 1024) = τ at *
  have τp : 0 ≤ τ := by norm_num at τ0; linarith
  have hs := ball_step hX hlk.radius_le τp (τ1.trans (by norm_num)) h.short ev
  obtain ⟨d1, d2, d3⟩ := comp_le h.short
  obtain ⟨e1, e2, e3⟩ := ev
  generalize along v d X = Q at *
  simp only [Vec.sub, along] at e1 e2 e3
  have hτA : 0 ≤ τ * (d.x ^ 2 + d.y ^ 2 + d.z ^ 2) := mul_nonneg τp (by linarith)
  have hτA2 : 0 ≤ τ ^ 2 * (d.x ^ 2 + d.y ^ 2 + d.z ^ 2) := mul_nonneg (sq_nonneg _) (by linarith)
  refine ⟨?_, ?_, hlen⟩
  · have h1 : 6.9 / 10 ^ 7 * (1 / 32) ≤ τ * ((Q.x - c.x) * d.x + (Q.y - c.y) * d.y + (Q.z - c.z) * d.z) := mul_le_mul τ0 hg (by norm_num) τp
    rw [abs_le] at hs
    norm_num at h1 hs ⊢
    linarith
  · have key : ∀ {e u : ℝ}, |e| ≤ 1 / 2 ^ 36 → |u| ≤ 3 / 2 → -(1 / 2 ^ 35) ≤ e * u := by
      intro e u he hu
      have : |e * u| ≤ 1 / 2 ^ 36 * (3 / 2) := by
        rw [abs_mul]
        exact mul_le_mul he hu (abs_nonneg _) (by norm_num)
      have := (abs_le.1 this).1
      norm_num at this ⊢
      linarith
    have k1 := key e1 d1
    have k2 := key e2 d2
    have k3 := key e3 d3
    norm_num at k1 k2 k3
    linarith

/-- A ball or box is left where it should be. -/
theorem Glance.goes_out (h : Glance r v d) (hb : b.Built mt o) {X : ℝ} (hl : LeavesAt b v d X) (wQ : Within 63 (along v d X)) :
    ∃ hit T v', o.intersect r = .ok (hit, r) ∧ hit.mat = mt ∧ hit.t.Is T ∧ 0 < T ∧ |T - X| ≤ 1 / 2 ^ 23 ∧
      (r.at (hit.t + tiny)).FIs v' ∧ GoesOut b (along v d X) d v' := by
  cases hb with
  | ball hcen hd wc R0 R1 => exact ball_out h (h.look hcen hd wc R0 R1) hl wQ
  | block h1 h2 w1 w2 ho =>
    obtain ⟨hit, T, v', hi, hmat, hT, T0, eT, hv', hout⟩ := box_out (mt := mt) h (h.look_box h1 h2 w1 w2 ho) hl wQ
    exact ⟨hit, T, v', hi, hmat, hT, T0, eT.trans (by norm_num), hv', hout⟩
  | floor q ho => exact hl.2.2.elim
  | sky => exact hl.2.2.elim

/-- What is clearly met first, or left first, is what is seen. -/
theorem front_of (s : Scene Flo) (fld : Field) (h : Glance r v d) {before after : List (Obj Flo (Mat Flo))} (hobj : s.objects = before ++ o :: after)
    {X T : ℝ} (wQ : Within 63 (along v d X)) (X0 : 0 < X) {hit : HitRecord Flo (Mat Flo)} (hi : o.intersect r = .ok (hit, r)) (hT : hit.t.Is T) (T0 : 0 < T)
    (eT : |T - X| ≤ 1 / 2 ^ 23) (lamps : List Fitting) (hlights : s.lights = lamps.map Fitting.light)
    {things : List (Option (Mat Flo) × Obstacle)} (hF : List.Forall₂ (fun o t => t.2.Built t.1 o) (before ++ after) things)
    (hc : ∀ t ∈ things, t.2.Passed v d (X + 1 / 1024)) : intersectFrontmost (s.seen fld) r = .ok (hit, r) := by
  have hX1 := h.reach wQ
  have hTX : T ≤ X + 1 / 1024 := by
    have := (abs_le.1 eT).2
    norm_num at *
    linarith
  have pass : ∀ o ∈ before ++ after, GoesBy o r T := by
    intro o ho
    obtain ⟨t, ht, hbt⟩ := forall₂_left hF _ ho
    refine GoesBy.mono (h.passes hbt (by linarith) ?_ (hc t ht)) hTX
    have : (8192 : ℝ) ≤ 2 ^ 100 := by norm_num
    linarith
  obtain ⟨rest, e, hrest⟩ := seen_split s lamps hlights fld
  rw [e, hobj, List.append_assoc, List.cons_append]
  refine frontmost_is hi hT T0 (fun o ho => pass o (by simp [ho])) ?_
  intro o ho
  rcases List.mem_append.1 ho with ho | ho
  · exact pass o (by simp [ho])
  · exact hrest o ho r T

end BR
