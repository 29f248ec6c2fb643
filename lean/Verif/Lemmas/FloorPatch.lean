import Verif.Lemmas.LampShade
import Verif.Props.C100_FloorLit

/-! The point of a floor that is seen, and its normal, in double precision. -/

namespace BR
set_option linter.unusedSectionVars false

open Flo

theorem sideOf_abs (h y : ℝ) : |sideOf h y| = 1 := by
  unfold sideOf
  split <;> norm_num

/-- The sign of the product of a vector that points up and another. -/
theorem up_dot {n δ : Vec Flo} {y : ℝ} {d : Vec ℝ} (hn : n.FIs ⟨0, y, 0⟩) (hδ : δ.FIs d) (y1 : 1 / 2 ≤ y) (y2 : y ≤ 2)
    (hd : |d.x| ≤ 2 ∧ |d.y| ≤ 2 ∧ |d.z| ≤ 2) (hdy : 1 / 2 ^ 100 ≤ |d.y|) : (n.dot δ >. lit 0) = decide (0 < d.y) := by
  obtain ⟨nx, ny, nz⟩ := hn
  obtain ⟨hx, hy, hz⟩ := hδ
  have y0 : 0 < y := by linarith
  have hyd : |y * d.y| ≤ 4 := by
    rw [abs_mul, abs_of_pos y0]
    have := mul_le_mul y2 hd.2.1 (abs_nonneg _) (by norm_num : (0 : ℝ) ≤ 2)
    linarith
  have m1 := mul_is nx hx (by simp)
  have m2 := mul_is ny hy (hyd.trans (by norm_num))
  have m3 := mul_is nz hz (by simp)
  dsimp only at m1 m2 m3
  rw [zero_mul, roundBits_zero] at m1 m3
  have r1 := roundBits_err 53 (by norm_num) (y * d.y)
  have b1 : |roundBits 53 (y * d.y)| ≤ 5 := by
    have r2 := r1.trans (add_le_add (div_le_div_of_nonneg_right hyd (by norm_num)) le_rfl)
    generalize y * d.y = w at hyd r2 ⊢
    rw [abs_le] at hyd r2 ⊢
    norm_num at hyd r2 ⊢
    constructor <;> linarith
  have a1 := add_is m1 m2 (by rw [zero_add]; exact b1.trans (by norm_num))
  rw [zero_add, roundBits_again 53 (by norm_num)] at a1
  have a2 := add_is a1 m3 (by rw [add_zero]; exact b1.trans (by norm_num))
  rw [add_zero, roundBits_again 53 (by norm_num)] at a2
  change (lit 0 <. n.x * δ.x + n.y * δ.y + n.z * δ.z) = _
  rw [lt_is Ball.flo_zero a2]
  congr 1
  refine propext ⟨fun h => ?_, fun h => ?_⟩
  · by_contra hc
    rw [not_lt] at hc
    have := roundBits_mono 53 (by norm_num) (mul_nonpos_of_nonneg_of_nonpos y0.le hc)
    rw [roundBits_zero] at this
    linarith
  · rw [abs_of_pos h] at hdy
    have h1 : 1 / 2 ^ 101 ≤ y * d.y := by
      have := mul_le_mul y1 hdy (by positivity) y0.le
      norm_num at *
      linarith
    have hpos : 0 < y * d.y := mul_pos y0 h
    rw [abs_of_pos hpos] at r1
    generalize y * d.y = w at *
    rw [abs_le] at r1
    norm_num at *
    linarith

/-- The normal that a matte surface uses, which faces the viewer. -/
theorem flipped_side {n : Vec Flo} {N : ℝ} (hn : n.FIs ⟨0, N, 0⟩) (hN : |N - 1| ≤ 1 / 2 ^ 25) {δ : Vec Flo} {d : Vec ℝ} (hδ : δ.FIs d)
    (hd : |d.x| ≤ 2 ∧ |d.y| ≤ 2 ∧ |d.z| ≤ 2) (hdy : 1 / 2 ^ 100 ≤ |d.y|) :
    ∃ y, (flipTowards n.normalized δ).FIs ⟨0, y, 0⟩ ∧ |y - if 0 < d.y then -1 else 1| ≤ 1 / 2 ^ 47 := by
  rw [abs_le] at hN
  obtain ⟨ux, ⟨v, uy, ev⟩, uz⟩ := up_normalized hn.1 hn.2.1 hn.2.2 (by norm_num at *; linarith) (by norm_num at *; linarith)
  have vb : |v - 1| ≤ 1 / 4 := ev.trans (by norm_num)
  rw [abs_le] at vb
  have hs := up_dot (n := n.normalized) ⟨ux, uy, uz⟩ hδ (by linarith) (by linarith) hd hdy
  unfold flipTowards
  rw [hs]
  by_cases hp : 0 < d.y
  · rw [if_pos hp, if_pos (decide_eq_true hp)]
    have m1 : (lit (-1) : Flo).Is (-1) := by simpa using flo_int_is (-1) (by norm_num)
    have mr := m1.rel (b := 1) (Q := 1) (by norm_num)
    have vb : |v| ≤ 2 := by rw [abs_le] at *; constructor <;> linarith
    obtain ⟨⟨y, hy, ey⟩, -⟩ := (m1.near (b := 1) (by norm_num)).mul (1 / 2 ^ 51) 2 (uy.near vb)
    refine ⟨y, ⟨Is.mul_zero mr ux, hy, Is.mul_zero mr uz⟩, ?_⟩
    rw [abs_le] at *
    norm_num at *
    constructor <;> linarith
  · rw [if_neg hp, if_neg (by simp [hp])]
    exact ⟨v, ⟨ux, uy, uz⟩, ev.trans (by norm_num)⟩

/-- **The patch of a floor that is seen.** -/
theorem floor_patch (K : Sorter (Obj Flo (Mat Flo))) (m : Option (Mat Flo)) {w dp : Flo} {c : Vec Flo} {W D : ℝ} {C : Vec ℝ}
    (q : LevelRectangle w dp c W D C) {o : Obj Flo (Mat Flo)} (ho : rectangle K m w dp c = .ok o) {r r' : Ray Flo} {v d : Vec ℝ}
    (hl : LookingFrom r v d C.y) {X : ℝ} (X0 : 0 < X) (hX : (along v d X).y = C.y) (wQ : Within 63 (along v d X))
    {hit : HitRecord Flo (Mat Flo)} (hi : o.intersect r = .ok (hit, r')) (hpos : (hit.t >. lit 0) = true)
    (hnear : (hit.t <. lit (9 * 10 ^ 99)) = true) :
    ∃ P n, Patch ((r.at hit.t).madd tiny (flipTowards hit.normal.normalized r.dir)) (flipTowards hit.normal.normalized r.dir) P n
      (along v d X) ⟨0, sideOf C.y v.y, 0⟩ ∧ Within 64 P := by
  obtain ⟨-, -, T, N, -, -, hT, T0, eT, -, -, hN, eN, -⟩ := C100_on K m q ho hl hi hpos hnear
  have hdb := small_comp hl.short
  obtain ⟨n1, n2, n3⟩ := hl.near
  have hoff := hl.off
  have hXd : X * d.y = C.y - v.y := by
    rw [← hX, along]
    ring
  have X1 : X ≤ 4096 := by
    have far : ∀ {p x : ℝ}, |x + p| ≤ 63 → |x| ≤ 1024 → p ^ 2 ≤ 1087 ^ 2 := by
      intro p x h1 h2
      rw [← sq_abs]
      refine pow_le_pow_left₀ (abs_nonneg _) ?_ 2
      rw [abs_le] at *
      constructor <;> linarith
    have h1 := far (p := X * d.x) wQ.1 n1
    have h2 := far (p := X * d.y) wQ.2.1 n2
    have h3 := far (p := X * d.z) wQ.2.2 n3
    have h4 := mul_le_mul_of_nonneg_left hl.long (sq_nonneg X)
    have h5 : X ^ 2 ≤ 4096 ^ 2 := by nlinarith
    exact abs_le_of_sq_le_sq' h5 (by norm_num) |>.2
  have hdy : 1 / 2 ^ 52 ≤ |d.y| := by
    rw [abs_sub_comm, ← hXd, abs_mul, abs_of_pos X0] at hoff
    have := mul_le_mul_of_nonneg_right X1 (abs_nonneg d.y)
    generalize |d.y| = u at *
    norm_num at *
    linarith
  have d0 : d.y ≠ 0 := by rw [← abs_pos]; exact lt_of_lt_of_le (by norm_num) hdy
  have hXe : (C.y - v.y) / d.y = X := by rw [← hXd]; field_simp
  rw [hXe, abs_of_pos X0] at eT
  have eTX : |T - X| ≤ 1 / 2 ^ 32 := eT.trans (by norm_num; linarith)
  obtain ⟨y, hn, hy⟩ := flipped_side hN eN hl.dir hdb (le_trans (by norm_num) hdy)
  have hside : (if 0 < d.y then (-1 : ℝ) else 1) = sideOf C.y v.y := by
    unfold sideOf
    by_cases hp : 0 < d.y
    · have := mul_pos X0 hp
      rw [if_pos hp, if_neg (by linarith)]
    · have hp' : d.y < 0 := lt_of_le_of_ne (not_lt.1 hp) d0
      have := mul_neg_of_pos_of_neg X0 hp'
      rw [if_neg hp, if_pos (by linarith)]
  rw [hside] at hy
  have hσ := sideOf_abs C.y v.y
  generalize sideOf C.y v.y = σ at *
  obtain ⟨P, hP, ex, ey, ez⟩ := step_off hl.start hl.dir hl.near hdb hT (by rw [abs_le] at *; norm_num at *; constructor <;> linarith) hn hy hσ
  have co : ∀ {u : ℝ}, |u| ≤ 2 → |(T - X) * u| ≤ 1 / 2 ^ 31 := by
    intro u hu
    rw [abs_mul]
    exact (mul_le_mul eTX hu (abs_nonneg _) (by norm_num)).trans (by norm_num)
  have hs : |σ / (1204 * 1024)| ≤ 1 / (1204 * 1024) := by rw [abs_div, hσ]; norm_num
  have fx : |P.x - (along v d X).x| ≤ 1 / 2 ^ 30 := by
    have h1 := co hdb.1
    rw [show P.x - (along v d X).x = (P.x - (along v d T).x) + (T - X) * d.x by simp only [along]; ring]
    refine (abs_add_le _ _).trans ?_
    norm_num at *
    linarith
  have fz : |P.z - (along v d X).z| ≤ 1 / 2 ^ 30 := by
    have h1 := co hdb.2.2
    rw [show P.z - (along v d X).z = (P.z - (along v d T).z) + (T - X) * d.z by simp only [along]; ring]
    refine (abs_add_le _ _).trans ?_
    norm_num at *
    linarith
  have fy : |P.y - (along v d X).y| ≤ 1 / 2 ^ 20 := by
    have h1 := co hdb.2.1
    rw [show P.y - (along v d X).y = (P.y - ((along v d T).y + σ / (1204 * 1024))) + ((T - X) * d.y + σ / (1204 * 1024)) by simp only [along]; ring]
    refine (abs_add_le _ _).trans ((add_le_add ey ((abs_add_le _ _).trans (add_le_add h1 hs))).trans (by norm_num))
  have hclose : apart P (along v d X) ≤ 1 / 2 ^ 19 := by
    have sq : ∀ {u b : ℝ}, |u| ≤ b → u ^ 2 ≤ b ^ 2 := by
      intro u b h
      rw [← sq_abs]
      exact pow_le_pow_left₀ (abs_nonneg _) h 2
    have := add_le_add (add_le_add (sq fx) (sq fy)) (sq fz)
    unfold apart
    refine Real.sqrt_le_iff.2 ⟨by positivity, this.trans (by norm_num)⟩
  have wP : Within 64 P := by
    obtain ⟨w1, w2, w3⟩ := wQ
    clear hX
    refine ⟨?_, ?_, ?_⟩
    · generalize (along v d X).x = u at *
      rw [abs_le] at *
      norm_num at *
      constructor <;> linarith
    · generalize (along v d X).y = u at *
      rw [abs_le] at *
      norm_num at *
      constructor <;> linarith
    · generalize (along v d X).z = u at *
      rw [abs_le] at *
      norm_num at *
      constructor <;> linarith
  refine ⟨P, _, ⟨hP, hn, ⟨wP.1.trans (by norm_num), wP.2.1.trans (by norm_num), wP.2.2.trans (by norm_num)⟩, hclose, ?_, ?_, ?_, ?_⟩, wP⟩
  · have : σ ^ 2 = 1 := by rw [← sq_abs, hσ]; norm_num
    dsimp only
    linarith
  · norm_num
  · exact hy.trans (by norm_num)
  · norm_num

end BR
