import Verif.Lemmas.ViewLit

/-! Rays that lead away from a thing do not meet it, in double precision. -/

namespace BR
set_option linter.unusedSectionVars false

open Flo

variable {r : Ray Flo} {v d : Vec ℝ} {mt : Option (Mat Flo)} {o : Obj Flo (Mat Flo)} {b : Obstacle}

/-- Things that the line leaves are not reported. -/
theorem Glance.leaves (h : Glance r v d) (hb : b.Built mt o) (hl : b.LeftBy v d) {Y : ℝ} (Y1 : ∀ x, (BR.GoFloat.lit (9 * 10 ^ 99) : Flo).Is x → Y < x) : GoesBy o r Y := by
  cases hb with
  | @ball diam center c R hcen hd wc R0 R1 =>
    obtain ⟨h1, h2, h3⟩ := hl
    have hlk := h.look hcen hd wc R0 R1
    have e := Ball.miss_of (m := mt) hlk.sized (by unfold Ball.quadA; norm_num at *; linarith) (by unfold Ball.quadB; norm_num at *; linarith)
      (by unfold Ball.quadC; rw [apart_sq] at h1; norm_num at *; linarith)
    refine ⟨_, rfl, fun hpos => ?_⟩
    exfalso
    rw [e] at hpos
    have : ((BR.GoFloat.lit 0 : Flo) <. BR.GoFloat.lit 0) = true := hpos
    rw [lt_is Ball.flo_zero Ball.flo_zero] at this
    simp at this
  | @block bb lo hi h1 h2 w1 w2 ho =>
    obtain ⟨i, up, hout, haway⟩ := hl
    have hlk := h.look_box h1 h2 w1 w2 ho
    obtain ⟨hit, e⟩ := C91_answers mt bb _ v d lo hi hlk
    refine ⟨hit, e, fun hpos => ?_⟩
    exfalso
    obtain ⟨T, hT, T0, ⟨hin, -⟩, -⟩ := C91_on mt bb _ v d lo hi hlk _ _ e hpos
    have g1 := inBox_get.1 hin i
    have g2 := outside_off (lo := lo) (hi := hi) i up (along v d T) v
    rw [along_get, show v.get i + T * d.get i - v.get i = T * d.get i by ring] at g2
    have g3 : 0 ≤ sgnOf up * d.get i := by
      refine haway.trans_eq ?_
      fin_cases i <;> simp [sideNormal, sgnOf, Vec.get]
    have g4 : outside lo hi i up (along v d T) ≤ 1 / 2 ^ 38 := by
      unfold outside
      rw [along_get]
      cases up <;> simp only [if_true, Bool.false_eq_true, if_false] <;> rw [along_get] at g1 <;> linarith
    have g5 := mul_nonneg T0.le g3
    have g6 : sgnOf up * (T * d.get i) = T * (sgnOf up * d.get i) := by ring
    rw [g6] at g2
    norm_num at *
    linarith
  | @floor K w dp c W D C o q ho =>
    obtain ⟨h1, h2⟩ := hl
    have hlk : LookingFrom r v d C.y :=
      ⟨h.start, h.dir, ⟨h.near.1.trans (by norm_num), h.near.2.1.trans (by norm_num), h.near.2.2.trans (by norm_num)⟩, h1, h.long, h.short⟩
    obtain ⟨hit, e, hn⟩ := C100_away K mt q ho hlk h2
    refine ⟨hit, e, fun hpos => ?_⟩
    obtain ⟨a, k, ha, hk, hak⟩ := (CmpModel.lt_iff _ _).1 hpos
    refine ⟨k, hk, ?_⟩
    by_contra hle
    obtain ⟨x, hx, -⟩ := flo_far
    have : (hit.t <. BR.GoFloat.lit (9 * 10 ^ 99)) = true :=
      (CmpModel.lt_iff _ _).2 ⟨k, _, hk, hx.key, lt_of_le_of_lt (not_lt.1 hle) (by exact_mod_cast Y1 x hx)⟩
    rw [this, Bool.and_true] at hn
    rw [hn] at hpos
    cases hpos
  | sky => exact hl.elim

/-- A ray that passes a thing goes by. -/
theorem Glance.passes (h : Glance r v d) (hb : b.Built mt o) {Y : ℝ} (Y0 : 0 < Y) (Y1 : Y ≤ 2 ^ 100) (hc : b.Passed v d Y) : GoesBy o r Y := by
  rcases hc with hc | hc
  · exact h.goes_by hb Y0 Y1 hc
  · refine h.leaves hb hc fun x hx => ?_
    obtain ⟨x', hx', hx1, -⟩ := flo_far
    rw [Bounce.is_inj hx hx']
    have far : (2 : ℝ) ^ 100 < 2 ^ 200 := by norm_num
    linarith

end BR
