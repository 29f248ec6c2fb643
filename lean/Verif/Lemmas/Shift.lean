import Verif.Spec.Moved
import Mathlib.Tactic.Ring
import Mathlib.Tactic.Linarith
import Mathlib.Tactic.SplitIfs

/-! Sums of extended numbers: associative and commutative, and differences do not change when both numbers are moved. -/

namespace BR.Ext

theorem sgn_zero (s : Bool) : sgn (num 0 s) = s := by simp [sgn]
theorem sgn_ne {x : ℝ} (h : x ≠ 0) (s : Bool) : sgn (num x s) = decide (x < 0) := by simp [sgn, h]
theorem sgn_sgn (x : ℝ) (s : Bool) : sgn (num x (sgn (num x s))) = sgn (num x s) := by
  by_cases h : x = 0
  · simp [sgn, h]
  · rw [sgn_ne h, sgn_ne h]

protected theorem add_comm (a b : Ext) : a + b = b + a := by
  cases a with
  | nan => simp
  | inf s =>
    cases b with
    | nan => simp
    | inf t => cases s <;> cases t <;> simp
    | num y t => simp
  | num x s =>
    cases b with
    | nan => simp
    | inf t => simp
    | num y t => rw [num_add_num, num_add_num, _root_.add_comm x y, Bool.and_comm]

/-- The sign of a sum of two numbers that is zero. -/
theorem sgn_add_zero {x y : ℝ} (h : x + y = 0) (s t : Bool) :
    (sgn (num x s) && sgn (num y t)) = (decide (x = 0) && s && t) := by
  by_cases hx : x = 0
  · have hy : y = 0 := by linarith
    simp [hx, hy, sgn]
  · have hy : y ≠ 0 := fun e => hx (by linarith)
    rw [sgn_ne hx, sgn_ne hy]
    rcases lt_or_gt_of_ne hx with h1 | h1
    · simp [hx, not_lt.2 (show 0 ≤ y by linarith)]
    · simp [hx, not_lt.2 h1.le]

theorem sum_sign {x y z : ℝ} (h : x + y + z = 0) (s t u : Bool) :
    (sgn (num (x + y) (sgn (num (x + y) (sgn (num x s) && sgn (num y t))))) && sgn (num z u)) =
      (decide (x = 0) && decide (y = 0) && s && t && u) := by
  rw [sgn_add_zero h, ]
  by_cases hxy : x + y = 0
  · rw [hxy, sgn_zero, sgn_add_zero hxy]
    by_cases hx : x = 0
    · have hy : y = 0 := by linarith
      simp [hx, hy]
    · simp [hx]
  · have : ¬ (x = 0 ∧ y = 0) := fun e => hxy (by rw [e.1, e.2, add_zero])
    by_cases hx : x = 0
    · have hy : y ≠ 0 := fun e => this ⟨hx, e⟩
      simp [hx, hy]
    · simp [hxy, hx]

theorem num_add3 (x y z : ℝ) (s t u : Bool) : num x s + num y t + num z u =
    num (x + y + z) (sgn (num (x + y + z) (decide (x = 0) && decide (y = 0) && s && t && u))) := by
  rw [num_add_num, num_add_num]
  by_cases h : x + y + z = 0
  · rw [sum_sign h, h]
  · rw [sgn_ne h, sgn_ne h]

protected theorem add_assoc (a b c : Ext) : a + b + c = a + (b + c) := by
  cases a with
  | nan => simp
  | inf s =>
    cases b with
    | nan => simp
    | inf t =>
      cases c with
      | nan => simp
      | inf u => cases s <;> cases t <;> cases u <;> simp
      | num z u => cases s <;> cases t <;> simp
    | num y t =>
      cases c with
      | nan => simp
      | inf u => simp
      | num z u => rw [num_add_num]; simp
  | num x s =>
    cases b with
    | nan => simp
    | inf t =>
      cases c with
      | nan => simp
      | inf u => cases t <;> cases u <;> simp
      | num z u => simp
    | num y t =>
      cases c with
      | nan => simp
      | inf u => rw [num_add_num]; simp
      | num z u =>
        rw [Ext.add_comm (num x s) (num y t + num z u), num_add3, num_add3]
        rw [show y + z + x = x + y + z by ring]
        congr 1
        by_cases h : x + y + z = 0
        · rw [h, sgn_zero, sgn_zero]
          by_cases hx : x = 0 <;> by_cases hy : y = 0
          · have hz : z = 0 := by linarith
            simp [hx, hy, hz, Bool.and_comm, Bool.and_left_comm]
          · simp [hy]
          · have hz : z ≠ 0 := fun e => hx (by linarith)
            simp [hx, hy, hz]
          · simp [hx, hy]
        · rw [sgn_ne h, sgn_ne h]

protected theorem add_right_comm (a b c : Ext) : a + b + c = a + c + b := by
  rw [Ext.add_assoc, Ext.add_comm b, Ext.add_assoc]

theorem NotNegZero.add {a : Ext} (h : a.NotNegZero) (b : Ext) : (a + b).NotNegZero := by
  cases a with
  | nan => rw [nan_add]; trivial
  | inf s =>
    cases b with
    | nan => rw [add_nan]; trivial
    | inf t => rw [inf_add_inf]; split <;> trivial
    | num y t => rw [inf_add_num]; trivial
  | num x s =>
    cases b with
    | nan => rw [add_nan]; trivial
    | inf t => rw [num_add_inf]; trivial
    | num y t =>
      rw [num_add_num]
      rintro ⟨h1, h2⟩
      rw [h1, sgn_zero, sgn_add_zero h1] at h2
      simp only [Bool.and_eq_true, decide_eq_true_eq] at h2
      exact h ⟨h2.1.1, h2.1.2⟩

theorem NotNegZero.add' {b : Ext} (h : b.NotNegZero) (a : Ext) : (a + b).NotNegZero := by
  rw [Ext.add_comm]; exact h.add a

/-- The sign of a difference that is zero. -/
theorem sgn_sub_zero (x : ℝ) (s t : Bool) :
    (sgn (num x s) && sgn (num (-x) (!(sgn (num x t))))) = (decide (x = 0) && s && !t) := by
  rw [sgn_add_zero (add_neg_cancel x)]
  by_cases hx : x = 0
  · simp [hx, sgn_zero]
  · simp [hx]
    
theorem add_sub_add {a d : Ext} (ha : a.NotNegZero) (hd : d.Finite) (b : Ext) : (a + d) - (b + d) = a - b := by
  cases d with
  | nan => exact hd.elim
  | inf => exact hd.elim
  | num z u =>
    cases a with
    | nan => simp
    | inf s =>
      cases b with
      | nan => simp
      | inf t => simp
      | num y t => rw [inf_add_num, num_add_num]; simp
    | num x s =>
      cases b with
      | nan => simp
      | inf t => rw [inf_add_num, num_add_num]; simp
      | num y t =>
        rw [num_add_num, num_add_num, num_sub_num, num_sub_num]
        rw [add_sub_add_right_eq_sub]
        congr 1
        by_cases h : x - y = 0
        · have e : x = y := by linarith
          subst e
          rw [h, sgn_zero, sgn_zero, sgn_sub_zero, sgn_sub_zero]
          by_cases hx : x = 0
          · have hs : s = false := by cases s with | false => rfl | true => exact (ha ⟨hx, rfl⟩).elim
            subst hs
            simp [sgn, hx]
            by_cases hz : z = 0
            · simp [hz]
            · simp [hz]
          · simp [hx]
            intro h1
            rw [h1, sgn_zero, sgn_add_zero h1]
            simp [hx]
        · rw [sgn_ne h, sgn_ne h]

theorem add_lt_add {d : Ext} (hd : d.Finite) (a b : Ext) : (a + d <. b + d) = (a <. b) := by
  cases d with
  | nan => exact hd.elim
  | inf => exact hd.elim
  | num z u =>
    cases a with
    | nan => simp
    | inf s =>
      cases b with
      | nan => simp
      | inf t => simp
      | num y t => rw [inf_add_num, num_add_num]; simp
    | num x s =>
      cases b with
      | nan => simp
      | inf t => rw [inf_add_num, num_add_num]; simp
      | num y t => rw [num_add_num, num_add_num, lt_num, lt_num]; simp

theorem isNaN_add {d : Ext} (hd : d.Finite) (a : Ext) : GoFloat.isNaN (a + d) = GoFloat.isNaN a := by
  cases d with
  | nan => exact hd.elim
  | inf => exact hd.elim
  | num z u =>
    cases a with
    | nan => simp
    | inf s => simp
    | num x s => rw [num_add_num]; simp

end BR.Ext
