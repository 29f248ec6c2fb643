import Verif.Spec.Box
import Verif.Model.Object

/-! Arithmetic on finite extended numbers follows arithmetic on real numbers. -/

namespace BR

namespace Ext.Is

variable {a b : Ext} {x y : ℝ}

theorem add (ha : a.Is x) (hb : b.Is y) : (a + b).Is (x + y) := by
  obtain ⟨s, rfl⟩ := ha; obtain ⟨t, rfl⟩ := hb; exact ⟨_, num_add_num ..⟩

theorem mul (ha : a.Is x) (hb : b.Is y) : (a * b).Is (x * y) := by
  obtain ⟨s, rfl⟩ := ha; obtain ⟨t, rfl⟩ := hb; exact ⟨_, num_mul_num ..⟩

theorem sub (ha : a.Is x) (hb : b.Is y) : (a - b).Is (x - y) := by
  obtain ⟨s, rfl⟩ := ha; obtain ⟨t, rfl⟩ := hb; exact ⟨_, num_sub_num ..⟩

theorem neg (ha : a.Is x) : (-a).Is (-x) := by
  obtain ⟨s, rfl⟩ := ha; exact ⟨_, neg_num ..⟩

theorem div (ha : a.Is x) (hb : b.Is y) (hy : y ≠ 0) : (a / b).Is (x / y) := by
  obtain ⟨s, rfl⟩ := ha; obtain ⟨t, rfl⟩ := hb; exact ⟨_, num_div_num _ _ _ _ hy⟩

theorem lit (q : ℚ) : (BR.lit q : Ext).Is q := ⟨_, rfl⟩

theorem abs (ha : a.Is x) : (GoFloat.abs a).Is |x| := by
  obtain ⟨s, rfl⟩ := ha; exact ⟨_, rfl⟩

theorem lt (ha : a.Is x) (hb : b.Is y) : (a <. b) = decide (x < y) := by
  obtain ⟨s, rfl⟩ := ha; obtain ⟨t, rfl⟩ := hb; exact lt_num ..

theorem le (ha : a.Is x) (hb : b.Is y) : (a <=. b) = decide (x ≤ y) := by
  obtain ⟨s, rfl⟩ := ha; obtain ⟨t, rfl⟩ := hb; exact le_num ..

theorem key (ha : a.Is x) : CmpModel.key a = some (x : EReal) := by
  obtain ⟨s, rfl⟩ := ha; rfl

theorem of_key (h : CmpModel.key a = some (x : EReal)) : a.Is x := by
  cases a with
  | nan => cases h
  | inf s => cases s <;> · have := Option.some.inj h; exact absurd this (by simp)
  | num y s => exact ⟨s, by rw [EReal.coe_eq_coe_iff.1 (Option.some.inj h)]⟩

end Ext.Is

namespace Vec.Is

variable {a b : Vec Ext} {x y : Vec ℝ} {s : Ext} {k : ℝ}

theorem add (ha : a.Is x) (hb : b.Is y) : (a.add b).Is (x.add y) :=
  ⟨ha.1.add hb.1, ha.2.1.add hb.2.1, ha.2.2.add hb.2.2⟩

theorem sub (ha : a.Is x) (hb : b.Is y) : (a.sub b).Is (x.sub y) :=
  ⟨ha.1.sub hb.1, ha.2.1.sub hb.2.1, ha.2.2.sub hb.2.2⟩

theorem mul (ha : a.Is x) (hs : s.Is k) : (a.mul s).Is (x.mul k) :=
  ⟨hs.mul ha.1, hs.mul ha.2.1, hs.mul ha.2.2⟩

theorem madd (ha : a.Is x) (hs : s.Is k) (hb : b.Is y) : (a.madd s b).Is (x.madd k y) :=
  ⟨ha.1.add (hs.mul hb.1), ha.2.1.add (hs.mul hb.2.1), ha.2.2.add (hs.mul hb.2.2)⟩

end Vec.Is

theorem Ray.Is.at {r : Ray Ext} {R : Ray ℝ} (hr : r.Is R) {s : Ext} {t : ℝ} (hs : s.Is t) :
    (r.at s).Is (R.at t) := Vec.Is.madd hr.1 hs hr.2

end BR
