import Verif.Num.Ext
import Verif.Model.BBox

/-! Min, max and comparisons of numbers in terms of their position on the extended real line. -/

namespace BR

open CmpModel (key)

variable {F : Type} [GoFloat F] [CmpModel F] {a b c : F} {x y z : EReal}

theorem lt_key (ha : key a = some x) (hb : key b = some y) : (a <. b) = decide (x < y) := by
  rw [Bool.eq_iff_iff, CmpModel.lt_iff]
  simp [ha, hb]

theorem le_key (ha : key a = some x) (hb : key b = some y) : (a <=. b) = decide (x ≤ y) := by
  rw [Bool.eq_iff_iff, CmpModel.le_iff]
  simp [ha, hb]

theorem eq_key (ha : key a = some x) (hb : key b = some y) : (a ==. b) = decide (x = y) := by
  rw [Bool.eq_iff_iff, CmpModel.eq_iff]
  simp [ha, hb, eq_comm]

theorem lt_nan_left (ha : key a = none) : (a <. b) = false := by
  rw [Bool.eq_false_iff, Ne, CmpModel.lt_iff]; simp [ha]

theorem lt_nan_right (hb : key b = none) : (a <. b) = false := by
  rw [Bool.eq_false_iff, Ne, CmpModel.lt_iff]; simp [hb]

theorem le_nan_left (ha : key a = none) : (a <=. b) = false := by
  rw [Bool.eq_false_iff, Ne, CmpModel.le_iff]; simp [ha]

theorem le_nan_right (hb : key b = none) : (a <=. b) = false := by
  rw [Bool.eq_false_iff, Ne, CmpModel.le_iff]; simp [hb]

theorem isNaN_key : GoFloat.isNaN a = (key a).isNone := by
  rw [Bool.eq_iff_iff, CmpModel.nan_iff]; simp

theorem key_fmin (ha : key a = some x) (hb : key b = some y) : key (fmin a b) = some (min x y) := by
  rw [fmin, lt_key ha hb]
  by_cases h : x < y
  · simp [h, ha, min_eq_left h.le]
  · simp [h, hb, min_eq_right (not_lt.1 h)]

theorem key_fmax (ha : key a = some x) (hb : key b = some y) : key (fmax a b) = some (max x y) := by
  rw [fmax, lt_key hb ha]
  by_cases h : y < x
  · simp [h, ha, max_eq_left h.le]
  · simp [h, hb, max_eq_right (not_lt.1 h)]

theorem key_lower (ha : key a = some x) (hb : key b = some y) :
    key (BBox.lower a b) = some (min x y) := by
  rw [BBox.lower, lt_key hb ha]
  by_cases h : y < x
  · simp [h, hb, min_eq_right h.le]
  · simp [h, ha, min_eq_left (not_lt.1 h)]

theorem key_upper (ha : key a = some x) (hb : key b = some y) :
    key (BBox.upper a b) = some (max x y) := by
  rw [BBox.upper, lt_key ha hb]
  by_cases h : x < y
  · simp [h, hb, max_eq_right h.le]
  · simp [h, ha, max_eq_left (not_lt.1 h)]

theorem key_max3 (ha : key a = some x) (hb : key b = some y) (hc : key c = some z) :
    key (BBox.max3 a b c) = some (max (max x y) z) :=
  key_upper (key_upper ha hb) hc

theorem key_min3 (ha : key a = some x) (hb : key b = some y) (hc : key c = some z) :
    key (BBox.min3 a b c) = some (min (min x y) z) :=
  key_lower (key_lower ha hb) hc

end BR
