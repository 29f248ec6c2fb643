import Verif.Num.Real
import Mathlib.Data.EReal.Basic

/-!
# Extended numbers

`Ext` has Go's special values: NaN, two infinities and two zeros. Finite arithmetic is exact
(no rounding, overflow or underflow).
-/

namespace BR

/-- `nan`, `inf neg`, or a finite number `num x neg`, where the sign bit only matters for `x = 0`. -/
inductive Ext
  | nan
  | inf (neg : Bool)
  | num (x : ℝ) (neg : Bool)

namespace Ext

/-- IEEE sign bit. -/
noncomputable def sgn : Ext → Bool
  | nan => false
  | inf s => s
  | num x s => if x = 0 then s else decide (x < 0)

/-- The finite number `x`, with positive zero. -/
def fin (x : ℝ) : Ext := num x false

noncomputable def neg : Ext → Ext
  | nan => nan
  | inf s => inf (!s)
  | num x s => num (-x) (!(sgn (num x s)))

noncomputable def add : Ext → Ext → Ext
  | nan, _ => nan
  | _, nan => nan
  | inf s, inf t => if s = t then inf s else nan
  | inf s, num _ _ => inf s
  | num _ _, inf t => inf t
  | num x s, num y t => num (x + y) (sgn (num (x + y) (sgn (num x s) && sgn (num y t))))

noncomputable def mul : Ext → Ext → Ext
  | nan, _ => nan
  | _, nan => nan
  | inf s, inf t => inf (xor s t)
  | inf s, num y t => if y = 0 then nan else inf (xor s (sgn (num y t)))
  | num x s, inf t => if x = 0 then nan else inf (xor (sgn (num x s)) t)
  | num x s, num y t => num (x * y) (xor (sgn (num x s)) (sgn (num y t)))

noncomputable def div : Ext → Ext → Ext
  | nan, _ => nan
  | _, nan => nan
  | inf _, inf _ => nan
  | inf s, num y t => inf (xor s (sgn (num y t)))
  | num x s, inf t => num 0 (xor (sgn (num x s)) t)
  | num x s, num y t =>
      if y = 0 then (if x = 0 then nan else inf (xor (sgn (num x s)) (sgn (num y t))))
      else num (x / y) (xor (sgn (num x s)) (sgn (num y t)))

noncomputable instance : Neg Ext := ⟨neg⟩
noncomputable instance : Add Ext := ⟨add⟩
noncomputable instance : Sub Ext := ⟨fun a b => add a (neg b)⟩
noncomputable instance : Mul Ext := ⟨mul⟩
noncomputable instance : Div Ext := ⟨div⟩

/-- Order position of a number: `none` for NaN. Go comparisons compare this. -/
noncomputable def key : Ext → Option EReal
  | nan => none
  | inf true => some ⊥
  | inf false => some ⊤
  | num x _ => some (x : EReal)

/-- Apply a real function to a finite number; special values are handled by the caller. -/
noncomputable def cmp (r : EReal → EReal → Prop) [∀ a b, Decidable (r a b)] (a b : Ext) : Bool :=
  match key a, key b with
  | some x, some y => decide (r x y)
  | _, _ => false

open Classical in
noncomputable instance : GoFloat Ext where
  lt := cmp (· < ·)
  le := cmp (· ≤ ·)
  eq := cmp (· = ·)
  lit q := num (q : ℝ) false
  ofInt i := num (i : ℝ) false
  trunc | num x _ => realTrunc x | _ => 0
  isNaN | nan => true | _ => false
  inf := inf false
  pi := num Real.pi false
  floor | num x s => num (⌊x⌋ : ℝ) (sgn (num x s)) | a => a
  abs | nan => nan | inf _ => inf false | num x _ => num |x| false
  sqrt
    | nan => nan
    | inf s => if s then nan else inf false
    | num x s => if x < 0 then nan else num (Real.sqrt x) s
  sin | num x s => num (Real.sin x) s | _ => nan
  cos | num x _ => num (Real.cos x) false | _ => nan
  tan | num x s => num (Real.tan x) s | _ => nan
  asin | num x s => if 1 < |x| then nan else num (Real.arcsin x) s | _ => nan
  -- atan2 with special values is not used by the model
  atan2 | num y _, num x _ => num (Complex.arg ⟨x, y⟩) false | _, _ => nan
  exp
    | nan => nan
    | inf s => if s then num 0 false else inf false
    | num x _ => num (Real.exp x) false
  log
    | nan => nan
    | inf s => if s then nan else inf false
    | num x _ => if x < 0 then nan else if x = 0 then inf true else num (Real.log x) false
  -- pow with special values is not used by the model
  pow | num x _, num y _ => num (x ^ y) false | _, _ => nan
  toF32 := id

variable (x y : ℝ) (s t : Bool) (a b : Ext) (q : ℚ) (i : Int)

@[simp] theorem nan_add : nan + a = nan := by cases a <;> rfl
@[simp] theorem add_nan : a + nan = nan := by cases a <;> rfl
@[simp] theorem nan_mul : nan * a = nan := by cases a <;> rfl
@[simp] theorem mul_nan : a * nan = nan := by cases a <;> rfl
@[simp] theorem nan_div : nan / a = nan := by cases a <;> rfl
@[simp] theorem div_nan : a / nan = nan := by cases a <;> rfl
@[simp] theorem neg_nan : -nan = nan := rfl
theorem sub_def : a - b = a + -b := rfl
@[simp] theorem nan_sub : nan - a = nan := by rw [sub_def, nan_add]
@[simp] theorem sub_nan : a - nan = nan := by rw [sub_def, neg_nan, add_nan]
@[simp] theorem neg_inf : -(inf s) = inf (!s) := rfl
theorem neg_num : -(num x s) = num (-x) (!(sgn (num x s))) := rfl
theorem num_add_num :
    num x s + num y t = num (x + y) (sgn (num (x + y) (sgn (num x s) && sgn (num y t)))) := rfl
theorem num_mul_num : num x s * num y t = num (x * y) (xor (sgn (num x s)) (sgn (num y t))) := rfl
theorem num_sub_num :
    num x s - num y t = num (x - y) (sgn (num (x - y) (sgn (num x s) && sgn (num (-y) (!(sgn (num y t))))))) := by
  rw [sub_def, neg_num, num_add_num, sub_eq_add_neg]
theorem num_div_num (hy : y ≠ 0) :
    num x s / num y t = num (x / y) (xor (sgn (num x s)) (sgn (num y t))) := by
  change div _ _ = _
  simp [div, hy]
theorem num_div_zero : num x s / num 0 t = if x = 0 then nan else inf (xor (sgn (num x s)) t) := by
  change div _ _ = _
  simp [div, sgn]
@[simp] theorem inf_add_inf : inf s + inf t = if s = t then inf s else nan := rfl
@[simp] theorem inf_add_num : inf s + num y t = inf s := rfl
@[simp] theorem num_add_inf : num x s + inf t = inf t := rfl
@[simp] theorem inf_sub_num : inf s - num y t = inf s := rfl
@[simp] theorem num_sub_inf : num x s - inf t = inf (!t) := rfl
theorem inf_mul_num : inf s * num y t = if y = 0 then nan else inf (xor s (sgn (num y t))) := rfl
theorem num_mul_inf : num x s * inf t = if x = 0 then nan else inf (xor (sgn (num x s)) t) := rfl
@[simp] theorem inf_mul_inf : inf s * inf t = inf (xor s t) := rfl
@[simp] theorem inf_div_num : inf s / num y t = inf (xor s (sgn (num y t))) := rfl
theorem num_div_inf : num x s / inf t = num 0 (xor (sgn (num x s)) t) := rfl

@[simp] theorem lt_num : (num x s <. num y t) = decide (x < y) := by
  change cmp _ _ _ = _
  simp [cmp, key]
@[simp] theorem le_num : (num x s <=. num y t) = decide (x ≤ y) := by
  change cmp _ _ _ = _
  simp [cmp, key]
@[simp] theorem eq_num : (num x s ==. num y t) = decide (x = y) := by
  change cmp _ _ _ = _
  simp [cmp, key]
@[simp] theorem nan_lt : (nan <. a) = false := rfl
@[simp] theorem lt_nan : (a <. nan) = false := by cases a with | inf s => cases s <;> rfl | _ => rfl
@[simp] theorem nan_le : (nan <=. a) = false := rfl
@[simp] theorem le_nan : (a <=. nan) = false := by cases a with | inf s => cases s <;> rfl | _ => rfl
@[simp] theorem nan_eq : (nan ==. a) = false := rfl
@[simp] theorem eq_nan : (a ==. nan) = false := by cases a with | inf s => cases s <;> rfl | _ => rfl
@[simp] theorem num_lt_inf : (num x s <. inf t) = !t := by
  change cmp _ _ _ = _
  cases t <;> simp [cmp, key]
@[simp] theorem inf_lt_num : (inf t <. num x s) = t := by
  change cmp _ _ _ = _
  cases t <;> simp [cmp, key]
@[simp] theorem num_le_inf : (num x s <=. inf t) = !t := by
  change cmp _ _ _ = _
  cases t <;> simp [cmp, key]
@[simp] theorem inf_le_num : (inf t <=. num x s) = t := by
  change cmp _ _ _ = _
  cases t <;> simp [cmp, key]
@[simp] theorem inf_lt_inf : (inf s <. inf t) = (s && !t) := by
  change cmp _ _ _ = _
  cases s <;> cases t <;> simp [cmp, key]
@[simp] theorem inf_le_inf : (inf s <=. inf t) = (s || !t) := by
  change cmp _ _ _ = _
  cases s <;> cases t <;> simp [cmp, key]
@[simp] theorem num_eq_inf : (num x s ==. inf t) = false := by
  change cmp _ _ _ = _
  cases t <;> simp [cmp, key]
@[simp] theorem inf_eq_num : (inf t ==. num x s) = false := by
  change cmp _ _ _ = _
  cases t <;> simp [cmp, key]
@[simp] theorem inf_eq_inf : (inf s ==. inf t) = decide (s = t) := by
  change cmp _ _ _ = _
  cases s <;> cases t <;> simp [cmp, key]

@[simp] theorem lit_ext : (lit q : Ext) = num (q : ℝ) false := rfl
@[simp] theorem ofInt_ext : (ofInt i : Ext) = num (i : ℝ) false := rfl
@[simp] theorem inf_ext : (GoFloat.inf : Ext) = inf false := rfl
@[simp] theorem isNaN_nan : GoFloat.isNaN nan = true := rfl
@[simp] theorem isNaN_num : GoFloat.isNaN (num x s) = false := rfl
@[simp] theorem isNaN_inf : GoFloat.isNaN (inf s) = false := rfl
@[simp] theorem toF32_ext : GoFloat.toF32 a = a := rfl

end Ext

/-- What the comparisons of a number type mean: `key` places every number except NaN on the
extended real line and Go's comparisons are those of the keys. IEEE floats satisfy this. -/
class CmpModel (F : Type) [GoFloat F] where
  key : F → Option EReal
  lt_iff : ∀ a b : F, (a <. b) = true ↔ ∃ x y, key a = some x ∧ key b = some y ∧ x < y
  le_iff : ∀ a b : F, (a <=. b) = true ↔ ∃ x y, key a = some x ∧ key b = some y ∧ x ≤ y
  eq_iff : ∀ a b : F, (a ==. b) = true ↔ ∃ x y, key a = some x ∧ key b = some y ∧ x = y
  nan_iff : ∀ a : F, GoFloat.isNaN a = true ↔ key a = none
  key_zero : key (lit 0 : F) = some 0

noncomputable instance : CmpModel ℝ where
  key x := some (x : EReal)
  lt_iff a b := by simp
  le_iff a b := by simp
  eq_iff a b := by simp [eq_comm (a := b)]
  nan_iff a := by simp
  key_zero := by simp

noncomputable instance : CmpModel Ext where
  key := Ext.key
  lt_iff a b := by
    change Ext.cmp _ _ _ = true ↔ _
    unfold Ext.cmp
    cases Ext.key a <;> cases Ext.key b <;> simp
  le_iff a b := by
    change Ext.cmp _ _ _ = true ↔ _
    unfold Ext.cmp
    cases Ext.key a <;> cases Ext.key b <;> simp
  eq_iff a b := by
    change Ext.cmp _ _ _ = true ↔ _
    unfold Ext.cmp
    cases Ext.key a <;> cases Ext.key b <;> simp
    exact eq_comm
  nan_iff a := by
    cases a with
    | inf s => cases s <;> simp [Ext.key]
    | _ => simp [Ext.key]
  key_zero := by simp [Ext.key]

/-- `math.Inf(1)` and `-math.Inf(1)` are the ends of the line. -/
class InfModel (F : Type) [Neg F] [GoFloat F] [CmpModel F] : Prop where
  key_inf : CmpModel.key (GoFloat.inf : F) = some ⊤
  key_neg_inf : CmpModel.key (-GoFloat.inf : F) = some ⊥

instance : InfModel Ext where
  key_inf := rfl
  key_neg_inf := rfl

end BR
