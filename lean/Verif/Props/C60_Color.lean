import Verif.Model.Color
import Verif.Lemmas.Cmp
import Verif.Lemmas.Geom

/-!
C60: colours form a vector space under the provided operations; the gray value is within the range of
the channels; NaN is detected if any channel is NaN.
-/

namespace BR

open Color (add mul madd mul3 black white ev gray grayVal)

/-- Addition is commutative and associative with black as zero, scaling distributes and is
compatible with multiplication of scalars, and every colour has an opposite. -/
theorem C60_vector_space (a b c : Color ℝ) (s t : ℝ) :
    a.add b = b.add a ∧ (a.add b).add c = a.add (b.add c) ∧ a.add black = a ∧
    a.add (a.mul (-1)) = black ∧
    (a.add b).mul s = (a.mul s).add (b.mul s) ∧ a.mul (s + t) = (a.mul s).add (a.mul t) ∧
    (a.mul s).mul t = a.mul (t * s) ∧ a.mul 1 = a := by
  simp only [add, mul, black, Color.ext_iff, lit_real]
  push_cast
  refine ⟨⟨?_, ?_, ?_⟩, ⟨?_, ?_, ?_⟩, ⟨?_, ?_, ?_⟩, ⟨?_, ?_, ?_⟩, ⟨?_, ?_, ?_⟩, ⟨?_, ?_, ?_⟩,
    ⟨?_, ?_, ?_⟩, ⟨?_, ?_, ?_⟩⟩ <;> ring

/-- `MAdd` is scaling and adding, and channel-wise multiplication is a commutative, associative and
bilinear product with white as unit and black as zero. -/
theorem C60_products (a b c : Color ℝ) (s : ℝ) :
    a.madd s b = a.add (b.mul s) ∧ a.mul3 b = b.mul3 a ∧ (a.mul3 b).mul3 c = a.mul3 (b.mul3 c) ∧
    a.mul3 white = a ∧ a.mul3 black = black ∧
    (a.add b).mul3 c = (a.mul3 c).add (b.mul3 c) ∧ (a.mul s).mul3 b = (a.mul3 b).mul s := by
  refine ⟨rfl, ?_⟩
  simp only [add, mul, mul3, black, white, Color.ext_iff, lit_real]
  push_cast
  refine ⟨⟨?_, ?_, ?_⟩, ⟨?_, ?_, ?_⟩, ⟨?_, ?_, ?_⟩, ⟨?_, ?_, ?_⟩, ⟨?_, ?_, ?_⟩,
    ⟨?_, ?_, ?_⟩⟩ <;> ring

/-- The exposure value adds up: `c.EV(a).EV(b) = c.EV(a+b)`, one step doubles, and zero keeps the
colour. -/
theorem C60_exposure (c : Color ℝ) (a b : ℝ) :
    (c.ev a).ev b = c.ev (a + b) ∧ c.ev 1 = c.add c ∧ c.ev 0 = c := by
  have h2 : (0 : ℝ) < 2 := by norm_num
  refine ⟨?_, ?_, ?_⟩
  · simp only [ev, mul, Color.ext_iff, lit_real, pow_real]
    push_cast
    rw [Real.rpow_add h2]
    refine ⟨?_, ?_, ?_⟩ <;> ring
  · simp only [ev, mul, add, Color.ext_iff, lit_real, pow_real]
    push_cast
    rw [Real.rpow_one]
    refine ⟨?_, ?_, ?_⟩ <;> ring
  · simp [ev, mul]

/-- `Gray()` is the mean of the channels and lies between the smallest and the largest one; it is the
value itself for a gray colour. -/
theorem C60_gray (c : Color ℝ) :
    c.grayVal = (c.R + c.G + c.B) / 3 ∧
    min (min c.R c.G) c.B ≤ c.grayVal ∧ c.grayVal ≤ max (max c.R c.G) c.B ∧
    ∀ v : ℝ, (gray v).grayVal = v := by
  refine ⟨by simp [grayVal], ?_, ?_, fun v => ?_⟩
  · have h1 := min_le_left (min c.R c.G) c.B
    have h2 := min_le_right (min c.R c.G) c.B
    have h3 := min_le_left c.R c.G
    have h4 := min_le_right c.R c.G
    simp only [grayVal, lit_real]
    rw [le_div_iff₀ (by norm_num)]
    push_cast
    linarith
  · have h1 := le_max_left (max c.R c.G) c.B
    have h2 := le_max_right (max c.R c.G) c.B
    have h3 := le_max_left c.R c.G
    have h4 := le_max_right c.R c.G
    simp only [grayVal, lit_real]
    rw [div_le_iff₀ (by norm_num)]
    push_cast
    linarith
  · simp only [grayVal, gray, lit_real]
    push_cast
    ring

/-- `Max()` is the largest channel. -/
theorem C60_max (c : Color ℝ) :
    c.max = Max.max (Max.max c.R c.G) c.B := by
  simp only [Color.max, lt_real, decide_eq_true_eq]
  have e1 : (if c.R < c.G then c.G else c.R) = Max.max c.R c.G := by
    split_ifs with h
    · rw [max_eq_right h.le]
    · rw [max_eq_left (not_lt.1 h)]
  rw [e1]
  split_ifs with h
  · rw [max_eq_right h.le]
  · rw [max_eq_left (not_lt.1 h)]

/-- `IsNaN` is true exactly when a channel is NaN, for any number system whose comparisons are those
of IEEE 754. -/
theorem C60_isNaN {F : Type} [GoFloat F] [CmpModel F] (c : Color F) :
    c.isNaN = true ↔ GoFloat.isNaN c.R = true ∨ GoFloat.isNaN c.G = true ∨ GoFloat.isNaN c.B = true := by
  have h : ∀ a : F, (!(a ==. a)) = GoFloat.isNaN a := by
    intro a
    cases hk : CmpModel.key a with
    | none =>
      have : (a ==. a) = false := by
        rw [Bool.eq_false_iff, Ne, CmpModel.eq_iff]; simp [hk]
      rw [this, isNaN_key, hk]; rfl
    | some x => rw [eq_key hk hk, isNaN_key, hk]; simp
  simp only [Color.isNaN, h, Bool.or_eq_true, or_assoc]

/-- A colour with one NaN channel and one without. -/
example : (⟨.fin 1, .nan, .fin 0⟩ : Color Ext).isNaN = true ∧
    (⟨.fin 1, .inf false, .fin 0⟩ : Color Ext).isNaN = false := by
  constructor
  · rw [C60_isNaN]; simp
  · rw [Bool.eq_false_iff, Ne, C60_isNaN]; simp [Ext.fin]

end BR
