import Verif.Lemmas.Golden

/-! C108: comparing a picture with a stored one. In exact arithmetic. -/

namespace BR

open Finset

/-- **The deviation of two pictures** is the total of the differences of their pixels, over the frame of the first, divided by
`765 (w + 1)^2` where `w` is its width. It is never negative. (For a mean, the divisor should be `3 · 65535 · w · h`.) -/
theorem C108_value_partial (A B : Decoded) :
    (goldenDiff A B : ℝ) = totalGap A B / (765 * ((A.w : ℝ) + 1) ^ 2) ∧ 0 ≤ (goldenDiff A B : ℝ) := by
  refine ⟨goldenDiff_eq A B, ?_⟩
  rw [goldenDiff_eq]
  have : (0 : ℝ) ≤ totalGap A B := by
    exact_mod_cast sum_nonneg fun y _ => sum_nonneg fun x _ => pixelGap_nonneg _ _
  positivity

/-- **Without tolerance, equal pictures pass and no others**, among pictures of the same size. -/
theorem C108_equal_partial (A B : Decoded) (hw : A.w = B.w) (hh : A.h = B.h) :
    comparePasses (0 : ℝ) A B = true ↔ ∀ x y, x < A.w → y < A.h → A.rgb x y = B.rgb x y := by
  rw [passes_iff, zero_mul]
  have h0 : (0 : ℤ) ≤ totalGap A B := sum_nonneg fun y _ => sum_nonneg fun x _ => pixelGap_nonneg _ _
  have e : (totalGap A B : ℝ) ≤ 0 ↔ totalGap A B = 0 := by
    constructor
    · intro h
      have : totalGap A B ≤ 0 := by exact_mod_cast h
      omega
    · intro h
      simp [h]
  rw [e, totalGap_zero]
  refine forall_congr' fun x => forall_congr' fun y => forall_congr' fun hx => forall_congr' fun hy => ?_
  simp only [Decoded.at, hx, hy, and_self, if_true, ← hw, ← hh]

/-- **A picture that is the same passes**, whatever the tolerance. -/
theorem C108_same (A : Decoded) {tol : ℝ} (h : 0 ≤ tol) : comparePasses tol A A = true := by
  rw [passes_iff, (totalGap_zero A A).2 fun _ _ _ _ => rfl]
  simp only [Int.cast_zero]
  positivity

/-- **What passes is close in every pixel**: none differs by more than the tolerance, in units of `765 (w + 1)^2`. -/
theorem C108_close {tol : ℝ} {A B : Decoded} (h : comparePasses tol A B = true) {x y : ℕ} (hx : x < A.w) (hy : y < A.h) :
    (pixelGap (A.at x y) (B.at x y) : ℝ) ≤ tol * (765 * ((A.w : ℝ) + 1) ^ 2) :=
  le_trans (by exact_mod_cast pixelGap_le A B hx hy) ((passes_iff _ _ _).1 h)

/-- **The tests of the program**, whose pictures are 300 pixels wide, with the default tolerance of `10^-5`: a picture passes if and only
if it differs from the stored one by no more than 693 of 65535 in total. As the pictures have 8 bits for each colour (steps of 257 of
65535), that is at most two steps, in one pixel or in two. -/
theorem C108_default {A B : Decoded} (hw : A.w = 300) : comparePasses (1 / 10 ^ 5 : ℝ) A B = true ↔ totalGap A B ≤ 693 := by
  rw [passes_iff, hw]
  norm_num
  constructor
  · intro h
    have : (totalGap A B : ℝ) < ((694 : ℤ) : ℝ) := by push_cast; linarith
    have := Int.cast_lt.1 this
    omega
  · intro h
    have : (totalGap A B : ℝ) ≤ ((693 : ℤ) : ℝ) := Int.cast_le.2 h
    push_cast at this
    linarith

/-- **The order of the two does not matter**, for pictures of the same size. -/
theorem C108_order_partial (tol : ℝ) {A B : Decoded} (hw : A.w = B.w) (hh : A.h = B.h) : comparePasses tol A B = comparePasses tol B A := by
  have e : totalGap A B = totalGap B A := by simp only [totalGap, hw, hh, pixelGap_comm]
  rw [Bool.eq_iff_iff, passes_iff, passes_iff, e, hw]

/-- **Where the stored picture ends**: without tolerance a picture passes if and only if it is equal to the stored one where both have pixels,
and black everywhere else. -/
theorem C108_outside (A B : Decoded) : comparePasses (0 : ℝ) A B = true ↔ ∀ x y, x < A.w → y < A.h →
    (x < B.w ∧ y < B.h → A.rgb x y = B.rgb x y) ∧ (B.w ≤ x ∨ B.h ≤ y → A.rgb x y = (0, 0, 0)) := by
  rw [passes_iff, zero_mul]
  have h0 : (0 : ℤ) ≤ totalGap A B := sum_nonneg fun y _ => sum_nonneg fun x _ => pixelGap_nonneg _ _
  have e : (totalGap A B : ℝ) ≤ 0 ↔ totalGap A B = 0 := by
    constructor
    · intro h
      have : totalGap A B ≤ 0 := by exact_mod_cast h
      omega
    · intro h
      simp [h]
  rw [e, totalGap_zero]
  refine forall_congr' fun x => forall_congr' fun y => forall_congr' fun hx => forall_congr' fun hy => ?_
  simp only [Decoded.at, hx, hy, and_self, if_true]
  by_cases hb : x < B.w ∧ y < B.h
  · have : ¬ (B.w ≤ x ∨ B.h ≤ y) := by omega
    simp only [hb, this, and_self, if_true, true_implies, false_implies, and_true]
  · have : B.w ≤ x ∨ B.h ≤ y := by omega
    simp only [hb, this, if_false, true_implies, false_implies, true_and]

/-- A black picture of two rows passes against one of a single row. -/
example : comparePasses (0 : ℝ) ⟨1, 2, fun _ _ => (0, 0, 0)⟩ ⟨1, 1, fun _ _ => (0, 0, 0)⟩ = true :=
  (C108_outside _ _).2 fun _ _ _ _ => ⟨fun _ => rfl, fun _ => rfl⟩

/-- A picture of one colour. -/
def plainPicture (w h level : ℕ) : Decoded := ⟨w, h, fun _ _ => (level, level, level)⟩

theorem plain_gap (w h a b : ℕ) : totalGap (plainPicture w h a) (plainPicture w h b) = w * h * (3 * |(a : ℤ) - b|) := by
  have : ∀ y ∈ range h, ∑ x ∈ range w, pixelGap ((plainPicture w h a).at x y) ((plainPicture w h b).at x y) = w * (3 * |(a : ℤ) - b|) := by
    intro y hy
    rw [sum_congr rfl (g := fun _ => 3 * |(a : ℤ) - b|), sum_const, card_range, nsmul_eq_mul]
    intro x hx
    simp only [Decoded.at, plainPicture, mem_range.1 hx, mem_range.1 hy, and_self, if_true, pixelGap]
    ring
  unfold totalGap
  show ∑ y ∈ range h, ∑ x ∈ range w, _ = _
  rw [sum_congr rfl this, sum_const, card_range, nsmul_eq_mul]
  ring

/-- **The size is not compared** (a violation): a picture passes, without tolerance, against any stored one that it is a part of; so a
black picture of one pixel passes against a stored picture with a white stripe. The other way round, it does not. -/
theorem C108_violated_size :
    (∀ A B : Decoded, (∀ x y, x < A.w → y < A.h → A.rgb x y = B.rgb x y) → A.w ≤ B.w → A.h ≤ B.h → comparePasses (0 : ℝ) A B = true) ∧
    ∃ A B : Decoded, A.w ≠ B.w ∧ (∃ x y, x < B.w ∧ y < B.h ∧ B.rgb x y = (65535, 65535, 65535)) ∧
      comparePasses (0 : ℝ) A B = true ∧ comparePasses (1 / 10 ^ 5 : ℝ) B A = false := by
  have part : ∀ A B : Decoded, (∀ x y, x < A.w → y < A.h → A.rgb x y = B.rgb x y) → A.w ≤ B.w → A.h ≤ B.h → comparePasses (0 : ℝ) A B = true := by
    intro A B h hw hh
    rw [passes_iff, (totalGap_zero A B).2 ?_]
    · simp
    · intro x y hx hy
      simp only [Decoded.at, hx, hy, lt_of_lt_of_le hx hw, lt_of_lt_of_le hy hh, and_self, if_true, h x y hx hy]
  refine ⟨part, ⟨1, 1, fun _ _ => (0, 0, 0)⟩, ⟨2, 1, fun x _ => if x = 1 then (65535, 65535, 65535) else (0, 0, 0)⟩, by decide,
    ⟨1, 0, by decide, by decide, rfl⟩, part _ _ ?_ (by decide) (by decide), ?_⟩
  · intro x y hx _
    obtain rfl : x = 0 := by simpa using hx
    rfl
  · rw [Bool.eq_false_iff, Ne, passes_iff]
    have : totalGap (⟨2, 1, fun x _ => if x = 1 then (65535, 65535, 65535) else (0, 0, 0)⟩ : Decoded) ⟨1, 1, fun _ _ => (0, 0, 0)⟩ = 196605 := by
      decide +kernel
    rw [this]
    norm_num

/-- **The deviation depends on the shape** (a violation of its being a mean): with 200 pixels side by side, one step off each, a picture
passes with a tolerance of 1/100; with the same pixels on top of each other, it does not. -/
theorem C108_violated_shape : ∃ A B A' B' : Decoded, A.w * A.h = A'.w * A'.h ∧
    (∀ x y, x < A.w → y < A.h → pixelGap (A.at x y) (B.at x y) = 771) ∧ (∀ x y, x < A'.w → y < A'.h → pixelGap (A'.at x y) (B'.at x y) = 771) ∧
    comparePasses (1 / 100 : ℝ) A B = true ∧ comparePasses (1 / 100 : ℝ) A' B' = false := by
  have gap : ∀ w h x y, x < w → y < h → pixelGap ((plainPicture w h 0).at x y) ((plainPicture w h 257).at x y) = 771 := by
    intro w h x y hx hy
    simp only [Decoded.at, plainPicture, hx, hy, and_self, if_true]
    decide
  refine ⟨plainPicture 200 1 0, plainPicture 200 1 257, plainPicture 1 200 0, plainPicture 1 200 257, rfl, gap 200 1, gap 1 200, ?_, ?_⟩
  · rw [passes_iff, plain_gap]
    norm_num [plainPicture]
  · rw [Bool.eq_false_iff, Ne, passes_iff, plain_gap]
    norm_num [plainPicture]

/-- A picture of the size of the tests, two steps off in one pixel, passes; three steps off it does not. -/
example : let A := plainPicture 300 200 0
    let B (n : ℕ) : Decoded := ⟨300, 200, fun x y => if x = 7 ∧ y = 5 then (257 * n, 0, 0) else (0, 0, 0)⟩
    comparePasses (1 / 10 ^ 5 : ℝ) A (B 2) = true ∧ comparePasses (1 / 10 ^ 5 : ℝ) A (B 3) = false := by
  intro A B
  have key : ∀ n, totalGap A (B n) = 257 * n := by
    intro n
    unfold totalGap
    rw [sum_eq_single_of_mem 5 (by decide), sum_eq_single_of_mem 7 (by decide)]
    · simp [A, B, Decoded.at, plainPicture, pixelGap]
    · intro x hx h7
      have : x < 300 := mem_range.1 hx
      simp [A, B, Decoded.at, plainPicture, pixelGap, h7, this]
    · intro y hy h5
      refine sum_eq_zero fun x hx => ?_
      have : x < 300 := mem_range.1 hx
      have : y < 200 := mem_range.1 hy
      simp [A, B, Decoded.at, plainPicture, pixelGap, *]
  refine ⟨(C108_default rfl).2 (by rw [key]; norm_num), ?_⟩
  rw [Bool.eq_false_iff, Ne, C108_default rfl, key]
  norm_num

end BR
