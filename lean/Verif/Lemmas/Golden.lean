import Verif.Spec.Golden
import Verif.Lemmas.Image
import Verif.Num.Real

/-! Sums in the comparisons with stored pictures. -/

namespace BR

open Finset

theorem chanDiff_abs (a b : Nat) : chanDiff a b = |(a : ℤ) - b| := by
  simp only [chanDiff]
  split
  · rw [abs_of_neg (by assumption)]
  · rw [abs_of_nonneg (by omega)]

theorem foldl_sum (g : ℕ → ℤ) (n : ℕ) (a : ℤ) : (List.range n).foldl (fun s i => s + g i) a = a + ∑ i ∈ range n, g i := by
  induction n with
  | zero => simp
  | succ n ih => rw [List.range_succ, List.foldl_append, ih, sum_range_succ]; simp [add_assoc]

theorem goldenDelta_sum (A B : Decoded) : goldenDelta A B = totalGap A B := by
  simp only [goldenDelta, totalGap, foldl_sum, zero_add, chanDiff_abs, pixelGap]

theorem pixelGap_nonneg (p q : Nat × Nat × Nat) : 0 ≤ pixelGap p q := by unfold pixelGap; positivity

theorem pixelGap_zero (p q : Nat × Nat × Nat) : pixelGap p q = 0 ↔ p = q := by
  obtain ⟨a, b, c⟩ := p
  obtain ⟨a', b', c'⟩ := q
  simp only [pixelGap, Prod.mk.injEq]
  constructor
  · intro h
    have h1 := abs_nonneg ((a : ℤ) - a')
    have h2 := abs_nonneg ((b : ℤ) - b')
    have h3 := abs_nonneg ((c : ℤ) - c')
    have e1 := abs_eq_zero.1 (show |(a : ℤ) - a'| = 0 by omega)
    have e2 := abs_eq_zero.1 (show |(b : ℤ) - b'| = 0 by omega)
    have e3 := abs_eq_zero.1 (show |(c : ℤ) - c'| = 0 by omega)
    omega
  · rintro ⟨rfl, rfl, rfl⟩
    simp

theorem pixelGap_comm (p q : Nat × Nat × Nat) : pixelGap p q = pixelGap q p := by
  simp only [pixelGap, abs_sub_comm]

theorem totalGap_zero (A B : Decoded) : totalGap A B = 0 ↔ ∀ x y, x < A.w → y < A.h → A.at x y = B.at x y := by
  unfold totalGap
  rw [sum_eq_zero_iff_of_nonneg fun y _ => sum_nonneg fun x _ => pixelGap_nonneg _ _]
  constructor
  · intro h x y hx hy
    have := h y (mem_range.2 hy)
    rw [sum_eq_zero_iff_of_nonneg fun x _ => pixelGap_nonneg _ _] at this
    exact (pixelGap_zero _ _).1 (this x (mem_range.2 hx))
  · intro h y hy
    exact sum_eq_zero fun x hx => (pixelGap_zero _ _).2 (h x y (mem_range.1 hx) (mem_range.1 hy))

theorem pixelGap_le (A B : Decoded) {x y : ℕ} (hx : x < A.w) (hy : y < A.h) : pixelGap (A.at x y) (B.at x y) ≤ totalGap A B :=
  (single_le_sum (f := fun x => pixelGap (A.at x y) (B.at x y)) (fun _ _ => pixelGap_nonneg _ _) (mem_range.2 hx)).trans
    (single_le_sum (f := fun y => ∑ x ∈ range A.w, pixelGap (A.at x y) (B.at x y)) (fun _ _ => sum_nonneg fun _ _ => pixelGap_nonneg _ _)
      (mem_range.2 hy))

theorem goldenDiff_eq (A B : Decoded) : (goldenDiff A B : ℝ) = totalGap A B / (765 * ((A.w : ℝ) + 1) ^ 2) := by
  simp only [goldenDiff, goldenDelta_sum, ofInt_real, lit_real]
  push_cast
  norm_num
  ring_nf

theorem passes_iff (tol : ℝ) (A B : Decoded) : comparePasses tol A B = true ↔ (totalGap A B : ℝ) ≤ tol * (765 * ((A.w : ℝ) + 1) ^ 2) := by
  have h : (0 : ℝ) < 765 * ((A.w : ℝ) + 1) ^ 2 := by positivity
  have e : comparePasses tol A B = true ↔ (goldenDiff A B : ℝ) ≤ tol := by
    simp only [comparePasses, Bool.not_eq_true']
    show decide (tol < goldenDiff A B) = false ↔ _
    simp
  rw [e, goldenDiff_eq, div_le_iff₀ h]

theorem clampOne_cut (c : Color ℝ) : clampOne c = cutOff c := by
  have key : ∀ x : ℝ, fmin (lit 1) x = min 1 x := by
    intro x
    unfold fmin
    show (if decide ((lit 1 : ℝ) < x) = true then (lit 1 : ℝ) else x) = _
    simp only [lit_real, Rat.cast_one, decide_eq_true_eq]
    split
    · exact (min_eq_left (by linarith)).symm
    · exact (min_eq_right (by linarith)).symm
  simp only [clampOne, cutOff, key]

theorem rowsGet_ok {img : List (List (Color ℝ))} {w h : ℕ} {f : ℕ → ℕ → Color ℝ} (hr : Rows img w h f) {x y : ℕ} (hx : x < w) (hy : y < h) :
    rowsGet img x y = .ok (f x y) := by
  obtain ⟨hl, hrow⟩ := hr
  have hy' : y < img.length := by omega
  have e := List.getElem?_eq_getElem hy'
  obtain ⟨hw, hpix⟩ := hrow y _ e
  have e2 := List.getElem?_eq_getElem (l := img[y]) (i := x) (by omega)
  simp only [rowsGet, e, e2, hpix x _ e2]

theorem foldlM_sum (g : ℕ → ℝ) (k : ℝ → ℕ → GoM ℝ) (n : ℕ) (a : ℝ) (h : ∀ i < n, ∀ s, k s i = .ok (s + g i)) :
    (List.range n).foldlM k a = .ok (a + ∑ i ∈ range n, g i) := by
  induction n with
  | zero => simp [pure, Except.pure]
  | succ n ih =>
    rw [List.range_succ, List.foldlM_append, ih fun i hi => h i (by omega), sum_range_succ]
    simp only [ok_bind, List.foldlM_cons, List.foldlM_nil, h n (by omega)]
    simp [pure, Except.pure, add_assoc]

theorem rowsPixels_eq {img : List (List (Color ℝ))} {w h : ℕ} {f : ℕ → ℕ → Color ℝ} (hr : Rows img w h f) : rowsPixels img = w * h := by
  obtain ⟨hl, hrow⟩ := hr
  cases img with
  | nil => simp at hl; simp [rowsPixels, ← hl]
  | cons r t => simp only [rowsPixels, hl, (hrow 0 r rfl).1]

theorem colorGap_nonneg (a b : Color ℝ) : 0 ≤ colorGap a b := by unfold colorGap; positivity

theorem colorGap_zero (a b : Color ℝ) : colorGap a b = 0 ↔ a = b := by
  obtain ⟨a1, a2, a3⟩ := a
  obtain ⟨b1, b2, b3⟩ := b
  simp only [colorGap, Color.mk.injEq]
  constructor
  · intro h
    have e1 := pow_eq_zero_iff (two_ne_zero) |>.1 (show (a1 - b1) ^ 2 = 0 by nlinarith [sq_nonneg (a1 - b1), sq_nonneg (a2 - b2), sq_nonneg (a3 - b3)])
    have e2 := pow_eq_zero_iff (two_ne_zero) |>.1 (show (a2 - b2) ^ 2 = 0 by nlinarith [sq_nonneg (a1 - b1), sq_nonneg (a2 - b2), sq_nonneg (a3 - b3)])
    have e3 := pow_eq_zero_iff (two_ne_zero) |>.1 (show (a3 - b3) ^ 2 = 0 by nlinarith [sq_nonneg (a1 - b1), sq_nonneg (a2 - b2), sq_nonneg (a3 - b3)])
    exact ⟨by linarith, by linarith, by linarith⟩
  · rintro ⟨rfl, rfl, rfl⟩
    simp

theorem rmsError_eq {img golden : List (List (Color ℝ))} {w h w' h' : ℕ} {f g : ℕ → ℕ → Color ℝ} (hf : Rows img w h f) (hg : Rows golden w' h' g)
    (hw : w ≤ w') (hh : h ≤ h') : rmsError img golden =
      .ok (Real.sqrt (∑ y ∈ range h, ∑ x ∈ range w, colorGap (cutOff (f x y)) (cutOff (g x y))) / ((w' : ℝ) * h')) := by
  unfold rmsError
  rw [hf.1, foldlM_sum (fun y => ∑ x ∈ range w, colorGap (cutOff (f x y)) (cutOff (g x y)))]
  · simp only [ok_bind, rowsPixels_eq hg, ofInt_real, lit_real, Rat.cast_zero, zero_add]
    push_cast
    rfl
  · intro y hy s
    have e := List.getElem?_eq_getElem (l := img) (i := y) (by have := hf.1; omega)
    have hrl : (img[y]?.getD []).length = w := by rw [e]; exact (hf.2 y _ e).1
    rw [hrl, foldlM_sum (fun x => colorGap (cutOff (f x y)) (cutOff (g x y)))]
    · simp only [ok_bind, lit_real, Rat.cast_zero, zero_add]
      rfl
    · intro x hx s
      rw [rowsGet_ok hf hx hy, rowsGet_ok hg (by omega) (by omega)]
      simp only [ok_bind, clampOne_cut, Vec.sub, Vec.len2, colorGap]
      show Except.ok _ = _
      congr 1
      ring

end BR
