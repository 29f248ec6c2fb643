import Verif.Model.Sampler
import Verif.Num.Real
import Mathlib.Tactic.Linarith
import Mathlib.Tactic.FieldSimp

/-!
# C07 Pixel coordinates

Exact arithmetic. `indexToCam w h x y` with `x`, `y` real as in the Go signature.
-/

namespace BR

/-- Inside the image (pixel `i` covers `[i-1/2, i+1/2]`) the coordinates are affine in the index,
with pitch `1/w` in both directions, `v` pointing up. -/
theorem C07_affine {w h : Nat} (hw : 0 < w) (hh : 0 < h) (x y : ℝ)
    (hx0 : -1/2 ≤ x) (hx1 : x ≤ w - 1/2) (hy0 : -1/2 ≤ y) (hy1 : y ≤ h - 1/2) :
    indexToCam (w : Int) (h : Int) x y =
      .ok ((x + 1/2) / w, 1/2 + (h / 2 - (y + 1/2)) / w) := by
  have hw' : (w : ℝ) ≠ 0 := by positivity
  have hh' : (h : ℝ) ≠ 0 := by positivity
  unfold indexToCam
  rw [if_neg]
  · simp only [linterp, lit_real, ofInt_real]
    push_cast
    have e1 : (w : ℝ) - 1/2 - -1/2 = w := by ring
    have e2 : (h : ℝ) - 1/2 - -1/2 = h := by ring
    rw [e1, e2]
    congr 2
    · ring
    · field_simp; ring
  · simp only [lt_real, lit_real, ofInt_real, Bool.or_eq_true, decide_eq_true_eq]
    push_cast
    rintro (((h | h) | h) | h) <;> linarith

/-- Indices outside the image are rejected, and only those. -/
theorem C07_rejects (w h : Nat) (x y : ℝ) :
    (∃ e, indexToCam (w : Int) (h : Int) x y = .error e) ↔
      ¬ ((-1/2 ≤ x ∧ x ≤ w - 1/2) ∧ (-1/2 ≤ y ∧ y ≤ h - 1/2)) := by
  unfold indexToCam
  have key : ((x <. lit (-1/2)) || (y <. lit (-1/2)) || ((ofInt (w : Int) : ℝ) - lit (1/2) <. x)
      || ((ofInt (h : Int) : ℝ) - lit (1/2) <. y)) = true
      ↔ ¬ ((-1/2 ≤ x ∧ x ≤ w - 1/2) ∧ (-1/2 ≤ y ∧ y ≤ h - 1/2)) := by
    simp only [lt_real, lit_real, ofInt_real, Bool.or_eq_true, decide_eq_true_eq]
    push_cast
    constructor
    · rintro (((h | h) | h) | h) <;> rintro ⟨⟨h1, h2⟩, h3, h4⟩ <;> linarith
    · intro hn
      by_contra hc
      push Not at hc
      exact hn ⟨⟨hc.1.1.1, hc.1.2⟩, hc.1.1.2, hc.2⟩
  rw [← key]
  simp only []
  split
  next h1 => exact ⟨fun _ => h1, fun _ => ⟨_, rfl⟩⟩
  next h1 => exact ⟨fun ⟨e, he⟩ => by simp at he, fun h => absurd h h1⟩

/-- The image centre is the middle of the camera plane. -/
theorem C07_centre {w h : Nat} (hw : 0 < w) (hh : 0 < h) :
    indexToCam (w : Int) (h : Int) (((w : ℝ) - 1) / 2) (((h : ℝ) - 1) / 2) = .ok (1/2, 1/2) := by
  have h1 : (1 : ℝ) ≤ w := by exact_mod_cast hw
  have h2 : (1 : ℝ) ≤ h := by exact_mod_cast hh
  rw [C07_affine hw hh _ _ (by linarith) (by linarith) (by linarith) (by linarith)]
  have hw' : (w : ℝ) ≠ 0 := by positivity
  congr 2
  · field_simp; ring
  · field_simp; ring

/-- Pixels keep their order and distance: moving `d` pixels right adds `d/w` to `u`, moving `d` pixels
down subtracts `d/w` from `v`: same pitch in both directions, distinct pixels distinct points. -/
theorem C07_pitch {w h : Nat} (x y x' y' : Nat) (hx : x < w) (hy : y < h)
    (hx' : x' < w) (hy' : y' < h) :
    ∃ u v u' v', indexToCam (w : Int) (h : Int) (ofInt x : ℝ) (ofInt y) = .ok (u, v) ∧
      indexToCam (w : Int) (h : Int) (ofInt x' : ℝ) (ofInt y') = .ok (u', v') ∧
      u' - u = ((x' : ℝ) - x) / w ∧ v' - v = -((y' : ℝ) - y) / w ∧
      ((u, v) = (u', v') → (x, y) = (x', y')) := by
  have hw : 0 < w := by omega
  have hh : 0 < h := by omega
  have c : ∀ {a b : Nat}, a < b → -1/2 ≤ (a : ℝ) ∧ (a : ℝ) ≤ b - 1/2 := by
    intro a b hab
    have h1 : (a : ℝ) + 1 ≤ b := by exact_mod_cast hab
    have h2 : (0 : ℝ) ≤ a := Nat.cast_nonneg _
    constructor <;> linarith
  have hw' : (w : ℝ) ≠ 0 := by positivity
  have hw'' : (0 : ℝ) < w := by positivity
  refine ⟨_, _, _, _, C07_affine hw hh _ _ (by simpa using (c hx).1) (by simpa using (c hx).2)
    (by simpa using (c hy).1) (by simpa using (c hy).2),
    C07_affine hw hh _ _ (by simpa using (c hx').1) (by simpa using (c hx').2)
    (by simpa using (c hy').1) (by simpa using (c hy').2), ?_, ?_, ?_⟩
  · simp only [ofInt_real]; push_cast; field_simp; ring
  · simp only [ofInt_real]; push_cast; field_simp; ring
  · simp only [ofInt_real, Prod.mk.injEq]
    push_cast
    rintro ⟨e1, e2⟩
    have e1' : (x : ℝ) + 1/2 = x' + 1/2 := by
      have := congrArg (· * (w : ℝ)) e1; simpa [div_mul_cancel₀ _ hw'] using this
    have e2' : (h : ℝ) / 2 - (y + 1/2) = h / 2 - (y' + 1/2) := by
      have e2 : ((h : ℝ) / 2 - (y + 1/2)) / w = (h / 2 - (y' + 1/2)) / w := by linarith
      have := congrArg (· * (w : ℝ)) e2; simpa [div_mul_cancel₀ _ hw'] using this
    exact ⟨by exact_mod_cast (by linarith : (x : ℝ) = x'), by exact_mod_cast (by linarith : (y : ℝ) = y')⟩

/-- Landscape and square images: pixel centres are strictly inside the unit square. -/
theorem C07_inside_partial {w h : Nat} (hland : h ≤ w) (x y : Nat) (hx : x < w) (hy : y < h) :
    ∃ u v, indexToCam (w : Int) (h : Int) (ofInt x : ℝ) (ofInt y) = .ok (u, v) ∧
      0 < u ∧ u < 1 ∧ 0 < v ∧ v < 1 := by
  have hw : 0 < w := by omega
  have hh : 0 < h := by omega
  have h1 : (x : ℝ) + 1 ≤ w := by exact_mod_cast hx
  have h2 : (y : ℝ) + 1 ≤ h := by exact_mod_cast hy
  have h3 : (0 : ℝ) ≤ x := Nat.cast_nonneg _
  have h4 : (0 : ℝ) ≤ y := Nat.cast_nonneg _
  have h5 : (h : ℝ) ≤ w := by exact_mod_cast hland
  have hw' : (0 : ℝ) < w := by positivity
  refine ⟨_, _, C07_affine hw hh _ _ ?_ ?_ ?_ ?_, ?_, ?_, ?_, ?_⟩ <;>
    simp only [ofInt_real, Int.cast_natCast]
  · linarith
  · linarith
  · linarith
  · linarith
  · positivity
  · rw [div_lt_one hw']; linarith
  · have : -(1/2) < ((h : ℝ) / 2 - (y + 1/2)) / w := by rw [lt_div_iff₀ hw']; linarith
    linarith
  · have : ((h : ℝ) / 2 - (y + 1/2)) / w < 1/2 := by rw [div_lt_iff₀ hw']; linarith
    linarith

/-- Portrait images violate it: in every image with `w < h - 1` the top pixel row lies outside the
unit square, contrary to the documentation of `IndexToCam`. -/
theorem C07_violated {w h : Nat} (hw : 0 < w) (hport : w + 1 < h) :
    ∃ u v, indexToCam (w : Int) (h : Int) (ofInt 0 : ℝ) (ofInt 0) = .ok (u, v) ∧ 1 < v := by
  have h5 : (w : ℝ) + 1 < h := by exact_mod_cast hport
  have hw1 : (1 : ℝ) ≤ w := by exact_mod_cast hw
  have hw' : (0 : ℝ) < w := by positivity
  refine ⟨_, _, C07_affine hw (by omega) _ _ ?_ ?_ ?_ ?_, ?_⟩ <;>
    simp only [ofInt_real, Int.cast_zero]
  · norm_num
  · linarith
  · norm_num
  · linarith
  · have : 1/2 < ((h : ℝ) / 2 - (0 + 1/2)) / w := by rw [lt_div_iff₀ hw']; linarith
    linarith

/-- Non-vacuity: pixel (0,0) of a 4x2 image is at (1/8, 5/8). -/
example : indexToCam 4 2 (0 : ℝ) 0 = .ok (1/8, 5/8) := by
  have := C07_affine (w := 4) (h := 2) (by norm_num) (by norm_num) 0 0 (by norm_num) (by norm_num)
    (by norm_num) (by norm_num)
  norm_num at this
  exact this

end BR
