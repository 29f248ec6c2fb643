import Verif.Model.Load
import Verif.Lemmas.GoM
import Mathlib.Tactic.SplitIfs
import Mathlib.Tactic.ByCases
import Mathlib.Tactic.Push

/-! Writing the pixels of an image one by one. -/

namespace BR
set_option linter.unusedSectionVars false

variable {F : Type} [Add F] [Sub F] [Mul F] [Div F] [Neg F] [GoFloat F]

/-- `img` has `h` rows of `w` pixels, given by `f`. -/
def Rows (img : List (List (Color F))) (w h : Nat) (f : Nat → Nat → Color F) : Prop :=
  img.length = h ∧ ∀ (y : Nat) (r : List (Color F)), img[y]? = some r → r.length = w ∧
    ∀ (x : Nat) (c : Color F), r[x]? = some c → c = f x y

theorem zeroRows_rows (w h : Nat) : Rows (zeroRows w h : List (List (Color F))) w h fun _ _ => Color.black := by
  refine ⟨by simp [zeroRows], fun y r hr => ?_⟩
  obtain ⟨-, rfl⟩ : y < h ∧ List.replicate w (Color.black : Color F) = r := by
    simpa [zeroRows, List.getElem?_replicate] using hr
  refine ⟨by simp, fun x c hc => ?_⟩
  obtain ⟨-, rfl⟩ : x < w ∧ (Color.black : Color F) = c := by
    simpa [List.getElem?_replicate] using hc
  rfl

theorem Rows.of_eq {img : List (List (Color F))} {w h : Nat} {f g : Nat → Nat → Color F} (hi : Rows img w h f)
    (e : ∀ x y, x < w → y < h → f x y = g x y) : Rows img w h g := by
  refine ⟨hi.1, fun y r hr => ⟨(hi.2 y r hr).1, fun x c hc => ?_⟩⟩
  have hy : y < h := by rw [← hi.1]; exact (List.getElem?_eq_some_iff.1 hr).1
  have hx : x < w := by rw [← (hi.2 y r hr).1]; exact (List.getElem?_eq_some_iff.1 hc).1
  rw [(hi.2 y r hr).2 x c hc, e x y hx hy]

theorem setPixel_rows {img : List (List (Color F))} {w h : Nat} {f : Nat → Nat → Color F} (hi : Rows img w h f)
    {i j : Nat} (hw : i < w) (hh : j < h) (c : Color F) :
    ∃ img', setPixel img i j c = .ok img' ∧ Rows img' w h fun x y => if x = i ∧ y = j then c else f x y := by
  have hj : j < img.length := by rw [hi.1]; exact hh
  have e1 := List.getElem?_eq_getElem hj
  obtain ⟨hr, hpx⟩ := hi.2 j _ e1
  refine ⟨img.set j (img[j].set i c), ?_, by simpa using hi.1, fun y r hy => ?_⟩
  · unfold setPixel
    rw [if_neg (by omega), Int.toNat_natCast, e1]
    dsimp only
    rw [if_neg (by rw [Int.toNat_natCast]; omega), Int.toNat_natCast]
  · rw [List.getElem?_set] at hy
    by_cases hjy : j = y
    · subst hjy
      rw [if_pos rfl, if_pos hj] at hy
      cases hy
      refine ⟨by simpa using hr, fun x c' hc => ?_⟩
      rw [List.getElem?_set] at hc
      by_cases hix : i = x
      · subst hix
        rw [if_pos rfl, if_pos (by omega)] at hc
        cases hc
        simp
      · rw [if_neg hix] at hc
        show c' = if x = i ∧ j = j then c else f x j
        rw [if_neg (fun h => hix h.1.symm)]
        exact hpx x c' hc
    · rw [if_neg hjy] at hy
      refine ⟨(hi.2 y r hy).1, fun x c' hc => ?_⟩
      show c' = if x = i ∧ y = j then c else f x y
      rw [if_neg (fun h => hjy h.2.symm)]
      exact (hi.2 y r hy).2 x c' hc

/-- Writing a row. -/
theorem writeRow_rows {w h : Nat} (g : Nat → Color F) {j : Nat} (hj : j < h) (n : Nat) (hn : n ≤ w)
    {img : List (List (Color F))} {f : Nat → Nat → Color F} (hi : Rows img w h f) :
    ∃ img', (List.range n).foldlM (fun img (x : Nat) => setPixel img x (j : Int) (g x)) img = .ok img' ∧
      Rows img' w h fun x y => if x < n ∧ y = j then g x else f x y := by
  induction n with
  | zero => exact ⟨img, rfl, by simpa using hi⟩
  | succ n ih =>
    obtain ⟨img1, e1, h1⟩ := ih (by omega)
    obtain ⟨img2, e2, h2⟩ := setPixel_rows h1 (i := n) (by omega) hj (g n)
    refine ⟨img2, ?_, h2.of_eq fun x y _ _ => ?_⟩
    · rw [List.range_succ, List.foldlM_append, e1]
      simp only [ok_bind, List.foldlM_cons, List.foldlM_nil, e2]
      rfl
    · by_cases hx : x = n ∧ y = j
      · rw [if_pos hx, if_pos ⟨by omega, hx.2⟩, hx.1]
      · rw [if_neg hx]
        by_cases hx' : x < n ∧ y = j
        · rw [if_pos hx', if_pos ⟨by omega, hx'.2⟩]
        · rw [if_neg hx', if_neg]
          rintro ⟨h1, h2⟩
          have : x ≠ n := fun h => hx ⟨h, h2⟩
          exact hx' ⟨by omega, h2⟩

/-- The loops of `Load` fill the image, the last row first. -/
theorem loadPixels_rows (cs : F → F) (d : Decoded) :
    ∃ img, loadPixels cs d = .ok img ∧ Rows img d.w d.h fun x y => loadColor cs (d.rgb x (d.h - 1 - y)) := by
  suffices key : ∀ n ≤ d.h, ∃ img, (List.range n).foldlM (fun img (y : Nat) =>
      (List.range d.w).foldlM (fun img (x : Nat) =>
        setPixel img x ((d.h : Int) - 1 - y) (loadColor cs (d.rgb x y))) img) (zeroRows d.w d.h) = .ok img ∧
      Rows img d.w d.h fun x y =>
        if d.h ≤ y + n then loadColor cs (d.rgb x (d.h - 1 - y)) else Color.black by
    obtain ⟨img, e, h⟩ := key d.h le_rfl
    exact ⟨img, e, h.of_eq fun x y _ _ => by rw [if_pos (by omega)]⟩
  intro n hn
  induction n with
  | zero =>
    refine ⟨_, rfl, (zeroRows_rows d.w d.h).of_eq fun x y _ hy => ?_⟩
    rw [if_neg (by omega)]
  | succ n ih =>
    obtain ⟨img1, e1, h1⟩ := ih (by omega)
    have ecast : (d.h : Int) - 1 - (n : Nat) = ((d.h - 1 - n : Nat) : Int) := by omega
    obtain ⟨img2, e2, h2⟩ := writeRow_rows (w := d.w) (h := d.h) (fun x => loadColor cs (d.rgb x n))
      (j := d.h - 1 - n) (by omega) d.w le_rfl h1
    refine ⟨img2, ?_, h2.of_eq fun x y hx hy => ?_⟩
    · rw [List.range_succ, List.foldlM_append, e1]
      simp only [ok_bind, List.foldlM_cons, List.foldlM_nil, ecast, e2]
      rfl
    · by_cases hy' : y = d.h - 1 - n
      · subst hy'
        rw [if_pos ⟨hx, rfl⟩, if_pos (by omega), show d.h - 1 - (d.h - 1 - n) = n by omega]
      · rw [if_neg (fun h => hy' h.2)]
        by_cases hy2 : d.h ≤ y + n
        · rw [if_pos hy2, if_pos (by omega)]
        · rw [if_neg hy2, if_neg (by omega)]

end BR
