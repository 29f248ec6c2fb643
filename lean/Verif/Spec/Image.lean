import Verif.Model.Image

/-! Images seen as functions from coordinates to pixels. -/

namespace BR.Img

variable {C : Type}

/-- In the heap `H`, the image `img` has size `w` by `h` and the pixel in column `i`, row `j` is
`f i j`; reading outside is an error. -/
def Shows (H : Heap C) (img : Img) (w h : Nat) (f : Nat → Nat → C) : Prop :=
  ∀ i j : Int, (∀ (x y : Nat), i = x → j = y → x < w → y < h → get H img i j = .ok (f x y)) ∧
    (i < 0 ∨ j < 0 ∨ (w : Int) ≤ i ∨ (h : Int) ≤ j → get H img i j = .error .indexOutOfRange)

/-- The rows have length `w`, there are `h` of them, and they lie within their arrays. -/
structure Valid (H : Heap C) (img : Img) (w h : Nat) : Prop where
  rows : img.length = h
  row : ∀ r ∈ img, r.len = w ∧ r.off + w ≤ (H.getD r.arr []).length

/-- No two pixels of the image share a heap cell. -/
def Simple (img : Img) : Prop := ∀ i j i' j' c, img.cell i j = .ok c → img.cell i' j' = .ok c → i = i' ∧ j = j'

/-- The two images share no pixel. -/
def Apart (a b : Img) : Prop := ∀ i j i' j' c c', a.cell i j = .ok c → b.cell i' j' = .ok c' → c ≠ c'

/-- One write of a history, to the first (`true`) or to the second of two images. -/
structure Write (C : Type) where
  first : Bool
  x : Nat
  y : Nat
  c : C

/-- Perform the writes in order. -/
def writes (a b : Img) (ws : List (Write C)) (H : Heap C) : GoM (Heap C) :=
  ws.foldlM (fun H w => set H (if w.first then a else b) w.x w.y w.c) H

/-- What a picture becomes by those writes of the history that are addressed to it. -/
def paint (first : Bool) (ws : List (Write C)) (f : Nat → Nat → C) : Nat → Nat → C :=
  ws.foldl (fun f w => if w.first = first then fun x y => if x = w.x ∧ y = w.y then w.c else f x y else f) f

end BR.Img
