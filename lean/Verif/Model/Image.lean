import Verif.Model.Color

/-! Model of `/repo/imagef/image.go`. Pixels live in arrays on a heap, rows are slices of these
arrays, so that images may share pixels. `C` is the pixel type. -/

namespace BR

/-- The arrays of pixels allocated so far. -/
abbrev Heap (C : Type) := List (List C)

/-- A Go slice header: array, offset and length. (The capacity is not used by the code modelled.) -/
structure Slice where
  arr : Nat
  off : Nat
  len : Nat
  deriving DecidableEq

/-- imagef/image.go:11 `Image`, a slice of rows. Simplification: the slice headers of the rows are a
value, since no code modelled overwrites them. -/
abbrev Img := List Slice

namespace Img

variable {C : Type}

/-- imagef/image.go:13-20 `MakeImage`. `make` panics if the length is negative and fills with the
zero value. Simplification: `w*h` does not overflow. -/
def make (zero : C) (w h : Int) (H : Heap C) : GoM (Img × Heap C) :=
  if w * h < 0 then .error (.msg "makeslice: len out of range")
  else if h < 0 then .error (.msg "makeslice: len out of range")
  else .ok ((List.range h.toNat).map fun i => ⟨H.length, i * w.toNat, w.toNat⟩,
    H ++ [List.replicate (w * h).toNat zero])

/-- imagef/image.go:28-33 `Size`, and `Bounds` of lines 22-26. -/
def size (img : Img) : Nat × Nat :=
  match img with
  | [] => (0, 0)
  | r :: _ => (r.len, img.length)

/-- imagef/image.go:35-38 `NumPixels`. -/
def numPixels (img : Img) : Nat := img.size.1 * img.size.2

/-- The heap location of `img[j][i]`; indexing panics when out of range. -/
def cell (img : Img) (i j : Int) : GoM (Nat × Nat) :=
  if j < 0 then .error .indexOutOfRange
  else match img[j.toNat]? with
    | none => .error .indexOutOfRange
    | some r => if i < 0 ∨ (r.len : Int) ≤ i then .error .indexOutOfRange else .ok (r.arr, r.off + i.toNat)

/-- Read a heap cell. Slices never point outside their array; the error case is only there to make
the function total. -/
def load (H : Heap C) (c : Nat × Nat) : GoM C :=
  match (H.getD c.1 [])[c.2]? with
  | none => .error .nilDeref
  | some x => .ok x

/-- Write a heap cell. -/
def store (H : Heap C) (c : Nat × Nat) (x : C) : Heap C := H.modify c.1 (·.set c.2 x)

/-- `img[j][i]`, for instance imagef/image.go:41-43 `At`. -/
def get (H : Heap C) (img : Img) (i j : Int) : GoM C := do load H (← img.cell i j)

/-- `img[j][i] = x`. -/
def set (H : Heap C) (img : Img) (i j : Int) (x : C) : GoM (Heap C) := do return store H (← img.cell i j) x

/-- imagef/image.go:59-61, the loop over `ix` of `Copy`. -/
def copyRow (src dst : Img) (w : Nat) (iy : Nat) (H : Heap C) : GoM (Heap C) :=
  (List.range w).foldlM (fun H (ix : Nat) => do set H dst ix iy (← get H src ix iy)) H

/-- imagef/image.go:55-64 `Copy`. -/
def copy (zero : C) (img : Img) (H : Heap C) : GoM (Img × Heap C) := do
  let w := img.size.1
  let h := img.size.2
  let (cpy, H) ← make zero w h H
  let H ← (List.range h).foldlM (fun H iy => copyRow img cpy w iy H) H
  return (cpy, H)

end Img

end BR
