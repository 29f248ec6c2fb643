import Mathlib.Data.UInt

/-! A decoder for the NetPBM formats P3 (text) and P6 (binary, two bytes per sample), written from the
format description: magic number, width, height and maximum value separated by white space; then the
samples, row by row and red, green, blue per pixel. -/

namespace BR.Ppm

/-- Space, tab, line feed, carriage return. -/
def isSpace (b : UInt8) : Bool := b == 32 || b == 9 || b == 10 || b == 13

/-- A decoded picture. -/
structure Pic where
  width : Nat
  height : Nat
  maxval : Nat
  samples : List Nat

/-- The value of a string of decimal digits. -/
def number (t : List UInt8) : Option Nat :=
  if t ≠ [] ∧ t.all (fun b => 48 ≤ b && b ≤ 57) then some (t.foldl (fun n b => 10 * n + (b.toNat - 48)) 0) else none

/-- The words of a text. -/
def words (bs : List UInt8) : List (List UInt8) := (bs.splitOnP isSpace).filter (· ≠ [])

/-- Sizes agree and samples are in range. -/
def Pic.check (p : Pic) : Option Pic :=
  if p.samples.length = 3 * p.width * p.height ∧ p.samples.all (· ≤ p.maxval) then some p else none

/-- Decode a P3 file. -/
def decodeP3 (bs : List UInt8) : Option Pic :=
  match words bs with
  | magic :: w :: h :: m :: rest =>
    if magic = [80, 51] then do
      Pic.check ⟨← number w, ← number h, ← number m, ← rest.mapM number⟩
    else none
  | _ => none

/-- The next word and what follows it. -/
def nextWord (bs : List UInt8) : List UInt8 × List UInt8 := (bs.dropWhile isSpace).span fun b => !isSpace b

/-- Big-endian pairs of bytes. -/
def pairs : List UInt8 → Option (List Nat)
  | [] => some []
  | [_] => none
  | a :: b :: bs => do return (a.toNat * 256 + b.toNat) :: (← pairs bs)

/-- Decode a P6 file with two bytes per sample. One white space character separates the header from the
samples. -/
def decodeP6 (bs : List UInt8) : Option Pic :=
  let (magic, bs) := nextWord bs
  let (w, bs) := nextWord bs
  let (h, bs) := nextWord bs
  let (m, bs) := nextWord bs
  match bs with
  | sep :: data =>
    if magic = [80, 54] ∧ isSpace sep then do
      Pic.check ⟨← number w, ← number h, ← number m, ← pairs data⟩
    else none
  | [] => none

end BR.Ppm
