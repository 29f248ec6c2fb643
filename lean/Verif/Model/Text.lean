import Verif.Model.Geom

/-! Go's text functions used by the mesh parsers. Text is a list of characters (valid UTF-8). -/

namespace BR.Text

/-- `unicode.IsSpace` (Unicode property White_Space). -/
def isSpace (c : Char) : Bool :=
  let n := c.toNat
  (9 ≤ n && n ≤ 13) || n == 32 || n == 0x85 || n == 0xa0 || n == 0x1680 || (0x2000 ≤ n && n ≤ 0x200a) || n == 0x2028 ||
    n == 0x2029 || n == 0x202f || n == 0x205f || n == 0x3000

/-- `strings.Fields`. -/
def fields (s : List Char) : List (List Char) := (s.splitOnP isSpace).filter (· ≠ [])

/-- `strings.TrimSpace`. -/
def trimSpace (s : List Char) : List Char := ((s.dropWhile isSpace).reverse.dropWhile isSpace).reverse

/-- The value of a non-empty string of decimal digits. -/
def digitsValue (s : List Char) : Option Nat :=
  if s ≠ [] ∧ s.all (fun c => 48 ≤ c.toNat && c.toNat ≤ 57) then
    some (s.foldl (fun n c => 10 * n + (c.toNat - 48)) 0)
  else none

/-- `strconv.ParseInt(s, 10, bits)`; `none` is an error. `strconv.Atoi` is the same with 64 bits. -/
def parseInt (bits : Nat) (s : List Char) : Option Int :=
  let pos := fun (ds : List Char) => do
    let n ← digitsValue ds
    if n < 2 ^ (bits - 1) then some (n : Int) else none
  match s with
  | '-' :: ds => do
    let n ← digitsValue ds
    if n ≤ 2 ^ (bits - 1) then some (-(n : Int)) else none
  | '+' :: ds => pos ds
  | ds => pos ds

/-- `strconv.ParseFloat(s, 32)` and `(s, 64)`; `none` is an error. Nothing is assumed about them. -/
structure Reader (F : Type) where
  read32 : List Char → Option F
  read64 : List Char → Option F

/-- `bufio.ScanLines`: one trailing carriage return is dropped. -/
def dropCR (s : List Char) : List Char := if s.getLast? = some '\r' then s.dropLast else s

/-- The tokens of a `bufio.Scanner` that splits at lines, before `dropCR`: the text between line feeds, without an empty
last one. -/
def rawLines (s : List Char) : List (List Char) :=
  let ls := s.splitOn '\n'
  if ls.getLast? = some [] then ls.dropLast else ls

/-- Lines the scanner refuses (`bufio.ErrTooLong`): 64 kB or more. -/
def tooLong (l : List Char) : Bool := 65536 ≤ (l.map fun c => c.utf8Size).sum

/-- The lines `ReadString('\n')` returns without an error: those ended by a line feed. -/
def fullLines (s : List Char) : List (List Char) := (s.splitOn '\n').dropLast

end BR.Text
