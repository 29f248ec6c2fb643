import Verif.Model.Text

/-! What it means for text to spell words, lines and numbers. -/

namespace BR.Text

/-- The characters with the Unicode property White_Space: tab, line feed, vertical tab, form feed, carriage return, space,
next line, no-break space and the wide and narrow spaces and separators beyond. -/
def white (c : Char) : Bool :=
  decide (c ∈ ['\t', '\n', '\x0b', '\x0c', '\r', ' ', '\x85', '\xa0', '\u1680', '\u2000', '\u2001', '\u2002', '\u2003', '\u2004',
    '\u2005', '\u2006', '\u2007', '\u2008', '\u2009', '\u200a', '\u2028', '\u2029', '\u202f', '\u205f', '\u3000'])

/-- The number of bytes of a text in UTF-8. -/
def byteLength (l : List Char) : Nat := (l.flatMap String.utf8EncodeChar).length

/-- `Spells ws l`: the line `l` consists of the words `ws`, separated by white space and with any white space around. -/
inductive Spells : List (List Char) → List Char → Prop
  | nil (pad : List Char) : (∀ c ∈ pad, white c) → Spells [] pad
  | cons (pad w rest : List Char) (ws : List (List Char)) : (∀ c ∈ pad, white c) → w ≠ [] → (∀ c ∈ w, ¬ white c) →
      (∀ c ∈ rest.head?, white c) → Spells ws rest → Spells (w :: ws) (pad ++ (w ++ rest))

/-- The value of a list of decimal digits, most significant first. -/
def decimalValue (ds : List (Fin 10)) : Nat := ds.foldl (fun (n : Nat) (d : Fin 10) => 10 * n + d) 0

/-- `w` is a string of at least one decimal digit with value `n`. -/
def Digits (w : List Char) (n : Nat) : Prop :=
  ∃ ds : List (Fin 10), ds ≠ [] ∧ w = ds.map (fun d : Fin 10 => Char.ofNat (48 + d)) ∧ n = decimalValue ds

/-- `w` is a decimal integer, with an optional sign, with value `z`. -/
def Integer (w : List Char) (z : Int) : Prop :=
  (∃ n, Digits w n ∧ z = n) ∨ (∃ t n, w = '+' :: t ∧ Digits t n ∧ z = n) ∨ (∃ t n, w = '-' :: t ∧ Digits t n ∧ z = -(n : Int))

/-- Every line of `ls` ended by a line feed. -/
def unlines (ls : List (List Char)) : List Char := ls.flatMap (· ++ ['\n'])

/-- `t` is `l` without the white space around it. -/
def Trimmed (l t : List Char) : Prop :=
  ∃ a b, l = a ++ (t ++ b) ∧ (∀ c ∈ a, white c) ∧ (∀ c ∈ b, white c) ∧ (∀ c ∈ t.head?, ¬ white c) ∧
    ∀ c ∈ t.getLast?, ¬ white c

end BR.Text
