import Verif.Lemmas.Ppm
import Verif.Props.C38_SRGB
import Mathlib.Tactic.NormNum

/-! C36: decoding a written NetPBM file gives back the size and every pixel as a 16-bit level.

The decoder (`Spec/Ppm.lean`) is written from the format description. The writer is a buffer that takes
everything; what happens when a write fails is the subject of C37. -/

namespace BR.Ppm

set_option linter.unusedSectionVars false

variable {F : Type} [Add F] [Sub F] [Mul F] [Div F] [Neg F] [GoFloat F]

/-- A buffer: every write is appended and succeeds. -/
def buffer (s bs : List UInt8) : List UInt8 × Bool := (s ++ bs, true)

/-- The three levels of a pixel. -/
def levels (c : Color F) : List Nat := [(trunc c.R).toNat, (trunc c.G).toNat, (trunc c.B).toNat]

/-- All rows are as long as the first. -/
def Rectangular (img : List (List (Color F))) : Prop := ∀ r ∈ img, r.length = (size img).1

/-- The text of one row. -/
private def rowText (r : List (Color F)) : List UInt8 :=
  (r.map fun c => decimal (trunc c.R).toNat ++ [32] ++ decimal (trunc c.G).toNat ++ [32] ++
    decimal (trunc c.B).toNat ++ [32]).flatten

private theorem writeHeader_buffer (f : List UInt8) (img : List (List (Color F))) (s : List UInt8) :
    writeHeader buffer f img s = (s ++ (f ++ [10]) ++ (decimal (size img).1 ++ [32] ++ decimal (size img).2 ++ [10]) ++
      (decimal 65535 ++ [10]), true) := by
  simp [writeHeader, buffer]

private theorem asciiRow_buffer (r : List (Color F)) (s : List UInt8) :
    asciiRow buffer r s = (s ++ rowText r, true) := by
  induction r generalizing s with
  | nil => simp [asciiRow, rowText]
  | cons c cs ih =>
    simp only [asciiRow, buffer, Bool.not_true, Bool.false_eq_true, if_false] at ih ⊢
    rw [ih]
    simp [rowText]

private theorem asciiRows_buffer (img : List (List (Color F))) (s : List UInt8) :
    asciiRows buffer img s = (s ++ (img.map fun r => rowText r ++ [10]).flatten, true) := by
  induction img generalizing s with
  | nil => simp [asciiRows]
  | cons r rs ih =>
    rw [asciiRows, asciiRow_buffer]
    simp only [buffer, Bool.not_true, Bool.false_eq_true, if_false] at ih ⊢
    rw [ih]
    simp

private theorem words_row (r : List (Color F)) (bs : List UInt8) :
    words (rowText r ++ bs) = (r.flatMap fun c => (levels c).map decimal) ++ words bs := by
  induction r with
  | nil => simp [rowText]
  | cons c cs ih =>
    have e : rowText (c :: cs) ++ bs = decimal (trunc c.R).toNat ++ 32 :: (decimal (trunc c.G).toNat ++ 32 ::
        (decimal (trunc c.B).toNat ++ 32 :: (rowText cs ++ bs))) := by simp [rowText]
    rw [e, words_decimal _ (by decide), words_decimal _ (by decide), words_decimal _ (by decide), ih]
    simp [levels]

private theorem words_rows (img : List (List (Color F))) :
    words (img.map fun r => rowText r ++ [10]).flatten = img.flatten.flatMap fun c => (levels c).map decimal := by
  induction img with
  | nil => simp [words]
  | cons r rs ih =>
    have e : ((r :: rs).map fun r => rowText r ++ [10]).flatten = rowText r ++ 10 :: (rs.map fun r => rowText r ++ [10]).flatten := by
      simp
    rw [e, words_row, words_cons_space (by decide), ih]
    simp

private theorem mapM_number (L : List Nat) : (L.map decimal).mapM number = some L := by
  induction L with
  | nil => rfl
  | cons n L ih => simp [List.mapM_cons, number_decimal, ih]

private theorem flatMap_decimal (cs : List (Color F)) :
    (cs.flatMap fun c => (levels c).map decimal) = (cs.flatMap levels).map decimal := by
  rw [List.map_flatMap]

private theorem levels_le {cs : List (Color F)} {n : Nat} (h : n ∈ cs.flatMap levels) : n ≤ 65535 := by
  obtain ⟨c, -, h⟩ := List.mem_flatMap.1 h
  have h1 := trunc_range c.R
  have h2 := trunc_range c.G
  have h3 := trunc_range c.B
  simp only [levels, List.mem_cons, List.not_mem_nil, or_false] at h
  omega

private theorem length_levels (cs : List (Color F)) : (cs.flatMap levels).length = 3 * cs.length := by
  induction cs with
  | nil => rfl
  | cons c cs ih => rw [List.flatMap_cons, List.length_append, ih]; simp only [levels, List.length_cons, List.length_nil]; omega

private theorem length_flatten {img : List (List (Color F))} (h : Rectangular img) :
    img.flatten.length = (size img).1 * (size img).2 := by
  have key : ∀ (L : List (List (Color F))) w, (∀ r ∈ L, r.length = w) → L.flatten.length = w * L.length := by
    intro L w
    induction L with
    | nil => intro _; rfl
    | cons r L ih =>
      intro h
      rw [List.flatten_cons, List.length_append, ih fun r hr => h r (by simp [hr]), h r (by simp), List.length_cons]
      ring
  rw [key img _ h]
  cases img <;> simp [size]

private theorem check_ok {img : List (List (Color F))} (h : Rectangular img) :
    Pic.check ⟨(size img).1, (size img).2, 65535, img.flatten.flatMap levels⟩ =
      some ⟨(size img).1, (size img).2, 65535, img.flatten.flatMap levels⟩ := by
  unfold Pic.check
  rw [if_pos]
  refine ⟨?_, ?_⟩
  · rw [length_levels, length_flatten h, mul_assoc]
  · rw [List.all_eq_true]
    intro n hn
    simpa using levels_le hn

/-- **C36 (text).** Writing any rectangular image as text succeeds, and decoding the file gives the width,
the height, the maximum 65535 and the levels of the pixels in scan order. No assumption on the numbers: NaN and
infinite colours are included. -/
theorem C36_ascii (img : List (List (Color F))) (h : Rectangular img) :
    ∃ file, encodeAscii16 buffer img [] = (file, true) ∧
      decodeP3 file = some ⟨(size img).1, (size img).2, 65535, img.flatten.flatMap levels⟩ := by
  unfold encodeAscii16
  rw [writeHeader_buffer]
  simp only [Bool.not_true, Bool.false_eq_true, if_false, asciiRows_buffer]
  refine ⟨_, rfl, ?_⟩
  have e : ∀ body : List UInt8, [] ++ ([80, 51] ++ [10]) ++ (decimal (size img).1 ++ [32] ++ decimal (size img).2 ++ [10]) ++
      (decimal 65535 ++ [10]) ++ body = [80, 51] ++ 10 :: (decimal (size img).1 ++ 32 :: (decimal (size img).2 ++ 10 ::
        (decimal 65535 ++ 10 :: body))) := by simp
  unfold decodeP3
  rw [e, words_append (by decide) (by decide) (by decide), words_decimal _ (by decide), words_decimal _ (by decide),
    words_decimal _ (by decide), words_rows, flatMap_decimal]
  simp only [if_true, number_decimal, mapM_number]
  exact check_ok h

private theorem binaryRow_buffer (r : List (Color F)) (s : List UInt8) :
    binaryRow buffer r s = s ++ r.flatMap fun c => uint16BE (trunc c.R) ++ uint16BE (trunc c.G) ++ uint16BE (trunc c.B) := by
  induction r generalizing s with
  | nil => simp [binaryRow]
  | cons c cs ih =>
    simp only [binaryRow, buffer] at ih ⊢
    rw [ih]
    simp

private theorem binaryRows_buffer (img : List (List (Color F))) (s : List UInt8) :
    img.foldl (fun s r => binaryRow buffer r s) s = s ++ img.flatten.flatMap fun c =>
      uint16BE (trunc c.R) ++ uint16BE (trunc c.G) ++ uint16BE (trunc c.B) := by
  induction img generalizing s with
  | nil => simp
  | cons r rs ih => rw [List.foldl_cons, ih, binaryRow_buffer]; simp

private theorem pairs_pixels (cs : List (Color F)) :
    pairs (cs.flatMap fun c => uint16BE (trunc c.R) ++ uint16BE (trunc c.G) ++ uint16BE (trunc c.B)) =
      some (cs.flatMap levels) := by
  induction cs with
  | nil => rfl
  | cons c cs ih =>
    have h1 := trunc_range c.R
    have h2 := trunc_range c.G
    have h3 := trunc_range c.B
    rw [List.flatMap_cons, List.append_assoc, List.append_assoc, pairs_uint16 _ h1.1 h1.2, pairs_uint16 _ h2.1 h2.2,
      pairs_uint16 _ h3.1 h3.2, ih]
    simp [levels]

/-- **C36 (binary).** The same for the binary format. -/
theorem C36_binary (img : List (List (Color F))) (h : Rectangular img) :
    ∃ file, encode48BE buffer img [] = (file, true) ∧
      decodeP6 file = some ⟨(size img).1, (size img).2, 65535, img.flatten.flatMap levels⟩ := by
  unfold encode48BE
  rw [writeHeader_buffer]
  simp only [Bool.not_true, Bool.false_eq_true, if_false, binaryRows_buffer]
  refine ⟨_, rfl, ?_⟩
  have e : ∀ body : List UInt8, [] ++ ([80, 54] ++ [10]) ++ (decimal (size img).1 ++ [32] ++ decimal (size img).2 ++ [10]) ++
      (decimal 65535 ++ [10]) ++ body = [80, 54] ++ 10 :: (decimal (size img).1 ++ 32 :: (decimal (size img).2 ++ 10 ::
        (decimal 65535 ++ 10 :: body))) := by simp
  unfold decodeP6
  rw [e, nextWord_append (by decide) (by decide) (by decide)]
  dsimp only
  rw [nextWord_space (by decide), nextWord_decimal _ (by decide)]
  dsimp only
  rw [nextWord_space (by decide), nextWord_decimal _ (by decide)]
  dsimp only
  rw [nextWord_space (by decide), nextWord_decimal _ (by decide)]
  dsimp only
  rw [if_pos ⟨rfl, by decide⟩, pairs_pixels]
  simp only [number_decimal]
  exact check_ok h

/-- **C36 (size).** The binary file is the three header lines followed by exactly six bytes per pixel. -/
theorem C36_binary_size (img : List (List (Color F))) (h : Rectangular img) :
    ∃ data, (encode48BE buffer img []).1 = [80, 54, 10] ++ (decimal (size img).1 ++ [32] ++ decimal (size img).2 ++ [10]) ++
        [54, 53, 53, 51, 53, 10] ++ data ∧ data.length = 6 * ((size img).1 * (size img).2) := by
  have e5 : decimal 65535 ++ [10] = [54, 53, 53, 51, 53, 10] := by simp [decimal]
  unfold encode48BE
  rw [writeHeader_buffer]
  simp only [Bool.not_true, Bool.false_eq_true, if_false, binaryRows_buffer]
  refine ⟨img.flatten.flatMap fun c => uint16BE (trunc c.R) ++ uint16BE (trunc c.G) ++ uint16BE (trunc c.B), by
    rw [← e5]; simp only [List.nil_append, List.cons_append], ?_⟩
  rw [← length_flatten h]
  generalize img.flatten = cs
  induction cs with
  | nil => rfl
  | cons c cs ih =>
    rw [List.flatMap_cons, List.length_append, ih]
    simp only [uint16BE, List.length_append, List.length_cons, List.length_nil]
    omega

/-- **C36.** The level of a channel is the sRGB value scaled to 65535 and rounded down, so it is off by less
than one level. -/
theorem C36_level (c : ℝ) : ((trunc c).toNat : ℝ) ≤ 65535 * linearToSRGB c ∧ 65535 * linearToSRGB c < (trunc c).toNat + 1 := by
  obtain ⟨h0, h1⟩ := C38_range c
  have hf : GoFloat.trunc (linearToSRGB c * lit 65535) = ⌊65535 * linearToSRGB c⌋ := by
    rw [trunc_real, lit_real, mul_comm]
    unfold realTrunc
    rw [if_pos (by push_cast; positivity)]
    push_cast
    rfl
  have a0 : 0 ≤ ⌊65535 * linearToSRGB c⌋ := Int.floor_nonneg.2 (by positivity)
  have a1 : ⌊65535 * linearToSRGB c⌋ ≤ 65535 := by
    have : 65535 * linearToSRGB c ≤ ((65535 : ℤ) : ℝ) := by push_cast; linarith
    exact_mod_cast (Int.floor_le _).trans this
  have e : trunc c = ⌊65535 * linearToSRGB c⌋ := by
    unfold trunc
    dsimp only
    rw [hf, if_neg (by omega), if_neg (by omega)]
  have e2 : ((trunc c).toNat : ℝ) = (⌊65535 * linearToSRGB c⌋ : ℝ) := by
    rw [e]; exact_mod_cast congrArg (Int.cast (R := ℝ)) (Int.toNat_of_nonneg a0)
  rw [e2]
  exact ⟨Int.floor_le _, Int.lt_floor_add_one _⟩

/-- Non-vacuity: a two by one image. -/
example (a b : Color ℝ) : Rectangular [[a], [b]] ∧ size [[a], [b]] = (1, 2) :=
  ⟨by intro r hr; simp at hr; rcases hr with rfl | rfl <;> rfl, rfl⟩

end BR.Ppm
