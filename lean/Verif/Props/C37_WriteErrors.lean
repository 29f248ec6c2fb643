import Verif.Model.Ppm

/-! C37: a failed write makes the encoder return an error.

`logging` runs any writer and remembers whether one of its calls has failed, so the property reads: after
encoding, the encoder reports success only if no call failed. It holds for the text encoder and for the
header of the binary encoder; the pixels of the binary encoder are written without looking at the result. -/

namespace BR.Ppm

set_option linter.unusedSectionVars false

variable {F : Type} [Add F] [Sub F] [Mul F] [Div F] [Neg F] [GoFloat F]
variable {σ : Type}

/-- The writer together with a flag that stays true as long as no write has failed. -/
def logging (write : σ → List UInt8 → σ × Bool) (s : σ × Bool) (bs : List UInt8) : (σ × Bool) × Bool :=
  (((write s.1 bs).1, s.2 && (write s.1 bs).2), (write s.1 bs).2)

variable (write : σ → List UInt8 → σ × Bool)

/-- The result flag is the log. -/
private def Faithful (r : (σ × Bool) × Bool) : Prop := r.1.2 = r.2

private theorem header_faithful (f : List UInt8) (img : List (List (Color F))) (s : σ) :
    Faithful (writeHeader (logging write) f img (s, true)) := by
  unfold writeHeader logging
  dsimp only
  split_ifs with h1 h2 h3 <;> simp_all [Faithful]

private theorem row_faithful (r : List (Color F)) (s : σ) : Faithful (asciiRow (logging write) r (s, true)) := by
  induction r generalizing s with
  | nil => rfl
  | cons c cs ih =>
    unfold asciiRow logging
    dsimp only
    split_ifs with h
    · simp_all [Faithful]
    · simp only [Bool.true_and]
      rw [show (write s _).2 = true by simpa using h]
      exact ih _

private theorem rows_faithful (img : List (List (Color F))) (s : σ) : Faithful (asciiRows (logging write) img (s, true)) := by
  induction img generalizing s with
  | nil => rfl
  | cons r rs ih =>
    unfold asciiRows
    have h0 := row_faithful write r s
    generalize asciiRow (logging write) r (s, true) = p at h0 ⊢
    obtain ⟨⟨s', l⟩, ok⟩ := p
    have h0 : l = ok := h0
    subst h0
    dsimp only
    cases l
    · simp [Faithful]
    · unfold logging
      dsimp only
      simp only [Bool.not_true, Bool.false_eq_true, if_false, Bool.true_and]
      split_ifs with h
      · simp_all [Faithful]
      · rw [show (write s' _).2 = true by simpa using h]
        exact ih _

/-- **C37 (text).** For every image and every writer, the text encoder returns no error exactly when no write
failed. -/
theorem C37_ascii (img : List (List (Color F))) (s : σ) :
    (encodeAscii16 (logging write) img (s, true)).2 = true ↔ (encodeAscii16 (logging write) img (s, true)).1.2 = true := by
  have key : Faithful (encodeAscii16 (logging write) img (s, true)) := by
    unfold encodeAscii16
    have h0 := header_faithful write [80, 51] img s
    generalize writeHeader (logging write) [80, 51] img (s, true) = p at h0 ⊢
    obtain ⟨⟨s', l⟩, ok⟩ := p
    have h0 : l = ok := h0
    subst h0
    dsimp only
    cases l
    · simp [Faithful]
    · simpa using rows_faithful write img s'
  rw [key]

/-- The logging does not change what the writer sees. -/
theorem logging_spec (s : σ × Bool) (bs : List UInt8) :
    ((logging write s bs).1.1, (logging write s bs).2) = write s.1 bs ∧
      ((logging write s bs).1.2 = false ↔ s.2 = false ∨ (write s.1 bs).2 = false) := by
  unfold logging
  refine ⟨rfl, ?_⟩
  cases s.2 <;> simp

/-- **C37 (binary, partial).** The binary encoder returns an error when a write of the header failed.
Missing: failures while writing the pixels, which are not reported (`C37_violated_binary`). -/
theorem C37_binary_partial (img : List (List (Color F))) (s : σ)
    (h : (writeHeader (logging write) [80, 54] img (s, true)).1.2 = false) :
    (encode48BE (logging write) img (s, true)).2 = false := by
  have h0 := header_faithful write [80, 54] img s
  unfold encode48BE
  generalize writeHeader (logging write) [80, 54] img (s, true) = p at h0 h ⊢
  obtain ⟨⟨s', l⟩, ok⟩ := p
  have h0 : l = ok := h0
  subst h0
  have h : l = false := h
  subst h
  rfl

/-- A full disk: the writer accepts `n` writes and fails from then on. -/
def full (n : Nat) (_ : List UInt8) : Nat × Bool := match n with
  | 0 => (0, false)
  | n + 1 => (n, true)

/-- **C37 violated.** With a writer that fails right after the header, so that not a single pixel is written,
the binary encoder reports success, for every image with at least one pixel. -/
theorem C37_violated_binary (img : List (List (Color F))) (h : ∃ r ∈ img, r ≠ []) :
    (encode48BE (logging full) img (3, true)).2 = true ∧ (encode48BE (logging full) img (3, true)).1.2 = false := by
  have row : ∀ (r : List (Color F)) l, (binaryRow (logging full) r (0, l)) = (0, l && r.isEmpty) := by
    intro r
    induction r with
    | nil => intro l; simp [binaryRow]
    | cons c cs ih =>
      intro l
      simp only [binaryRow, logging, full, Bool.and_false, List.isEmpty_cons] at ih ⊢
      rw [ih]
      simp
  have rows : ∀ (img : List (List (Color F))) l, img.foldl (fun s r => binaryRow (logging full) r s) (0, l) =
      (0, l && img.all List.isEmpty) := by
    intro img
    induction img with
    | nil => intro l; simp
    | cons r rs ih => intro l; rw [List.foldl_cons, row, ih]; simp [Bool.and_assoc]
  have e : encode48BE (logging full) img (3, true) =
      (img.foldl (fun s r => binaryRow (logging full) r s) (0, true), true) := by
    simp [encode48BE, writeHeader, logging, full]
  rw [e, rows]
  refine ⟨rfl, ?_⟩
  obtain ⟨r, hr, hne⟩ := h
  simp only [Bool.true_and]
  rw [List.all_eq_false]
  exact ⟨r, hr, by simpa using hne⟩

/-- Non-vacuity: the same full disk makes the text encoder report the error, and a writer with enough room
does not. -/
example (c : Color F) : (encodeAscii16 (logging full) [[c]] (3, true)).2 = false ∧
    (encodeAscii16 (logging full) [[c]] (5, true)).2 = true ∧
    (writeHeader (logging full) [80, 54] [[c]] (2, true)).1.2 = false := by
  refine ⟨?_, ?_, ?_⟩ <;> simp [encodeAscii16, writeHeader, asciiRows, asciiRow, logging, full]

end BR.Ppm
