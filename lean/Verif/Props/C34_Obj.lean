import Verif.Lemmas.Wavefront
import Verif.Num.Flo
import Mathlib.Tactic.NormNum

/-! C34: parsing Wavefront OBJ files. The value a decimal numeral has for `strconv.ParseFloat` is a parameter. -/

namespace BR

open Text Wavefront

variable {F : Type}

/-- A file is accepted if and only if each of its lines means something (and is shorter than 64 kB), and then the result
has exactly the vertices and, for each material, the faces that are written, in order. -/
theorem C34_exact (rd : Reader F) (lines : List (List Char)) (text : List Char) (ht : IsText lines text)
    (vs : List (Vec F)) (fs : List Char → List (List Int)) :
    Wavefront.parse rd text = some (vs, fs) ↔
      (∀ l ∈ lines, byteLength l < 65536) ∧
        ∃ items, List.Forall₂ (fun l it => ∃ ws, Spells ws l ∧ Means rd ws it) lines items ∧
          vs = verticesOf items ∧ ∀ m, fs m = facesOf m [] items := by
  have hmean : ∀ (l : List Char) (it : Item F), (∃ ws, Spells ws l ∧ Means rd ws it) ↔ Means rd (fields l) it := by
    intro l it
    constructor
    · rintro ⟨ws, h, hm⟩; rwa [fields_of_spells h]
    · intro h; exact ⟨_, fields_iff.1 rfl, h⟩
  have hlong : ∀ l, byteLength l < 65536 ↔ ¬ tooLong l := fun l => by rw [tooLong_iff, not_le]
  simp only [hmean, hlong]
  unfold Wavefront.parse parseLines
  rw [rawLines_of_isText ht]
  constructor
  · intro h
    split at h
    · rename_i st hst
      obtain ⟨h1, items, h2, rfl⟩ := (foldlM_lines _ _ _ _).1 hst
      cases h
      have := foldl_items St.init items
      exact ⟨h1, items, h2, by simpa [St.init] using this.1, fun m => by simpa [St.init] using this.2 m⟩
    · cases h
  · rintro ⟨h1, items, h2, rfl, h4⟩
    rw [(foldlM_lines rd lines St.init _).2 ⟨h1, items, h2, rfl⟩]
    have := foldl_items (St.init : St F) items
    simp only [Option.some.injEq, Prod.mk.injEq]
    exact ⟨by simpa [St.init] using this.1, funext fun m => by simpa [St.init, h4] using this.2 m⟩

/-- Every text consists of lines, in one way only. -/
theorem C34_lines (text : List Char) : ∃! lines, IsText lines text := by
  refine ⟨rawLines text, ?_, fun lines h => (rawLines_of_isText h).symm⟩
  obtain ⟨ls, tail, h, ht, rfl⟩ := exists_unlines text
  by_cases h0 : tail = []
  · subst h0
    rw [List.append_nil, rawLines_unlines _ h]
    exact ⟨h, .inl rfl⟩
  · rw [rawLines_open _ h _ ht h0]
    refine ⟨?_, .inr ⟨ls, tail, rfl, h0, rfl⟩⟩
    intro l hl
    rcases List.mem_append.1 hl with hl | hl
    · exact h l hl
    · simp at hl; subst hl; exact ht

/-- One line that means nothing makes the whole file an error. -/
theorem C34_malformed (rd : Reader F) (lines : List (List Char)) (text : List Char) (ht : IsText lines text)
    (l : List Char) (hl : l ∈ lines) (ws : List (List Char)) (hs : Spells ws l) (hm : ∀ it, ¬ Means rd ws it) :
    Wavefront.parse rd text = none := by
  cases h : Wavefront.parse rd text with
  | none => rfl
  | some r =>
    obtain ⟨-, items, h2, -⟩ := (C34_exact rd lines text ht r.1 r.2).1 h
    exfalso
    clear * - h2 hl hs hm
    induction h2 with
    | nil => cases hl
    | cons hd _ ih =>
      rcases List.mem_cons.1 hl with rfl | hl
      · obtain ⟨ws', hs', hm'⟩ := hd
        rw [← fields_of_spells hs, fields_of_spells hs'] at hm
        exact hm _ hm'
      · exact ih hl

/-- The panics inside the parser are its own `error` values, which `ParseFile` returns: no slice index is out of range. -/
theorem C34_errors (rd : Reader F) (text : List Char) (p : Panic) (h : parseLines rd text = .error p) :
    p = .msg "obj: error" := by
  have hcheck : ∀ {α : Type} {o : Option α} {p}, check o = .error p → p = .msg "obj: error" := by
    intro α o p h; cases o <;> cases h; rfl
  have hbind : ∀ {α β : Type} {x : GoM α} {f : α → GoM β}, (∀ p, x = .error p → p = .msg "obj: error") →
      (∀ a p, f a = .error p → p = .msg "obj: error") → ∀ p, (x >>= f) = .error p → p = .msg "obj: error" := by
    intro α β x f hx hf p h
    cases x with
    | error e => rw [error_bind] at h; cases h; exact hx _ rfl
    | ok a => exact hf a p h
  have hidx : ∀ w p, parseIndex w = .error p → p = .msg "obj: error" := by
    intro w p h
    unfold parseIndex at h
    refine hbind (fun p h => hcheck h) (fun a p h => ?_) p h
    split at h <;> cases h
    rfl
  have hmap : ∀ (ws : List (List Char)) p, ws.mapM parseIndex = .error p → p = .msg "obj: error" := by
    intro ws
    induction ws with
    | nil => intro p h; rw [List.mapM_nil] at h; cases h
    | cons w ws ih =>
      intro p h
      rw [List.mapM_cons] at h
      exact hbind (hidx w) (fun a p h => hbind ih (fun b p h => by cases h) p h) p h
  have hline : ∀ st l p, parseLine rd st l = .error p → p = .msg "obj: error" := by
    intro st l p h
    unfold parseLine at h
    split at h
    · cases h
    · split_ifs at h
      · unfold parseV at h
        split at h
        · split at h
          · exact hbind (fun p h => hcheck h) (fun a p h => hbind (fun p h => hcheck h) (fun a p h =>
              hbind (fun p h => hcheck h) (fun a p h => by cases h) p h) p h) p h
          · cases h; rfl
        · cases h; rfl
      · unfold parseF at h
        split at h
        · exact hbind (hmap _) (fun a p h => by cases h) p h
        · cases h; rfl
      · unfold parseUsemtl at h
        split at h <;> cases h
        rfl
      · cases h; rfl
  have hfold : ∀ (ls : List (List Char)) st p,
      ls.foldlM (fun st l => if tooLong l then errorf else parseLine rd st (dropCR l)) st = .error p → p = .msg "obj: error" := by
    intro ls
    induction ls with
    | nil => intro st p h; rw [List.foldlM_nil] at h; cases h
    | cons l ls ih =>
      intro st p h
      rw [List.foldlM_cons] at h
      refine hbind (fun p h => ?_) (fun st p h => ih st p h) p h
      split at h
      · cases h; rfl
      · exact hline _ _ _ h
  exact hfold _ _ _ h

/-- A reader that knows the numerals 0 and 1. -/
private def rd01 : Reader ℝ := ⟨fun w => (digitsValue w).map fun n => (n : ℝ), fun w => (digitsValue w).map fun n => (n : ℝ)⟩

/-- The hypotheses of `C34_exact` are met by a small file with two materials. -/
example : Wavefront.parse rd01 "# cube\nv 0 1 2\r\n usemtl red\nf 1/1 2/2/2 3//3\nusemtl blue\nf 4 5 6 7".toList =
    some ([⟨0, 1, 2⟩], fun m => if m = "red".toList then [[0, 1, 2]] else if m = "blue".toList then [[3, 4, 5, 6]] else []) := by
  have ht : IsText ["# cube".toList, "v 0 1 2\r".toList, " usemtl red".toList, "f 1/1 2/2/2 3//3".toList, "usemtl blue".toList,
      "f 4 5 6 7".toList] "# cube\nv 0 1 2\r\n usemtl red\nf 1/1 2/2/2 3//3\nusemtl blue\nf 4 5 6 7".toList :=
    ⟨by decide, .inr ⟨["# cube".toList, "v 0 1 2\r".toList, " usemtl red".toList, "f 1/1 2/2/2 3//3".toList,
      "usemtl blue".toList], "f 4 5 6 7".toList, by decide, by decide, by decide⟩⟩
  have hi : ∀ w r, parseIndex w = .ok r → IndexWord w (r + 1) := fun w r => (parseIndex_iff w r).1
  rw [C34_exact rd01 _ _ ht]
  refine ⟨by decide, [.nothing, .vertex ⟨0, 1, 2⟩, .material "red".toList, .face [1, 2, 3], .material "blue".toList,
    .face [4, 5, 6, 7]], ?_, rfl, ?_⟩
  · refine .cons ⟨["#".toList, "cube".toList], fields_iff.1 (by decide), .inr ⟨_, _, rfl, by decide⟩⟩ ?_
    refine .cons ⟨["v".toList, "0".toList, "1".toList, "2".toList], fields_iff.1 (by decide),
      "0".toList, "1".toList, "2".toList, .inl rfl, ?_, ?_, ?_⟩ ?_
    · have : digitsValue "0".toList = some 0 := by decide
      simp only [rd01, this]; norm_num
    · have : digitsValue "1".toList = some 1 := by decide
      simp only [rd01, this]; norm_num
    · have : digitsValue "2".toList = some 2 := by decide
      simp only [rd01, this]; norm_num
    refine .cons ⟨["usemtl".toList, "red".toList], fields_iff.1 (by decide), rfl⟩ ?_
    refine .cons ⟨["f".toList, "1/1".toList, "2/2/2".toList, "3//3".toList], fields_iff.1 (by decide), _, rfl, .inl rfl,
      .cons (hi _ 0 (by decide)) (.cons (hi _ 1 (by decide)) (.cons (hi _ 2 (by decide)) .nil))⟩ ?_
    refine .cons ⟨["usemtl".toList, "blue".toList], fields_iff.1 (by decide), rfl⟩ ?_
    exact .cons ⟨["f".toList, "4".toList, "5".toList, "6".toList, "7".toList], fields_iff.1 (by decide), _, rfl, .inr rfl,
      .cons (hi _ 3 (by decide)) (.cons (hi _ 4 (by decide)) (.cons (hi _ 5 (by decide)) (.cons (hi _ 6 (by decide)) .nil)))⟩ .nil
  · intro m
    simp only [facesOf]
    by_cases h1 : m = "red".toList
    · subst h1; simp
    · by_cases h2 : m = "blue".toList
      · subst h2; simp
      · rw [if_neg h1, if_neg h2, if_neg h1, if_neg h2]

/-- A comment whose text follows the number sign directly, as OBJ files have it, is rejected. -/
theorem C34_violated_comment (rd : Reader F) : Wavefront.parse rd "#cube\n".toList = none := by
  refine C34_malformed rd ["#cube".toList] _ ⟨by decide, .inl (by decide)⟩ "#cube".toList (by simp) ["#cube".toList]
    (fields_iff.1 (by decide)) ?_
  intro it h
  cases it with
  | vertex v => obtain ⟨x, y, z, h | ⟨t, h⟩, -⟩ := h <;> exact absurd (List.cons.inj h).1 (by decide)
  | face idx => obtain ⟨a, h, -⟩ := h; exact absurd (List.cons.inj h).1 (by decide)
  | material m => cases h
  | nothing =>
    rcases h with h | ⟨c, a, h, hc⟩
    · cases h
    · cases h; revert hc; decide

/-- Coordinates are read in single precision: the vertex `16777217 0 0`, whose coordinates are integers far below the limit
of the `float64` they are stored in, is read as `16777216 0 0`. -/
theorem C34_violated_precision (rd : Reader ℝ)
    (hrd : ∀ w n, Digits w n → rd.read32 w = some (roundBits 24 n) ∧ rd.read64 w = some (roundBits 53 n)) :
    Wavefront.parse rd "v 16777217 0 0\n".toList = some ([⟨16777216, 0, 0⟩], fun _ => []) ∧
      rd.read64 "16777217".toList = some 16777217 := by
  have d1 : Digits "16777217".toList 16777217 := (digitsValue_iff _ _).1 (by decide)
  have d0 : Digits "0".toList 0 := (digitsValue_iff _ _).1 (by decide)
  have r0 : roundBits 24 ((0 : ℕ) : ℝ) = 0 := by rw [Nat.cast_zero, roundBits_zero]
  have r1 : roundBits 24 ((16777217 : ℕ) : ℝ) = 16777216 := by
    have hlog : Int.log 2 |((16777217 : ℕ) : ℝ)| = 24 := by
      rw [Nat.abs_cast, Int.log_natCast]
      rw [(Nat.log_eq_iff (m := 24) (by norm_num)).2 (by norm_num)]
      rfl
    have hfl : ⌊((16777217 : ℕ) : ℝ) / 2⌋ = 8388608 := by
      rw [Int.floor_eq_iff]; norm_num
    have hp : lastPlace 24 ((16777217 : ℕ) : ℝ) = 1 := by
      unfold lastPlace lowest
      rw [hlog]; norm_num
    unfold roundBits
    dsimp only
    rw [hp]
    norm_num only
    unfold roundEven
    have hfl' : ⌊(16777217 / 2 : ℝ)⌋ = 8388608 := by rw [Int.floor_eq_iff]; norm_num
    norm_num [hfl']
    decide
  have r2 : roundBits 53 ((16777217 : ℕ) : ℝ) = 16777217 := by
    have := roundBits_exact 53 16777217 0 (by norm_num) (by norm_num)
    simpa using this
  refine ⟨?_, by rw [(hrd _ _ d1).2, r2]⟩
  rw [C34_exact rd ["v 16777217 0 0".toList] _ ⟨by decide, .inl (by decide)⟩]
  refine ⟨by decide, [.vertex ⟨16777216, 0, 0⟩], .cons ⟨["v".toList, "16777217".toList, "0".toList, "0".toList],
    fields_iff.1 (by decide), "16777217".toList, "0".toList, "0".toList, .inl rfl, ?_, ?_, ?_⟩ .nil, rfl, fun m => rfl⟩
  · rw [(hrd _ _ d1).1, r1]
  · rw [(hrd _ _ d0).1, r0]
  · rw [(hrd _ _ d0).1, r0]

/-- There is such a reader. -/
example : ∃ rd : Reader ℝ, ∀ w n, Digits w n → rd.read32 w = some (roundBits 24 n) ∧ rd.read64 w = some (roundBits 53 n) :=
  ⟨⟨fun w => (digitsValue w).map fun n => roundBits 24 n, fun w => (digitsValue w).map fun n => roundBits 53 n⟩,
    fun w n h => by rw [← digitsValue_iff] at h; simp [h]⟩

end BR
