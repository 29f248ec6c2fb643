import Verif.Spec.Text
import Mathlib.Data.List.Basic
import Mathlib.Tactic.IntervalCases

namespace BR.Text

/-! ### Words -/

theorem isSpace_white : isSpace = white := by
  funext c
  unfold isSpace white
  rw [Bool.eq_iff_iff]
  simp only [Bool.or_eq_true, Bool.and_eq_true, decide_eq_true_eq, beq_iff_eq, List.mem_cons, List.not_mem_nil, or_false, Char.ext_iff,
    UInt32.ext_iff, Char.toNat]
  change _ ↔ (c.val.toNat = 9 ∨ c.val.toNat = 10 ∨ c.val.toNat = 11 ∨ c.val.toNat = 12 ∨ c.val.toNat = 13 ∨ c.val.toNat = 32 ∨
    c.val.toNat = 0x85 ∨ c.val.toNat = 0xa0 ∨ c.val.toNat = 0x1680 ∨ c.val.toNat = 0x2000 ∨ c.val.toNat = 0x2001 ∨ c.val.toNat = 0x2002 ∨
    c.val.toNat = 0x2003 ∨ c.val.toNat = 0x2004 ∨ c.val.toNat = 0x2005 ∨ c.val.toNat = 0x2006 ∨ c.val.toNat = 0x2007 ∨ c.val.toNat = 0x2008 ∨
    c.val.toNat = 0x2009 ∨ c.val.toNat = 0x200a ∨ c.val.toNat = 0x2028 ∨ c.val.toNat = 0x2029 ∨ c.val.toNat = 0x202f ∨ c.val.toNat = 0x205f ∨
    c.val.toNat = 0x3000)
  omega

theorem fields_def (s : List Char) : fields s = (s.splitOnP white).filter (· ≠ []) := by rw [← isSpace_white]; rfl

theorem trimSpace_def (s : List Char) : trimSpace s = ((s.dropWhile white).reverse.dropWhile white).reverse := by
  rw [← isSpace_white]; rfl

theorem tooLong_iff (l : List Char) : tooLong l ↔ 65536 ≤ byteLength l := by
  unfold tooLong byteLength
  rw [List.length_flatMap]
  simp

theorem splitOnP_all_not {α : Type} (p : α → Bool) : ∀ (w : List α), (∀ c ∈ w, ¬ p c) → w.splitOnP p = [w] := by
  intro w h
  exact List.splitOnP_eq_singleton (by simpa using h)

theorem fields_nil : fields [] = [] := by simp [fields_def]

theorem fields_space (c : Char) (l : List Char) (h : white c) : fields (c :: l) = fields l := by
  simp [fields_def, List.splitOnP_cons_eq_if_modifyHead, h]

theorem fields_pad (pad l : List Char) (h : ∀ c ∈ pad, white c) : fields (pad ++ l) = fields l := by
  induction pad with
  | nil => rfl
  | cons a as ih => rw [List.cons_append, fields_space _ _ (h a (by simp)), ih (fun c hc => h c (by simp [hc]))]

theorem fields_word (w rest : List Char) (h0 : w ≠ []) (h : ∀ c ∈ w, ¬ white c) (hr : ∀ c ∈ rest.head?, white c) :
    fields (w ++ rest) = w :: fields rest := by
  cases rest with
  | nil => simp [fields_def, splitOnP_all_not _ _ h, h0]
  | cons a as =>
    have ha : white a := hr a (by simp)
    rw [fields_space _ _ ha]
    rw [fields_def, fields_def, List.splitOnP_append_cons_of_forall_mem (by simpa using h) a ha]
    simp [h0]

theorem fields_of_spells {ws : List (List Char)} {l : List Char} (h : Spells ws l) : fields l = ws := by
  induction h with
  | nil pad hp => rw [← List.append_nil pad, fields_pad _ _ hp, fields_nil]
  | cons pad w rest ws hp h0 hw hr _ ih => rw [fields_pad _ _ hp, fields_word _ _ h0 hw hr, ih]

theorem spells_pad (c : Char) (hc : white c) {ws : List (List Char)} {l : List Char} (h : Spells ws l) :
    Spells ws (c :: l) := by
  cases h with
  | nil pad hp => exact .nil _ (by simpa [hc] using hp)
  | cons pad w rest ws hp h0 hw hr ht =>
    exact .cons (c :: pad) w rest ws (by simpa [hc] using hp) h0 hw hr ht

theorem exists_spells : ∀ (n : Nat) (l : List Char), l.length ≤ n → ∃ ws, Spells ws l := by
  intro n
  induction n with
  | zero => intro l h; exact ⟨[], by have := List.eq_nil_of_length_eq_zero (Nat.le_zero.1 h); subst this; exact .nil [] (by simp)⟩
  | succ n ih =>
    intro l h
    cases l with
    | nil => exact ⟨[], .nil [] (by simp)⟩
    | cons a as =>
      by_cases ha : white a
      · obtain ⟨ws, hws⟩ := ih as (by simpa using h)
        exact ⟨ws, spells_pad a ha hws⟩
      · have e := List.takeWhile_append_dropWhile (p := fun c => !white c) (l := a :: as)
        have hlen : ((a :: as).dropWhile fun c => !white c).length ≤ n := by
          have : (a :: as).dropWhile (fun c => !white c) = as.dropWhile (fun c => !white c) := by simp [ha]
          rw [this]
          exact ((List.dropWhile_sublist _).length_le).trans (by simpa using h)
        obtain ⟨ws, hws⟩ := ih _ hlen
        refine ⟨(a :: as).takeWhile (fun c => !white c) :: ws, ?_⟩
        have := Spells.cons [] ((a :: as).takeWhile fun c => !white c) ((a :: as).dropWhile fun c => !white c) ws (by simp)
          (by simp [ha]) (fun c hc => by simpa using List.all_eq_true.1 List.all_takeWhile c hc)
          (fun c hc => by
            have := List.head?_dropWhile_not (fun c => !white c) (a :: as)
            simp only [Option.mem_def] at hc
            rw [hc] at this
            simpa using this) hws
        simpa [e] using this

theorem fields_iff {ws : List (List Char)} {l : List Char} : fields l = ws ↔ Spells ws l := by
  refine ⟨fun h => ?_, fields_of_spells⟩
  obtain ⟨ws', h'⟩ := exists_spells _ l le_rfl
  rw [← h, fields_of_spells h']
  exact h'

/-! ### Numbers -/

theorem digit_char (d : Fin 10) : (Char.ofNat (48 + d)).toNat = 48 + d := by
  revert d; decide

theorem char_digit (c : Char) (h : 48 ≤ c.toNat ∧ c.toNat ≤ 57) : ∃ d : Fin 10, c = Char.ofNat (48 + d) := by
  refine ⟨⟨c.toNat - 48, by omega⟩, ?_⟩
  have : 48 + (c.toNat - 48) = c.toNat := by omega
  simp [this, Char.ofNat_toNat]

theorem foldl_digits (ds : List (Fin 10)) (n : Nat) :
    (ds.map fun d : Fin 10 => Char.ofNat (48 + d)).foldl (fun n c => 10 * n + (c.toNat - 48)) n =
      ds.foldl (fun (n : Nat) (d : Fin 10) => 10 * n + d) n := by
  induction ds generalizing n with
  | nil => rfl
  | cons a as ih => simp only [List.map_cons, List.foldl_cons, ih, digit_char]; congr 2; omega

theorem map_digits (w : List Char) (h : ∀ c ∈ w, 48 ≤ c.toNat ∧ c.toNat ≤ 57) :
    ∃ ds : List (Fin 10), w = ds.map (fun d : Fin 10 => Char.ofNat (48 + d)) := by
  induction w with
  | nil => exact ⟨[], rfl⟩
  | cons a as ih =>
    obtain ⟨d, hd⟩ := char_digit a (h a (by simp))
    obtain ⟨ds, hds⟩ := ih (fun c hc => h c (by simp [hc]))
    exact ⟨d :: ds, by rw [hd, hds]; rfl⟩

theorem digitsValue_iff (w : List Char) (n : Nat) : digitsValue w = some n ↔ Digits w n := by
  unfold digitsValue Digits
  constructor
  · intro h
    split at h
    · rename_i hc
      obtain ⟨h0, ha⟩ := hc
      obtain ⟨ds, rfl⟩ := map_digits w (by simpa using ha)
      refine ⟨ds, by rintro rfl; exact h0 rfl, rfl, ?_⟩
      rw [foldl_digits] at h
      exact (Option.some.inj h).symm
    · cases h
  · rintro ⟨ds, h0, rfl, rfl⟩
    have hall : ∀ d ∈ ds.map (fun d : Fin 10 => Char.ofNat (48 + d)), 48 ≤ d.toNat ∧ d.toNat ≤ 57 := by
      intro c hc
      obtain ⟨d, -, rfl⟩ := List.mem_map.1 hc
      rw [digit_char]; omega
    rw [if_pos ⟨by simpa using h0, by simpa using hall⟩, foldl_digits]
    rfl

theorem Digits.head {w : List Char} {n : Nat} (h : Digits w n) : ∃ c t, w = c :: t ∧ c ≠ '+' ∧ c ≠ '-' := by
  obtain ⟨ds, h0, rfl, -⟩ := h
  cases ds with
  | nil => exact absurd rfl h0
  | cons d t =>
    refine ⟨_, _, rfl, ?_, ?_⟩
    · clear h0; revert d; decide
    · clear h0; revert d; decide

/-- `ParseInt` accepts exactly the decimal integers in range. -/
theorem parseInt_iff (bits : Nat) (w : List Char) (z : Int) :
    parseInt bits w = some z ↔ Integer w z ∧ -(2 ^ (bits - 1) : Int) ≤ z ∧ z < 2 ^ (bits - 1) := by
  have hpow : ((2 ^ (bits - 1) : Nat) : Int) = 2 ^ (bits - 1) := by push_cast; rfl
  have hpos : (0 : Int) < 2 ^ (bits - 1) := by positivity
  have pos : ∀ ds : List Char, ((do
      let n ← digitsValue ds
      if n < 2 ^ (bits - 1) then some (n : Int) else none) = some z) ↔ ∃ n, Digits ds n ∧ z = n ∧ n < 2 ^ (bits - 1) := by
    intro ds
    simp only [Option.bind_eq_bind, Option.bind_eq_some_iff, digitsValue_iff]
    constructor
    · rintro ⟨n, hn, h⟩
      split at h
      · exact ⟨n, hn, (Option.some.inj h).symm, by assumption⟩
      · cases h
    · rintro ⟨n, hn, rfl, h⟩
      exact ⟨n, hn, by rw [if_pos h]⟩
  unfold parseInt
  split
  · rename_i ds
    simp only [Option.bind_eq_bind, Option.bind_eq_some_iff, digitsValue_iff]
    constructor
    · rintro ⟨n, hn, h⟩
      split at h
      · have := Option.some.inj h
        subst this
        exact ⟨.inr (.inr ⟨ds, n, rfl, hn, rfl⟩), by omega, by omega⟩
      · cases h
    · rintro ⟨h | ⟨t, n, h, -⟩ | ⟨t, n, h, hn, rfl⟩, h1, h2⟩
      · obtain ⟨n, hn, -⟩ := h
        obtain ⟨c, t, e, -, h'⟩ := hn.head
        cases e; exact absurd rfl h'
      · cases h
      · cases h
        exact ⟨n, hn, by rw [if_pos (by omega)]⟩
  · rename_i ds
    rw [pos]
    constructor
    · rintro ⟨n, hn, rfl, h⟩
      exact ⟨.inr (.inl ⟨ds, n, rfl, hn, rfl⟩), by omega, by omega⟩
    · rintro ⟨h | ⟨t, n, h, hn, rfl⟩ | ⟨t, n, h, -⟩, h1, h2⟩
      · obtain ⟨n, hn, -⟩ := h
        obtain ⟨c, t, e, h', -⟩ := hn.head
        cases e; exact absurd rfl h'
      · cases h
        exact ⟨n, hn, rfl, by omega⟩
      · cases h
  · rename_i hm hp
    rw [pos]
    constructor
    · rintro ⟨n, hn, rfl, h⟩
      exact ⟨.inl ⟨n, hn, rfl⟩, by omega, by omega⟩
    · rintro ⟨⟨n, hn, rfl⟩ | ⟨t, n, h, -⟩ | ⟨t, n, h, -⟩, h1, h2⟩
      · exact ⟨n, hn, rfl, by omega⟩
      · exact absurd h (hp t)
      · exact absurd h (hm t)

/-! ### Lines -/

theorem splitOn_cons_line (l rest : List Char) (h : '\n' ∉ l) :
    (l ++ '\n' :: rest).splitOn '\n' = l :: rest.splitOn '\n' := by
  unfold List.splitOn
  rw [List.splitOnP_append_cons_of_forall_mem (by intro x hx; simp; rintro rfl; exact h hx) _ (by simp)]

theorem splitOn_unlines (ls : List (List Char)) (h : ∀ l ∈ ls, '\n' ∉ l) (tail : List Char) (ht : '\n' ∉ tail) :
    (unlines ls ++ tail).splitOn '\n' = ls ++ [tail] := by
  induction ls with
  | nil =>
    simp only [unlines, List.flatMap_nil, List.nil_append]
    unfold List.splitOn
    exact splitOnP_all_not _ _ (by intro c hc; simp; rintro rfl; exact ht hc)
  | cons a as ih =>
    have e : unlines (a :: as) ++ tail = a ++ '\n' :: (unlines as ++ tail) := by simp [unlines]
    rw [e, splitOn_cons_line _ _ (h a (by simp)), ih (fun l hl => h l (by simp [hl]))]
    rfl

/-- A file whose lines are all ended by a line feed. -/
theorem rawLines_unlines (ls : List (List Char)) (h : ∀ l ∈ ls, '\n' ∉ l) : rawLines (unlines ls) = ls := by
  have := splitOn_unlines ls h [] (by simp)
  rw [List.append_nil] at this
  simp [rawLines, this]

/-- A file whose last line, not empty, is not ended by a line feed. -/
theorem rawLines_open (ls : List (List Char)) (h : ∀ l ∈ ls, '\n' ∉ l) (tail : List Char) (ht : '\n' ∉ tail) (h0 : tail ≠ []) :
    rawLines (unlines ls ++ tail) = ls ++ [tail] := by
  simp [rawLines, splitOn_unlines ls h tail ht, h0]

theorem fullLines_unlines (ls : List (List Char)) (h : ∀ l ∈ ls, '\n' ∉ l) (tail : List Char) (ht : '\n' ∉ tail) :
    fullLines (unlines ls ++ tail) = ls := by
  simp [fullLines, splitOn_unlines ls h tail ht]

theorem exists_unlines (s : List Char) : ∃ ls tail, (∀ l ∈ ls, '\n' ∉ l) ∧ '\n' ∉ tail ∧ s = unlines ls ++ tail := by
  induction s with
  | nil => exact ⟨[], [], by simp, by simp, rfl⟩
  | cons a as ih =>
    obtain ⟨ls, tail, h, ht, e⟩ := ih
    by_cases ha : a = '\n'
    · exact ⟨[] :: ls, tail, by simpa using h, ht, by simp [unlines, ha, e]⟩
    · cases ls with
      | nil => exact ⟨[], a :: tail, by simp, by simp [ht, Ne.symm ha], by simp [unlines, e]⟩
      | cons l ls =>
        refine ⟨(a :: l) :: ls, tail, ?_, ht, by simp [unlines, e]⟩
        intro x hx
        rcases List.mem_cons.1 hx with rfl | hx
        · have := h l (by simp)
          simp [this, Ne.symm ha]
        · exact h x (by simp [hx])

/-! ### Trimming -/

theorem dropWhile_pad (a t : List Char) (ha : ∀ c ∈ a, white c) (ht : ∀ c ∈ t.head?, ¬ white c) :
    (a ++ t).dropWhile white = t := by
  rw [List.dropWhile_append_of_pos (by simpa using ha)]
  cases t with
  | nil => rfl
  | cons x xs => simp [ht x (by simp)]

theorem trimSpace_iff (l t : List Char) : trimSpace l = t ↔ Trimmed l t := by
  constructor
  · rintro rfl
    rw [trimSpace_def]
    generalize hm : l.dropWhile white = m
    refine ⟨l.takeWhile white, (m.reverse.takeWhile white).reverse, ?_, ?_, ?_, ?_, ?_⟩
    · rw [← List.reverse_append, List.takeWhile_append_dropWhile, List.reverse_reverse, ← hm,
        List.takeWhile_append_dropWhile]
    · intro c hc; exact List.all_eq_true.1 List.all_takeWhile c hc
    · intro c hc; exact List.all_eq_true.1 List.all_takeWhile c (List.mem_reverse.1 hc)
    · intro c hc
      have h1 : c ∈ m.head? := by
        have e : m = (m.reverse.dropWhile white).reverse ++ (m.reverse.takeWhile white).reverse := by
          rw [← List.reverse_append, List.takeWhile_append_dropWhile, List.reverse_reverse]
        rw [e]
        cases hx : (m.reverse.dropWhile white).reverse with
        | nil => rw [hx] at hc; cases hc
        | cons x xs => rw [hx] at hc; simpa using hc
      have := List.head?_dropWhile_not white l
      rw [hm, Option.mem_def.1 h1] at this
      simpa using this
    · intro c hc
      rw [List.getLast?_reverse] at hc
      have := List.head?_dropWhile_not white m.reverse
      rw [Option.mem_def.1 hc] at this
      simpa using this
  · rintro ⟨a, b, rfl, ha, hb, h1, h2⟩
    rw [trimSpace_def]
    cases t with
    | nil =>
      have : (a ++ ([] ++ b)).dropWhile white = [] := by
        have := dropWhile_pad (a ++ b) [] (by intro c hc; rcases List.mem_append.1 hc with h | h; exacts [ha c h, hb c h]) (by simp)
        simpa using this
      rw [this]; rfl
    | cons x xs =>
      rw [dropWhile_pad _ _ ha (by simpa using h1), List.reverse_append,
        dropWhile_pad _ _ (by simpa using hb) (fun c hc => h2 c (by rwa [List.head?_reverse] at hc)), List.reverse_reverse]

theorem fields_append_space (l b : List Char) (hb : ∀ c ∈ b, white c) : fields (l ++ b) = fields l := by
  obtain ⟨ws, h⟩ := exists_spells _ l le_rfl
  rw [fields_of_spells h]
  apply fields_of_spells
  induction h with
  | nil pad hp => exact .nil _ (by intro c hc; rcases List.mem_append.1 hc with h | h; exacts [hp c h, hb c h])
  | cons pad w rest ws hp h0 hw hr _ ih =>
    have : pad ++ (w ++ rest) ++ b = pad ++ (w ++ (rest ++ b)) := by simp
    rw [this]
    refine .cons _ _ _ _ hp h0 hw ?_ ih
    cases rest with
    | nil => intro c hc; exact hb c (by cases b with | nil => cases hc | cons y ys => simp at hc; simp [hc])
    | cons a as => simpa using hr

theorem fields_trimSpace (l : List Char) : fields (trimSpace l) = fields l := by
  obtain ⟨a, b, h, ha, hb, -⟩ := (trimSpace_iff l (trimSpace l)).1 rfl
  conv_rhs => rw [h]
  rw [fields_pad _ _ ha, fields_append_space _ _ hb]

end BR.Text
