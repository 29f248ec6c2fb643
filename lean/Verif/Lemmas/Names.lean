import Verif.Model.Animate
import Verif.Spec.Paths
import Mathlib.Tactic.SplitIfs
import Mathlib.Tactic.Ring
import Mathlib.Data.List.Basic
import Mathlib.Order.Basic

/-! Cleaned paths and numbered file names. -/

namespace BR

theorem splitSlash_simple {n : List Char} (h : '/' ∉ n) : splitSlash n = [n] := by
  induction n with
  | nil => rfl
  | cons c cs ih =>
    rw [splitSlash, if_neg (fun e => h (by simp [e])), ih (fun h' => h (by simp [h']))]

theorem splitSlash_ne (p : List Char) : splitSlash p ≠ [] := by
  cases p with
  | nil => simp [splitSlash]
  | cons c cs =>
    rw [splitSlash]
    split_ifs
    · simp
    · cases splitSlash cs <;> simp

theorem splitSlash_snoc (d n : List Char) (h : '/' ∉ n) : splitSlash (d ++ '/' :: n) = splitSlash d ++ [n] := by
  induction d with
  | nil => simp [splitSlash, splitSlash_simple h]
  | cons c cs ih =>
    rw [List.cons_append, splitSlash, splitSlash, ih]
    split_ifs
    · simp
    · have := splitSlash_ne cs
      cases h : splitSlash cs with
      | nil => exact absurd h this
      | cons => simp

/-- The last element of a path that ends with `suf`. -/
theorem splitSlash_last (e suf : List Char) (h : '/' ∉ suf) : ∃ init x, splitSlash (e ++ suf) = init ++ [x ++ suf] := by
  induction e with
  | nil => exact ⟨[], [], by simpa using splitSlash_simple h⟩
  | cons c cs ih =>
    obtain ⟨init, x, e⟩ := ih
    rw [List.cons_append, splitSlash, e]
    split_ifs
    · exact ⟨[] :: init, x, by simp⟩
    · cases init with
      | nil => exact ⟨[], c :: x, by simp⟩
      | cons s ss => exact ⟨(c :: s) :: ss, x, by simp⟩

/-- An element that is a plain name. -/
def Plain (n : List Char) : Prop := n ≠ [] ∧ n ≠ ['.'] ∧ n ≠ ['.', '.']

theorem cleanStep_plain {rooted : Bool} {out : List (List Char)} {n : List Char} (h : Plain n) :
    cleanStep rooted out n = n :: out := by
  unfold cleanStep
  rw [if_neg (by rintro (e | e); exacts [h.1 e, h.2.1 e]), if_neg h.2.2]

theorem intercalate_snoc (l : List (List Char)) (a n : List Char) :
    List.intercalate ['/'] (l ++ [a] ++ [n]) = List.intercalate ['/'] (l ++ [a]) ++ '/' :: n := by
  induction l with
  | nil => simp [List.intercalate]
  | cons b l ih =>
    cases l with
    | nil => simp [List.intercalate]
    | cons c l => simpa [List.intercalate] using ih

/-- Joining a plain name to a directory whose last element is plain. -/
theorem pathJoin_plain (e suf n : List Char) (hs : '/' ∉ suf) (hsuf : ∀ x, Plain (x ++ suf)) (hn : '/' ∉ n) (hp : Plain n) :
    pathJoin (e ++ suf) n = pathClean (e ++ suf) ++ '/' :: n := by
  obtain ⟨init, x, he⟩ := splitSlash_last e suf hs
  have hne : e ++ suf ≠ [] := by
    have := (hsuf e).1
    simpa using this
  unfold pathJoin pathClean
  rw [splitSlash_snoc _ _ hn, he]
  have hhead : (e ++ suf ++ '/' :: n).head? = (e ++ suf).head? := by
    cases h : e ++ suf with
    | nil => exact absurd h hne
    | cons c cs => rfl
  rw [hhead]
  simp only [List.foldl_append, List.foldl_cons, List.foldl_nil, cleanStep_plain hp, cleanStep_plain (hsuf x),
    List.reverse_cons]
  rw [intercalate_snoc]
  split_ifs with h1 h2 h3 h3
  · simp
  · simp at h2
  · exact absurd h2 (by simp)
  · exfalso
    generalize (List.foldl (cleanStep _) [] init).reverse = l at h3
    have hx := (hsuf x).1
    cases l with
    | nil => simp [List.intercalate] at h3; exact hx (by simpa using h3)
    | cons a l =>
      cases l <;> simp [List.intercalate] at h3
  · rfl

/-! ## Places -/

theorem splitSlash_splitOn (p : List Char) : splitSlash p = p.splitOn '/' := by
  induction p with
  | nil => rfl
  | cons c cs ih =>
    rw [splitSlash, ih, List.splitOn_cons_eq_if_modifyHead]
    by_cases h : c = '/'
    · simp [h]
    · rw [if_neg h, if_neg (by simpa using h)]
      cases hs : cs.splitOn '/' with
      | nil => exact absurd hs (List.splitOn_ne_nil '/' cs)
      | cons => simp

theorem splitSlash_no (p : List Char) : ∀ e ∈ splitSlash p, '/' ∉ e := by
  induction p with
  | nil => simp [splitSlash]
  | cons c cs ih =>
    rw [splitSlash]
    split_ifs with h
    · simpa using ih
    · cases hs : splitSlash cs with
      | nil => simp [Ne.symm h]
      | cons s ss =>
        rw [hs] at ih
        simp only [List.forall_mem_cons] at ih ⊢
        exact ⟨by simp [Ne.symm h, ih.1], ih.2⟩

theorem splitSlash_join (l : List (List Char)) (hl : l ≠ []) (h : ∀ e ∈ l, '/' ∉ e) :
    splitSlash (List.intercalate ['/'] l) = l := by
  rw [splitSlash_splitOn]
  exact List.splitOn_intercalate '/' h hl

/-- What has been cleaned so far leads where the elements read so far lead. -/
theorem cleanStep_walk (rooted : Bool) (base : List (List Char)) (hb : rooted = true → base = []) (out : List (List Char))
    (ho : ∀ e ∈ out, e ≠ [] ∧ e ≠ ['.'] ∧ '/' ∉ e) (e : List Char) (he : '/' ∉ e) :
    (cleanStep rooted out e).reverse.foldl walk base = walk (out.reverse.foldl walk base) e ∧
      ∀ e' ∈ cleanStep rooted out e, e' ≠ [] ∧ e' ≠ ['.'] ∧ '/' ∉ e' := by
  unfold cleanStep
  by_cases h1 : e = [] ∨ e = ['.']
  · rw [if_pos h1]
    exact ⟨by rw [walk, if_pos h1], ho⟩
  rw [if_neg h1]
  by_cases h2 : e = ['.', '.']
  · rw [if_pos h2]
    rw [not_or] at h1
    cases out with
    | nil =>
      cases rooted with
      | true =>
        subst h2
        exact ⟨by simp [hb rfl, walk], by simp⟩
      | false => exact ⟨by simp, by simp [h1.1, h1.2, he]⟩
    | cons top rest =>
      dsimp only
      rw [List.forall_mem_cons] at ho
      split_ifs with h3
      · refine ⟨by simp, ?_⟩
        rw [List.forall_mem_cons]
        exact ⟨⟨h1.1, h1.2, he⟩, by rw [List.forall_mem_cons]; exact ho⟩
      · refine ⟨?_, ho.2⟩
        rw [List.reverse_cons, List.foldl_append, List.foldl_cons, List.foldl_nil, walk, if_neg (by rw [not_or]; exact h1),
          if_pos h2, walk, if_neg (by rw [not_or]; exact ⟨ho.1.1, ho.1.2.1⟩), if_neg h3, List.tail_cons]
  · rw [if_neg h2]
    rw [not_or] at h1
    refine ⟨by simp, ?_⟩
    rw [List.forall_mem_cons]
    exact ⟨⟨h1.1, h1.2, he⟩, ho⟩

theorem cleaned_walk (rooted : Bool) (base : List (List Char)) (hb : rooted = true → base = []) (es : List (List Char))
    (hes : ∀ e ∈ es, '/' ∉ e) (out : List (List Char)) (ho : ∀ e ∈ out, e ≠ [] ∧ e ≠ ['.'] ∧ '/' ∉ e) :
    (es.foldl (cleanStep rooted) out).reverse.foldl walk base = es.foldl walk (out.reverse.foldl walk base) ∧
      ∀ e' ∈ es.foldl (cleanStep rooted) out, e' ≠ [] ∧ e' ≠ ['.'] ∧ '/' ∉ e' := by
  induction es generalizing out with
  | nil => exact ⟨rfl, ho⟩
  | cons e es ih =>
    rw [List.forall_mem_cons] at hes
    obtain ⟨h1, h2⟩ := cleanStep_walk rooted base hb out ho e hes.1
    obtain ⟨h3, h4⟩ := ih hes.2 _ h2
    exact ⟨by rw [List.foldl_cons, h3, h1, List.foldl_cons], by rw [List.foldl_cons]; exact h4⟩

/-- A cleaned path leads to the same place. -/
theorem pathClean_place (cwd : List (List Char)) (p : List Char) : placeOf cwd (pathClean p) = placeOf cwd p := by
  unfold placeOf
  simp only [← splitSlash_splitOn]
  obtain ⟨h1, h2⟩ := cleaned_walk (decide (p.head? = some '/')) (if p.head? = some '/' then [] else cwd)
    (fun h => by rw [if_pos (by simpa using h)]) (splitSlash p) (splitSlash_no p) [] (by simp)
  rw [List.reverse_nil, List.foldl_nil] at h1
  rw [← h1, pathClean]
  generalize hst : (splitSlash p).foldl (cleanStep (decide (p.head? = some '/'))) [] = st at *
  have h2' : ∀ e ∈ st.reverse, '/' ∉ e := fun e he => (h2 e (by simpa using he)).2.2
  by_cases hr : p.head? = some '/'
  · simp only [if_pos hr, List.head?_cons, if_true]
    rw [splitSlash, if_pos rfl, List.foldl_cons, show walk [] [] = [] from rfl]
    by_cases he : st.reverse = []
    · rw [he]; rfl
    · rw [splitSlash_join _ he h2']
  · simp only [if_neg hr]
    by_cases he : st.reverse = []
    · rw [he]; rfl
    · obtain ⟨a, l, hal⟩ := List.exists_cons_of_ne_nil he
      have ha : a ≠ [] ∧ '/' ∉ a := by
        have := h2 a (by rw [← List.mem_reverse, hal]; simp)
        exact ⟨this.1, this.2.2⟩
      obtain ⟨c, cs, rfl⟩ := List.exists_cons_of_ne_nil ha.1
      have hc : c ≠ '/' := fun e => ha.2 (by simp [e])
      have hh : ∃ y, List.intercalate ['/'] st.reverse = c :: y := by
        rw [hal]
        cases l <;> exact ⟨_, by simp [List.intercalate]; rfl⟩
      obtain ⟨y, hy⟩ := hh
      have h3 : ¬List.intercalate ['/'] st.reverse = [] := by rw [hy]; simp
      have h4 : ¬(List.intercalate ['/'] st.reverse).head? = some '/' := by rw [hy]; simpa using hc
      rw [if_neg h3, if_neg h4, splitSlash_join _ he h2']

theorem placeOf_join (cwd : List (List Char)) (d n : List Char) (hn : '/' ∉ n) (hp : Plain n) (hd : d ≠ []) :
    placeOf cwd (pathJoin d n) = n :: placeOf cwd d := by
  rw [pathJoin, pathClean_place]
  unfold placeOf
  simp only [← splitSlash_splitOn]
  rw [splitSlash_snoc _ _ hn, List.foldl_append]
  have : (d ++ '/' :: n).head? = d.head? := by
    cases d with
    | nil => exact absurd rfl hd
    | cons => rfl
  rw [this, List.foldl_cons, List.foldl_nil, walk, if_neg (by rintro (e | e); exacts [hp.1 e, hp.2.1 e]), if_neg hp.2.2]

/-! ## Numbers -/

theorem digit_range {c : Char} (h : c.isDigit) : 48 ≤ c.toNat ∧ c.toNat ≤ 57 := by
  simp only [Char.isDigit, Bool.and_eq_true, decide_eq_true_eq] at h
  exact ⟨by simpa using UInt32.le_iff_toNat_le.1 h.1, by simpa using UInt32.le_iff_toNat_le.1 h.2⟩

theorem digits_lt (l : List Char) (h : ∀ c ∈ l, c.isDigit) : Nat.ofDigitChars 10 l 0 < 10 ^ l.length := by
  induction l with
  | nil => simp
  | cons c cs ih =>
    have hc := digit_range (h c (by simp))
    have := ih fun d hd => h d (by simp [hd])
    rw [Nat.ofDigitChars_cons, Nat.ofDigitChars_eq_ofDigitChars_zero, List.length_cons, Nat.pow_succ]
    have e : '0'.toNat = 48 := rfl
    rw [e]
    have : 10 ^ cs.length * (10 * 0 + (c.toNat - 48)) ≤ 10 ^ cs.length * 9 := Nat.mul_le_mul_left _ (by omega)
    omega

/-- Strings of the same number of digits are ordered like the numbers, whatever follows. -/
theorem digits_lex (a b s t : List Char) (ha : ∀ c ∈ a, c.isDigit) (hb : ∀ c ∈ b, c.isDigit) (hl : a.length = b.length)
    (h : Nat.ofDigitChars 10 a 0 < Nat.ofDigitChars 10 b 0) : a ++ s < b ++ t := by
  induction a generalizing b with
  | nil =>
    cases b with
    | nil => simp at h
    | cons => simp at hl
  | cons c a ih =>
    cases b with
    | nil => simp at hl
    | cons d b =>
      have hl' : a.length = b.length := by simpa using hl
      have hc := digit_range (ha c (by simp))
      have hd := digit_range (hb d (by simp))
      have hla := digits_lt a fun x hx => ha x (by simp [hx])
      have hlb := digits_lt b fun x hx => hb x (by simp [hx])
      rw [Nat.ofDigitChars_cons, Nat.ofDigitChars_cons, Nat.ofDigitChars_eq_ofDigitChars_zero (l := a),
        Nat.ofDigitChars_eq_ofDigitChars_zero (l := b), ← hl'] at h
      rw [← hl'] at hlb
      have e : '0'.toNat = 48 := rfl
      rw [e] at h
      simp only [List.cons_append]
      rcases Nat.lt_trichotomy c.toNat d.toNat with hlt | heq | hgt
      · exact List.Lex.rel (show c < d from hlt)
      · have : c = d := Char.toNat_inj.1 heq
        subst this
        exact List.Lex.cons (ih b (fun x hx => ha x (by simp [hx])) (fun x hx => hb x (by simp [hx])) hl' (by omega))
      · exfalso
        have : 10 ^ a.length * (10 * 0 + (d.toNat - 48) + 1) ≤ 10 ^ a.length * (10 * 0 + (c.toNat - 48)) :=
          Nat.mul_le_mul_left _ (by omega)
        rw [Nat.mul_add] at this
        omega

end BR
