import Verif.Model.Ppm
import Verif.Spec.Ppm
import Mathlib.Data.Nat.Digits.Lemmas
import Mathlib.Data.List.Basic

/-! Lemmas for the NetPBM encoders and the decoder. -/

namespace BR.Ppm

set_option linter.unusedSectionVars false

theorem toNat_digit {d : Nat} (h : d < 10) : (UInt8.ofNat (48 + d)).toNat = 48 + d := by
  rw [UInt8.toNat_ofNat']; omega

theorem digit_range {b : UInt8} {d : Nat} (h : d < 10) (e : b = UInt8.ofNat (48 + d)) :
    48 ≤ b ∧ b ≤ 57 ∧ isSpace b = false := by
  subst e
  have : d = 0 ∨ d = 1 ∨ d = 2 ∨ d = 3 ∨ d = 4 ∨ d = 5 ∨ d = 6 ∨ d = 7 ∨ d = 8 ∨ d = 9 := by omega
  rcases this with rfl | rfl | rfl | rfl | rfl | rfl | rfl | rfl | rfl | rfl <;> decide

theorem mem_decimal {n : Nat} {b : UInt8} (h : b ∈ decimal n) : 48 ≤ b ∧ b ≤ 57 ∧ isSpace b = false := by
  unfold decimal at h
  split_ifs at h with h0
  · rw [List.mem_singleton] at h; subst h; decide
  · obtain ⟨d, hd, rfl⟩ := List.mem_map.1 h
    exact digit_range (Nat.digits_lt_base (by norm_num) (List.mem_reverse.1 hd)) rfl

theorem decimal_ne_nil (n : Nat) : decimal n ≠ [] := by
  unfold decimal
  split_ifs with h0
  · simp
  · simp [Nat.digits_ne_nil_iff_ne_zero.2 h0]

theorem number_decimal (n : Nat) : number (decimal n) = some n := by
  unfold number
  rw [if_pos ⟨decimal_ne_nil n, by
    rw [List.all_eq_true]
    intro b hb
    have := mem_decimal hb
    simp [this.1, this.2.1]⟩]
  congr 1
  unfold decimal
  split_ifs with h0
  · subst h0; rfl
  · rw [List.foldl_map, List.foldl_reverse]
    have key : ∀ L : List Nat, (∀ d ∈ L, d < 10) →
        L.foldr (fun d n => 10 * n + ((UInt8.ofNat (48 + d)).toNat - 48)) 0 = Nat.ofDigits 10 L := by
      intro L
      induction L with
      | nil => intro _; rfl
      | cons d L ih =>
        intro h
        rw [List.foldr_cons, ih fun d hd => h d (by simp [hd]), Nat.ofDigits_cons, toNat_digit (h d (by simp))]
        omega
    rw [key _ fun d hd => Nat.digits_lt_base (by norm_num) hd, Nat.ofDigits_digits]

theorem words_cons_space {b : UInt8} (h : isSpace b = true) (bs : List UInt8) : words (b :: bs) = words bs := by
  unfold words
  have := List.splitOnP_append_cons ([] : List UInt8) bs (p := isSpace) h
  simp only [List.nil_append] at this
  rw [this]
  simp [List.splitOnP_nil]

theorem words_append {t : List UInt8} (ht : t ≠ []) (hs : ∀ b ∈ t, isSpace b = false) {b : UInt8} (h : isSpace b = true)
    (bs : List UInt8) : words (t ++ b :: bs) = t :: words bs := by
  unfold words
  rw [List.splitOnP_append_cons_of_forall_mem hs b h]
  simp [ht]

theorem words_decimal (n : Nat) {b : UInt8} (h : isSpace b = true) (bs : List UInt8) :
    words (decimal n ++ b :: bs) = decimal n :: words bs :=
  words_append (decimal_ne_nil n) (fun _ hb => (mem_decimal hb).2.2) h bs

theorem nextWord_append {t : List UInt8} (ht : t ≠ []) (hs : ∀ b ∈ t, isSpace b = false) {b : UInt8} (h : isSpace b = true)
    (bs : List UInt8) : nextWord (t ++ b :: bs) = (t, b :: bs) := by
  unfold nextWord
  cases t with
  | nil => exact absurd rfl ht
  | cons a t =>
    have ha := hs a (by simp)
    have hdrop : (a :: t ++ b :: bs).dropWhile isSpace = a :: t ++ b :: bs := by
      rw [List.cons_append, List.dropWhile_cons, ha]; rfl
    rw [hdrop, List.span_eq_takeWhile_dropWhile]
    have hall : ∀ x ∈ a :: t, (!isSpace x) = true := fun x hx => by rw [hs x hx]; rfl
    have h1 : (b :: bs).takeWhile (fun b => !isSpace b) = [] := by rw [List.takeWhile_cons, h]; rfl
    have h2 : (b :: bs).dropWhile (fun b => !isSpace b) = b :: bs := by rw [List.dropWhile_cons, h]; rfl
    rw [List.takeWhile_append_of_pos hall, List.dropWhile_append_of_pos hall, h1, h2, List.append_nil]

theorem nextWord_space {b : UInt8} (h : isSpace b = true) (bs : List UInt8) : nextWord (b :: bs) = nextWord bs := by
  unfold nextWord
  rw [List.dropWhile_cons, if_pos h]

theorem nextWord_decimal (n : Nat) {b : UInt8} (h : isSpace b = true) (bs : List UInt8) :
    nextWord (decimal n ++ b :: bs) = (decimal n, b :: bs) :=
  nextWord_append (decimal_ne_nil n) (fun _ hb => (mem_decimal hb).2.2) h bs

variable {F : Type} [Add F] [Sub F] [Mul F] [Div F] [Neg F] [GoFloat F]

theorem trunc_range (c : F) : 0 ≤ trunc c ∧ trunc c ≤ 65535 := by
  unfold trunc
  dsimp only
  generalize GoFloat.trunc (linearToSRGB c * lit 65535) = i
  split_ifs <;> omega

theorem pairs_uint16 (x : Int) (h0 : 0 ≤ x) (h1 : x ≤ 65535) (bs : List UInt8) :
    pairs (uint16BE x ++ bs) = (pairs bs).map (x.toNat :: ·) := by
  have e : (x % 65536).toNat = x.toNat := by omega
  unfold uint16BE
  rw [e]
  simp only [List.cons_append, List.nil_append, pairs]
  have h2 : (UInt8.ofNat (x.toNat / 256)).toNat * 256 + (UInt8.ofNat (x.toNat % 256)).toNat = x.toNat := by
    rw [UInt8.toNat_ofNat', UInt8.toNat_ofNat']; omega
  rw [h2]
  cases pairs bs <;> rfl

end BR.Ppm
