import Verif.Props.C17_CsgHits
import Mathlib.Tactic.Zify

/-! C17, where it fails: the hundredth crossing is the last one that is looked at. -/

namespace BR
set_option linter.unusedSectionVars false
open Ext

section
variable {M : Type}

/-- The union of balls of diameter 1 in a row, at `x = 0, 2, 4, ..., 2 n`. -/
noncomputable def rowOfBalls (m : Option M) : Nat → Obj Ext M
  | 0 => .sphere m (fin 1) ⟨fin 0, fin 0, fin 0⟩
  | n + 1 => .or (.sphere m (fin 1) ⟨fin (2 * (n + 1 : ℕ)), fin 0, fin 0⟩) (rowOfBalls m n)

/-- The ray along the row, from a unit before the first ball. -/
def alongRow : Ray ℝ := ⟨⟨-1, 0, 0⟩, ⟨1, 0, 0⟩⟩

/-- The box around the ball at `x = 100`. -/
noncomputable def lastBox (m : Option M) : Obj Ext M := .box ⟨⟨fin 99, fin (-1), fin (-1)⟩, ⟨fin 101, fin 1, fin 1⟩⟩ m

private theorem fi (q : ℝ) : (fin q).Is q := ⟨false, rfl⟩

private noncomputable def rowI (n : Nat) (t : ℝ) : Bool := decide (∃ i ≤ n, 2 * (i : ℝ) + 1 / 2 < t ∧ t < 2 * i + 3 / 2)

private noncomputable def rowD (n : Nat) : Finset ℝ := (Finset.range (2 * n + 2)).image fun j : ℕ => (j : ℝ) + 1 / 2

private theorem mem_rowD {n : Nat} {c : ℝ} : c ∈ rowD n ↔ ∃ j < 2 * n + 2, (j : ℝ) + 1 / 2 = c := by
  simp [rowD]

private theorem half_inj {a b : ℕ} (h : (a : ℝ) + 1 / 2 = b + 1 / 2) : a = b := by
  have : (a : ℝ) = b := by linarith
  exact_mod_cast this

private theorem card_rowD (n : Nat) : (rowD n).card = 2 * n + 2 := by
  rw [rowD, Finset.card_image_of_injective _ fun a b h => half_inj h, Finset.card_range]

private theorem rowD_succ (n : Nat) : rowD (n + 1) = {2 * ((n + 1 : ℕ) : ℝ) + 1 / 2, 2 * ((n + 1 : ℕ) : ℝ) + 3 / 2} ∪ rowD n := by
  ext c
  rw [mem_rowD, Finset.mem_union, mem_rowD, Finset.mem_insert, Finset.mem_singleton]
  constructor
  · rintro ⟨j, hj, rfl⟩
    rcases (by omega : j = 2 * (n + 1) ∨ j = 2 * (n + 1) + 1 ∨ j < 2 * n + 2) with rfl | rfl | h
    · left; left; push_cast; ring
    · left; right; push_cast; ring
    · exact .inr ⟨j, h, rfl⟩
  · rintro ((rfl | rfl) | ⟨j, hj, rfl⟩)
    · exact ⟨2 * (n + 1), by omega, by push_cast; ring⟩
    · exact ⟨2 * (n + 1) + 1, by omega, by push_cast; ring⟩
    · exact ⟨j, by omega, rfl⟩

private theorem sep_rowD (n : Nat) : Separated (rowD n) := by
  intro c hc d hd hlt
  obtain ⟨i, -, rfl⟩ := mem_rowD.1 hc
  obtain ⟨j, -, rfl⟩ := mem_rowD.1 hd
  have : i + 1 ≤ j := by
    have : (i : ℝ) < j := by linarith
    exact_mod_cast this
  have : (i : ℝ) + 1 ≤ j := by exact_mod_cast this
  linarith

private theorem ball_profile (m : Option M) (n : ℕ) :
    (Obj.sphere m (fin 1) ⟨fin (2 * (n : ℝ)), fin 0, fin 0⟩).Profile alongRow {2 * (n : ℝ) + 1 / 2, 2 * (n : ℝ) + 3 / 2}
      (within (2 * (n : ℝ) + 1 / 2) (2 * (n : ℝ) + 3 / 2)) := by
  refine C17_sphere_profile m _ 1 (fi 1) (by norm_num) _ ⟨2 * n, 0, 0⟩ ⟨fi _, fi _, fi _⟩ _ (by simp [alongRow]) _ _ (by linarith)
    ?_ ?_
  · simp only [AtDistance, Ray.at, Vec.madd, alongRow]; exact ⟨by ring, by norm_num⟩
  · simp only [AtDistance, Ray.at, Vec.madd, alongRow]; exact ⟨by ring, by norm_num⟩

private theorem row_profile (m : Option M) (n : Nat) (hn : n ≤ 50) :
    (rowOfBalls m n).Profile alongRow (rowD n) (rowI n) := by
  induction n with
  | zero =>
    have h := ball_profile m 0
    have e1 : ({2 * ((0 : ℕ) : ℝ) + 1 / 2, 2 * ((0 : ℕ) : ℝ) + 3 / 2} : Finset ℝ) = rowD 0 := by
      ext c
      rw [mem_rowD, Finset.mem_insert, Finset.mem_singleton]
      constructor
      · rintro (rfl | rfl)
        · exact ⟨0, by omega, by norm_num⟩
        · exact ⟨1, by omega, by norm_num⟩
      · rintro ⟨j, hj, rfl⟩
        rcases (by omega : j = 0 ∨ j = 1) with rfl | rfl <;> norm_num
    have e2 : within (2 * ((0 : ℕ) : ℝ) + 1 / 2) (2 * ((0 : ℕ) : ℝ) + 3 / 2) = rowI 0 := by
      funext t
      simp [within, rowI]
    rw [e1, e2] at h
    simpa [rowOfBalls] using h
  | succ n ih =>
    have h := C17_or_first_partial _ _ _ _ _ _ _ (ball_profile m (n + 1)) (ih (by omega)) (by rw [← rowD_succ]; exact sep_rowD _)
      (by
        rw [Finset.disjoint_left]
        intro c hc hd
        obtain ⟨j, hj, rfl⟩ := mem_rowD.1 hd
        have hj' : (j : ℝ) + 1 ≤ 2 * n + 2 := by exact_mod_cast hj
        simp only [Finset.mem_insert, Finset.mem_singleton] at hc
        push_cast at hc
        rcases hc with h | h <;> linarith) (Finset.card_le_two.trans (by norm_num)) (by rw [card_rowD]; omega)
    rw [← rowD_succ] at h
    have e2 : (fun t => within (2 * ((n + 1 : ℕ) : ℝ) + 1 / 2) (2 * ((n + 1 : ℕ) : ℝ) + 3 / 2) t || rowI n t) = rowI (n + 1) := by
      funext t
      rw [Bool.eq_iff_iff]
      simp only [within, rowI, Bool.or_eq_true, decide_eq_true_eq]
      constructor
      · rintro (h | ⟨i, hi, h⟩)
        · exact ⟨n + 1, le_rfl, h⟩
        · exact ⟨i, by omega, h⟩
      · rintro ⟨i, hi, h⟩
        rcases (by omega : i = n + 1 ∨ i ≤ n) with rfl | hi'
        · exact .inl h
        · exact .inr ⟨i, hi', h⟩
    rw [e2] at h
    exact h

private theorem row_crosses (n : Nat) (c : ℝ) (hc : c ∈ rowD n) : Crosses (rowI n) c := by
  obtain ⟨j, hj, rfl⟩ := mem_rowD.1 hc
  have out : ∀ (k : ℕ) (t : ℝ), 2 * (k : ℝ) - 1 / 2 < t → t < 2 * k + 1 / 2 → rowI n t = false := by
    intro k t h1 h2
    rw [rowI, decide_eq_false_iff_not]
    rintro ⟨i, -, h3, h4⟩
    have a : (i : ℝ) < k := by linarith
    have b : (k : ℝ) < i + 1 := by linarith
    have a' : i < k := by exact_mod_cast a
    have b' : k < i + 1 := by exact_mod_cast b
    omega
  have ins : ∀ (i : ℕ) (t : ℝ), i ≤ n → 2 * (i : ℝ) + 1 / 2 < t → t < 2 * i + 3 / 2 → rowI n t = true := by
    intro i t hi h1 h2
    rw [rowI, decide_eq_true_eq]
    exact ⟨i, hi, h1, h2⟩
  refine ⟨1 / 2, by norm_num, fun δ h0 h1 => ?_⟩
  rcases Nat.even_or_odd' j with ⟨i, rfl | rfl⟩
  · rw [out i _ (by push_cast; linarith) (by push_cast; linarith), ins i _ (by omega) (by push_cast; linarith) (by push_cast; linarith)]
    simp
  · rw [ins i _ (by omega) (by push_cast; linarith) (by push_cast; linarith),
      out (i + 1) _ (by push_cast; linarith) (by push_cast; linarith)]
    simp

private theorem box_profile (m : Option M) : (lastBox m).Profile alongRow {100, 102} (within 100 102) := by
  refine C17_box_profile _ ⟨⟨99, -1, -1⟩, ⟨101, 1, 1⟩⟩ ⟨⟨fi _, fi _, fi _⟩, fi _, fi _, fi _⟩ ?_ m _ ?_ ?_ 100 102
    (by norm_num) ?_
  · norm_num [BBox.Proper]
  · simp [alongRow]
  · norm_num [BBox.NotInFace, alongRow]
  · intro t
    simp only [BBox.Mem, Ray.at, Vec.madd, alongRow]
    constructor
    · rintro ⟨h1, h2, -⟩; constructor <;> linarith
    · rintro ⟨h1, h2⟩; refine ⟨?_, ?_, ?_, ?_, ?_, ?_⟩ <;> norm_num <;> linarith

/-- **C17, violated.** A combined object looks at a hundred crossings of each part only. Take the last of 51 balls in a row
by intersecting their union with a box around that ball. The ray along the row goes through the ball that is left, but the
object reports no hit on it. -/
theorem C17_violated_limit (m : Option M) :
    (∀ t : ℝ, 201 / 2 < t → t < 203 / 2 → ∀ p : Vec Ext, p.Is (alongRow.at t) →
      (Obj.and (rowOfBalls m 50) (lastBox m)).inside p = .ok true) ∧
    ∀ r : Ray Ext, r.Is alongRow → ∃ h, (Obj.and (rowOfBalls m 50) (lastBox m)).intersect r = .ok (h, r) ∧
      (lit 0 <. h.t) = false := by
  have hrow := row_profile m 50 le_rfl
  have hbox := box_profile m
  have far : ∀ {j : ℕ} {a : ℕ}, (j : ℝ) + 1 / 2 ≠ (a : ℝ) := by
    intro j a h
    have : ((2 * j + 1 : ℕ) : ℝ) = ((2 * a : ℕ) : ℝ) := by push_cast; linarith
    have : 2 * j + 1 = 2 * a := by exact_mod_cast this
    omega
  have nat : ∀ a : ℕ, (a : ℝ) ∉ rowD 50 := by
    intro a h
    obtain ⟨j, -, h⟩ := mem_rowD.1 h
    exact far h
  constructor
  · intro t h1 h2 p hp
    have t1 : t ∉ rowD 50 := by
      intro h
      obtain ⟨j, -, rfl⟩ := mem_rowD.1 h
      have a : (100 : ℝ) < j := by linarith
      have b : (j : ℝ) < 101 := by linarith
      have a' : 100 < j := by exact_mod_cast a
      have b' : j < 101 := by exact_mod_cast b
      omega
    have t2 : t ∉ ({100, 102} : Finset ℝ) := by
      simp only [Finset.mem_insert, Finset.mem_singleton, not_or]
      constructor <;> linarith
    have e1 : rowI 50 t = true := by
      rw [rowI, decide_eq_true_eq]
      exact ⟨50, le_rfl, by norm_num; linarith, by norm_num; linarith⟩
    have e2 : within 100 102 t = true := by
      rw [within, decide_eq_true_eq]
      constructor <;> linarith
    rw [Obj.inside, hrow.inside t (by linarith) t1 p hp, hbox.inside t (by linarith) t2 p hp, e1, e2]
    rfl
  · intro r hr
    refine and_limit _ _ alongRow hrow hbox (sep_rowD 50) ?_ ?_ (row_crosses 50) (Finset.card_le_two.trans (by norm_num)) 0
      le_rfl (by simpa using nat 0) (by norm_num) r ?_ ?_ ?_
    · intro c hc d hd
      simp only [Finset.mem_insert, Finset.mem_singleton] at hc hd
      rcases hc with rfl | rfl <;> rcases hd with rfl | rfl <;> norm_num
    · rw [Finset.disjoint_left]
      intro c hc hd
      simp only [Finset.mem_insert, Finset.mem_singleton] at hd
      rcases hd with rfl | rfl
      · exact nat 100 (by exact_mod_cast hc)
      · exact nat 102 (by exact_mod_cast hc)
    · have e : alongRow.at 0 = alongRow.start := by simp [Ray.at, Vec.madd, alongRow]
      rw [e]
      exact hr
    · intro c hc h0 hj
      rw [within, decide_eq_true_eq] at hj
      have : (Finset.range 100).image (fun j : ℕ => (j : ℝ) + 1 / 2) ⊆ (rowD 50).filter fun d => 0 < d ∧ d < c := by
        intro d hd
        obtain ⟨j, hj', rfl⟩ := Finset.mem_image.1 hd
        rw [Finset.mem_range] at hj'
        rw [Finset.mem_filter]
        have : (j : ℝ) + 1 ≤ 100 := by exact_mod_cast hj'
        have : (0 : ℝ) ≤ j := Nat.cast_nonneg j
        exact ⟨mem_rowD.2 ⟨j, by omega, rfl⟩, by linarith, by linarith⟩
      have := Finset.card_le_card this
      rwa [Finset.card_image_of_injective _ fun a b h => half_inj h, Finset.card_range] at this
    · intro c _ hc
      have := hbox.cross_mem hc
      simp only [Finset.mem_insert, Finset.mem_singleton] at this
      rw [rowI, decide_eq_false_iff_not]
      rintro ⟨i, -, h1, h2⟩
      rcases this with rfl | rfl
      · have a : (49 : ℝ) < i := by linarith
        have b : (i : ℝ) < 50 := by linarith
        have a' : 49 < i := by exact_mod_cast a
        have b' : i < 50 := by exact_mod_cast b
        omega
      · have a : (50 : ℝ) < i := by linarith
        have b : (i : ℝ) < 51 := by linarith
        have a' : 50 < i := by exact_mod_cast a
        have b' : i < 51 := by exact_mod_cast b
        omega

/-- There is such a ray. -/
example : ∃ r : Ray Ext, r.Is alongRow := ⟨⟨⟨fin (-1), fin 0, fin 0⟩, ⟨fin 1, fin 0, fin 0⟩⟩, ⟨fi _, fi _, fi _⟩, fi _, fi _, fi _⟩

end

end BR
