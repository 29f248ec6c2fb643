import Verif.Model.Object
import Verif.Lemmas.Cmp

/-!
C70: of two hits, `Frontmost` keeps the nearest one in front of the camera, and `FrontT` the smallest positive of two
distances; NaN distances count as no hit. For every number type with the comparisons of floating point.
-/

namespace BR

set_option linter.unusedSectionVars false

variable {F M : Type} [Add F] [Sub F] [Mul F] [Div F] [Neg F] [GoFloat F] [CmpModel F]

/-- The distance means a hit: it is positive (in particular it is a number). -/
def Ahead (t : F) : Prop := ∃ x, CmpModel.key t = some x ∧ 0 < x

private theorem ahead_iff (t : F) : (t >. lit 0) = true ↔ Ahead t := by
  rw [CmpModel.lt_iff, CmpModel.key_zero]
  simp [Ahead]

/-- `t` is not beyond `s`. -/
def NotBeyond (t s : F) : Prop := ∃ x y, CmpModel.key t = some x ∧ CmpModel.key s = some y ∧ x ≤ y

private theorem notBeyond_refl {t : F} (h : Ahead t) : NotBeyond t t := by
  obtain ⟨x, hx, -⟩ := h
  exact ⟨x, x, hx, hx, le_rfl⟩

private theorem notBeyond_of_not {s t : F} (h : ¬ (s <. t) = true) (hs : Ahead s) (ht : Ahead t) : NotBeyond t s := by
  obtain ⟨x, hx, -⟩ := ht
  obtain ⟨y, hy, -⟩ := hs
  refine ⟨x, y, hx, hy, ?_⟩
  rw [CmpModel.lt_iff] at h
  by_contra hlt
  exact h ⟨y, x, hy, hx, not_le.1 hlt⟩

private theorem notBeyond_of {s t : F} (h : (s <. t) = true) : NotBeyond s t := by
  obtain ⟨x, y, hx, hy, hlt⟩ := (CmpModel.lt_iff _ _).1 h
  exact ⟨x, y, hx, hy, hlt.le⟩

/-- **C70.** `Frontmost` returns one of the two hits, the nearest one that is ahead; if neither is ahead it returns no
hit. Of two hits at the same distance it returns the first. -/
theorem C70_frontmost (a b : HitRecord F M) :
    (Ahead a.t ∧ (Ahead b.t → NotBeyond a.t b.t) ∧ HitRecord.frontmost a b = a) ∨
    (Ahead b.t ∧ (Ahead a.t → NotBeyond b.t a.t ∧ ¬ NotBeyond a.t b.t) ∧ HitRecord.frontmost a b = b) ∨
    (¬ Ahead a.t ∧ ¬ Ahead b.t ∧ HitRecord.frontmost a b = HitRecord.miss) := by
  unfold HitRecord.frontmost
  by_cases h : (b.t <. a.t) = true
  · have hn : ¬ NotBeyond a.t b.t := by
      rintro ⟨x, y, hx, hy, hle⟩
      obtain ⟨y', x', hy', hx', hlt⟩ := (CmpModel.lt_iff _ _).1 h
      rw [hx] at hx'; rw [hy] at hy'
      cases hx'; cases hy'
      exact absurd hle (not_le.2 hlt)
    by_cases hb : (b.t >. lit 0) = true
    · refine .inr (.inl ⟨(ahead_iff _).1 hb, fun _ => ⟨notBeyond_of h, hn⟩, ?_⟩)
      simp only [if_pos h, if_pos hb]
    · by_cases ha : (a.t >. lit 0) = true
      · refine .inl ⟨(ahead_iff _).1 ha, fun hb' => absurd ((ahead_iff _).2 hb') hb, ?_⟩
        simp only [if_pos h, if_neg hb, if_pos ha]
      · refine .inr (.inr ⟨fun h' => ha ((ahead_iff _).2 h'), fun h' => hb ((ahead_iff _).2 h'), ?_⟩)
        simp only [if_pos h, if_neg hb, if_neg ha]
  · by_cases ha : (a.t >. lit 0) = true
    · refine .inl ⟨(ahead_iff _).1 ha, fun hb => notBeyond_of_not h hb ((ahead_iff _).1 ha), ?_⟩
      simp only [if_neg h, if_pos ha]
    · by_cases hb : (b.t >. lit 0) = true
      · refine .inr (.inl ⟨(ahead_iff _).1 hb, fun ha' => absurd ((ahead_iff _).2 ha') ha, ?_⟩)
        simp only [if_neg h, if_neg ha, if_pos hb]
      · refine .inr (.inr ⟨fun h' => ha ((ahead_iff _).2 h'), fun h' => hb ((ahead_iff _).2 h'), ?_⟩)
        simp only [if_neg h, if_neg ha, if_neg hb]

/-- The distances agree with `Frontmost`, so the same holds for `FrontT`. -/
private theorem frontT_eq (t1 t2 : F) :
    frontT t1 t2 = (HitRecord.frontmost (⟨t1, Vec.zero, Vec.zero, none⟩ : HitRecord F Unit) ⟨t2, Vec.zero, Vec.zero, none⟩).t := by
  unfold frontT HitRecord.frontmost
  by_cases h : (t2 <. t1) = true
  · simp only [if_pos h]
    by_cases h2 : (t2 >. lit 0) = true
    · simp only [if_pos h2]
    · by_cases h1 : (t1 >. lit 0) = true
      · simp only [if_neg h2, if_pos h1]
      · simp only [if_neg h2, if_neg h1]; rfl
  · simp only [if_neg h]
    by_cases h1 : (t1 >. lit 0) = true
    · simp only [if_pos h1]
    · by_cases h2 : (t2 >. lit 0) = true
      · simp only [if_neg h1, if_pos h2]
      · simp only [if_neg h1, if_neg h2]; rfl

/-- **C70.** `FrontT` returns the smallest positive one of two distances, and zero if neither is positive. -/
theorem C70_frontT (t1 t2 : F) :
    (Ahead t1 ∧ (Ahead t2 → NotBeyond t1 t2) ∧ frontT t1 t2 = t1) ∨
    (Ahead t2 ∧ (Ahead t1 → NotBeyond t2 t1) ∧ frontT t1 t2 = t2) ∨
    (¬ Ahead t1 ∧ ¬ Ahead t2 ∧ frontT t1 t2 = lit 0) := by
  rw [frontT_eq]
  rcases C70_frontmost (⟨t1, Vec.zero, Vec.zero, none⟩ : HitRecord F Unit) ⟨t2, Vec.zero, Vec.zero, none⟩ with
    ⟨h1, h2, e⟩ | ⟨h1, h2, e⟩ | ⟨h1, h2, e⟩
  · exact .inl ⟨h1, h2, by rw [e]⟩
  · exact .inr (.inl ⟨h1, fun h => (h2 h).1, by rw [e]⟩)
  · exact .inr (.inr ⟨h1, h2, by rw [e]; rfl⟩)

private theorem ahead_num {x : ℝ} (h : 0 < x) (s : Bool) : Ahead (Ext.num x s) := by
  refine ⟨(x : EReal), rfl, ?_⟩
  exact_mod_cast h

/-- A point behind the camera and NaN are not hits; of two points ahead the nearest is taken. -/
example : frontT (.num (-1) true : Ext) (.num 2 false) = .num 2 false ∧ frontT (.nan : Ext) (.num 2 false) = .num 2 false ∧
    frontT (.num 3 false : Ext) (.num 2 false) = .num 2 false ∧ frontT (.nan : Ext) .nan = lit 0 := by
  have a2 := ahead_num (x := 2) (by norm_num) false
  have n1 : ¬ Ahead (.num (-1) true : Ext) := by
    rintro ⟨x, hx, h⟩
    cases hx
    have : (0 : ℝ) < -1 := by exact_mod_cast h
    norm_num at this
  have nn : ¬ Ahead (.nan : Ext) := by rintro ⟨x, hx, h⟩; cases hx
  refine ⟨?_, ?_, ?_, ?_⟩
  · rcases C70_frontT (.num (-1) true : Ext) (.num 2 false) with ⟨h, -⟩ | ⟨-, -, e⟩ | ⟨-, h, -⟩
    · exact absurd h n1
    · exact e
    · exact absurd a2 h
  · rcases C70_frontT (.nan : Ext) (.num 2 false) with ⟨h, -⟩ | ⟨-, -, e⟩ | ⟨-, h, -⟩
    · exact absurd h nn
    · exact e
    · exact absurd a2 h
  · rcases C70_frontT (.num 3 false : Ext) (.num 2 false) with ⟨-, h, -⟩ | ⟨-, -, e⟩ | ⟨-, h, -⟩
    · obtain ⟨x, y, hx, hy, hle⟩ := h a2
      cases hx; cases hy
      have : (3 : ℝ) ≤ 2 := by exact_mod_cast hle
      norm_num at this
    · exact e
    · exact absurd a2 h
  · rcases C70_frontT (.nan : Ext) .nan with ⟨h, -⟩ | ⟨h, -⟩ | ⟨-, -, e⟩
    · exact absurd h nn
    · exact absurd h nn
    · exact e

end BR
