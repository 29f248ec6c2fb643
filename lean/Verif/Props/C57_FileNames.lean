import Verif.Model.Api
import Verif.Num.Real

/-! C57: output file names. A name is a list of characters; every statement is for all names. -/

namespace BR

/-- Specification: `e` is the extension of `f`: the end of the name from its last dot, in the last path element. -/
def HasExt (f e : List Char) : Prop := ∃ base x, f = base ++ e ∧ e = '.' :: x ∧ '.' ∉ x ∧ '/' ∉ x

theorem hasExt_append (pre suf e : List Char) (hd : '.' ∉ suf) (he : HasExt (pre ++ suf) e) :
    ∃ y, e = y ++ suf ∧ y ≠ [] ∧ ∃ base, pre = base ++ y := by
  obtain ⟨base, x, h1, h2, h3, h4⟩ := he
  rcases List.append_eq_append_iff.1 h1 with ⟨a, rfl, ha⟩ | ⟨a, ha, he⟩
  · exact absurd (ha ▸ h2 ▸ by simp) hd
  · refine ⟨a, he, ?_, base, ha⟩
    rintro rfl
    rw [List.nil_append] at he
    rw [← he, h2] at hd
    simp at hd

theorem extLoop_spec (r suf e : List Char) (hd : '.' ∉ suf) (hs : '/' ∉ suf) :
    (extLoop r suf = e ∧ e ≠ []) ↔ HasExt (r.reverse ++ suf) e := by
  induction r generalizing suf with
  | nil =>
    constructor
    · rintro ⟨h, h'⟩; exact absurd h.symm (by simpa [extLoop] using h')
    · intro h
      obtain ⟨y, -, hy, base, hb⟩ := hasExt_append _ _ _ hd h
      cases base <;> cases y <;> simp_all
  | cons c rest ih =>
    rw [extLoop]
    split_ifs with h1 h2
    · subst h1
      constructor
      · rintro ⟨h, h'⟩; exact absurd h.symm h'
      · intro h
        obtain ⟨y, he, hy, base, hb⟩ := hasExt_append _ _ _ hd h
        obtain ⟨_, x, -, hx, -, hx4⟩ := h
        obtain ⟨z, l, rfl⟩ : ∃ z l, y = z ++ [l] := by
          rcases List.eq_nil_or_concat y with h | ⟨z, l, h⟩
          · exact absurd h hy
          · exact ⟨z, l, by simpa using h⟩
        rw [List.reverse_cons, ← List.append_assoc] at hb
        have hl : '/' = l := by simpa using (List.append_inj' hb rfl).2
        subst hl
        rw [he] at hx
        cases z with
        | nil => simp at hx
        | cons a z =>
          simp only [List.cons_append, List.cons.injEq] at hx
          exact absurd (hx.2 ▸ by simp) hx4
    · subst h2
      constructor
      · rintro ⟨rfl, -⟩
        exact ⟨rest.reverse, suf, by simp, rfl, hd, hs⟩
      · intro h
        obtain ⟨y, he, hy, base, hb⟩ := hasExt_append _ _ _ hd h
        obtain ⟨_, x, -, hx, hx3, -⟩ := h
        obtain ⟨z, l, rfl⟩ : ∃ z l, y = z ++ [l] := by
          rcases List.eq_nil_or_concat y with h | ⟨z, l, h⟩
          · exact absurd h hy
          · exact ⟨z, l, by simpa using h⟩
        rw [List.reverse_cons, ← List.append_assoc] at hb
        have hl : '.' = l := by simpa using (List.append_inj' hb rfl).2
        subst hl
        rw [he] at hx
        cases z with
        | nil => simp [he]
        | cons a z =>
          simp only [List.cons_append, List.cons.injEq] at hx
          exact absurd (hx.2 ▸ by simp) hx3
    · rw [ih (c :: suf) (by simp; exact ⟨fun h => h2 h.symm, hd⟩) (by simp; exact ⟨fun h => h1 h.symm, hs⟩)]
      simp

/-- **C57, what an extension is.** `path.Ext` returns the extension if there is one, and nothing otherwise. -/
theorem C57_ext (f e : List Char) : (pathExt f = e ∧ e ≠ []) ↔ HasExt f e := by
  have := extLoop_spec f.reverse [] e (by simp) (by simp)
  simpa [pathExt] using this

theorem pathExt_suffix (f : List Char) : ∃ base, f = base ++ pathExt f := by
  by_cases h : pathExt f = []
  · exact ⟨f, by simp [h]⟩
  · obtain ⟨base, -, hb, -⟩ := (C57_ext f _).1 ⟨rfl, h⟩
    exact ⟨base, hb⟩

/-- **C57.** Stripping the extension and appending it again gives the original file name. -/
theorem C57_roundtrip (f : List Char) : noExt f ++ pathExt f = f := by
  obtain ⟨base, hb⟩ := pathExt_suffix f
  have : noExt f = base := by
    unfold noExt
    conv_lhs => rw [hb]
    rw [← hb]
    have : f.length - (pathExt f).length = base.length := by
      conv_lhs => rw [hb]
      rw [← hb]; simp [congrArg List.length hb]
    rw [this]; conv_lhs => rw [hb]
    simp
  rw [this]; exact hb.symm

/-- What is left after stripping is the name up to its last dot, or the whole name. -/
theorem C57_stripped (f : List Char) :
    (∃ e, HasExt f e ∧ f = noExt f ++ e) ∨ ((∀ e, ¬HasExt f e) ∧ noExt f = f) := by
  by_cases h : pathExt f = []
  · refine .inr ⟨fun e he => ?_, ?_⟩
    · obtain ⟨h1, h2⟩ := (C57_ext f e).2 he
      exact h2 (h1.symm.trans h)
    · have := C57_roundtrip f
      rwa [h, List.append_nil] at this
  · exact .inl ⟨_, (C57_ext f _).1 ⟨rfl, h⟩, (C57_roundtrip f).symm⟩

/-- The image goes to the file the user named, and only the three documented extensions are accepted. -/
theorem C57_image (f : List Char) :
    (HasExt f ".png".toList → saveTarget f [] = .ok (.png, f)) ∧
    (HasExt f ".jpg".toList ∨ HasExt f ".jpeg".toList → saveTarget f [] = .ok (.jpeg, f)) ∧
    (∀ fmt name, saveTarget f [] = .ok (fmt, name) →
      name = f ∧ (HasExt f ".png".toList ∨ HasExt f ".jpg".toList ∨ HasExt f ".jpeg".toList)) := by
  have key : noExt f ++ [] ++ pathExt f = f := by rw [List.append_nil, C57_roundtrip]
  refine ⟨fun h => ?_, fun h => ?_, fun fmt name h => ?_⟩
  · have := ((C57_ext f _).2 h).1
    simp only [saveTarget, key]
    rw [if_pos this]
  · have : pathExt f = ".jpg".toList ∨ pathExt f = ".jpeg".toList :=
      h.imp (fun h => ((C57_ext f _).2 h).1) (fun h => ((C57_ext f _).2 h).1)
    simp only [saveTarget, key]
    rw [if_neg (by rcases this with h | h <;> rw [h] <;> decide), if_pos this]
  · simp only [saveTarget, key] at h
    split_ifs at h with h1 h2
    · simp only [Except.ok.injEq, Prod.mk.injEq] at h
      exact ⟨h.2.symm, .inl ((C57_ext f _).1 ⟨h1, by decide⟩)⟩
    · simp only [Except.ok.injEq, Prod.mk.injEq] at h
      exact ⟨h.2.symm, .inr (h2.imp (fun h => (C57_ext f _).1 ⟨h, by decide⟩)
        (fun h => (C57_ext f _).1 ⟨h, by decide⟩))⟩

/-- The PPM file never overwrites the image: whenever an image is saved its name differs from the PPM file's, and
the two names agree up to the extension. -/
theorem C57_distinct (f : List Char) (fmt : ImageFormat) (name : List Char)
    (h : saveTarget f [] = .ok (fmt, name)) :
    name ≠ ppmName f ∧ HasExt (ppmName f) ".ppm".toList ∧ noExt (ppmName f) = noExt name := by
  obtain ⟨rfl, he⟩ := (C57_image f).2.2 fmt name h
  have hp : HasExt (ppmName name) ".ppm".toList := ⟨noExt name, "ppm".toList, rfl, by decide, by decide, by decide⟩
  have e := ((C57_ext _ _).2 hp).1
  refine ⟨fun heq => ?_, hp, ?_⟩
  · rw [← heq] at hp
    have h1 := ((C57_ext _ _).2 hp).1
    rcases he with he | he | he <;> (have h2 := ((C57_ext _ _).2 he).1; rw [h1] at h2; revert h2; decide)
  · have := C57_roundtrip (ppmName name)
    rw [e] at this
    exact List.append_cancel_right this

/-- Non-vacuity: dots in directories and in the base name. -/
example : pathExt "out.d/my.scene.png".toList = ".png".toList ∧ noExt "out.d/my.scene.png".toList = "out.d/my.scene".toList
    ∧ pathExt "out.d/scene".toList = [] ∧ HasExt "out.d/my.scene.png".toList ".png".toList
    ∧ ppmName "out.d/my.scene.png".toList = "out.d/my.scene.ppm".toList := by
  refine ⟨by decide, by decide, by decide, ⟨"out.d/my.scene".toList, "png".toList, by decide, by decide, by decide, by decide⟩,
    by decide⟩

end BR
