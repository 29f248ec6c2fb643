import Verif.Model.TestObjects
import Verif.Lemmas.ExtCam

/-! C110: the simple level sheet that the tests are built from. In exact arithmetic with infinities. -/

namespace BR

variable {M : Type} {m : Option M} {r : Ray Ext} {height : Ext} {a b h : ℝ}

theorem sheet_t (hs : r.start.y.Is a) (hh : height.Is h) : (-(r.start.sub ⟨lit 0, height, lit 0⟩).y).Is (h - a) := by
  obtain ⟨s1, e1⟩ := hs
  obtain ⟨s2, e2⟩ := hh
  rw [Vec.sub]
  dsimp only
  rw [e1, e2, Ext.num_sub_num, Ext.neg_num, neg_sub]
  exact ⟨_, rfl⟩

/-- **What the simple sheet reports**: a ray that is not level meets it where it comes to its height, if that is ahead or at the start; the
normal points up, and textures are placed by the two level coordinates of that point. -/
theorem C110_sheet (hs : r.start.y.Is a) (hh : height.Is h) (hd : r.dir.y.Is b) (hb : b ≠ 0) :
    ((h - a) / b < 0 → testSheet m height r = HitRecord.miss) ∧
    (0 ≤ (h - a) / b → (testSheet m height r).t.Is ((h - a) / b) ∧ (testSheet m height r).normal = ⟨lit 0, lit 1, lit 0⟩ ∧
      (testSheet m height r).mat = m ∧
      (testSheet m height r).loc = ⟨(r.at (testSheet m height r).t).x, (r.at (testSheet m height r).t).z, lit 0⟩) := by
  obtain ⟨s1, e1⟩ := sheet_t hs hh
  obtain ⟨s2, e2⟩ := hd
  have et : ∃ s, -(r.start.sub ⟨lit 0, height, lit 0⟩).y / r.dir.y = Ext.num ((h - a) / b) s := ⟨_, by rw [e1, e2, Ext.num_div_num _ _ _ _ hb]⟩
  obtain ⟨s, et⟩ := et
  have el : (Ext.num ((h - a) / b) s <. lit 0) = decide ((h - a) / b < 0) := by
    show Ext.cmp _ _ (Ext.num _ _) = _
    simp [Ext.cmp, Ext.key]
  have ei : (Ext.num ((h - a) / b) s ==. GoFloat.inf) = false := Ext.num_eq_inf _ _ _
  unfold testSheet
  dsimp only
  rw [et, el, ei, Bool.or_false]
  constructor
  · intro hlt
    rw [if_pos (by simpa using hlt)]
  · intro hle
    rw [if_neg (by simpa using hle)]
    exact ⟨⟨s, rfl⟩, rfl, rfl, rfl⟩

/-- **A level ray never meets the sheet**, at any other height. -/
theorem C110_level (hs : r.start.y.Is a) (hh : height.Is h) (hd : r.dir.y.Is 0) (ha : a ≠ h) : testSheet m height r = HitRecord.miss := by
  obtain ⟨s1, e1⟩ := sheet_t hs hh
  obtain ⟨s2, e2⟩ := hd
  obtain ⟨s, et⟩ : ∃ s, -(r.start.sub ⟨lit 0, height, lit 0⟩).y / r.dir.y = Ext.inf s :=
    ⟨_, by rw [e1, e2, Ext.num_div_zero, if_neg (sub_ne_zero.2 ha.symm)]⟩
  unfold testSheet
  dsimp only
  rw [et, if_pos]
  cases s
  · rw [Bool.or_eq_true]
    exact .inr (by show (Ext.inf false ==. Ext.inf false) = true; simp)
  · rw [Bool.or_eq_true]
    exact .inl (by show (Ext.inf true <. Ext.num _ _) = true; simp)

/-- A ray that goes down to a sheet at height 1, from 3 above it. -/
example : (testSheet (some ()) (lit 1 : Ext) ⟨⟨lit 0, lit 4, lit 0⟩, ⟨lit 0, lit (-1), lit 0⟩⟩).t.Is 3 := by
  have := (C110_sheet (m := some ()) (r := ⟨⟨lit 0, lit 4, lit 0⟩, ⟨lit 0, lit (-1), lit 0⟩⟩) (height := lit 1) (a := 4) (b := -1) (h := 1)
    ⟨false, by show Ext.num _ _ = _; norm_num⟩ ⟨false, by show Ext.num _ _ = _; norm_num⟩ ⟨false, by show Ext.num _ _ = _; norm_num⟩ (by norm_num)).2
    (by norm_num)
  rw [show ((1 : ℝ) - 4) / -1 = 3 by norm_num] at this
  exact this.1

end BR
