import Verif.Lemmas.FloorBuild

/-! The box around a rectangle, in double and then in single precision. -/

namespace BR
set_option linter.unusedSectionVars false

open CmpModel

variable {M : Type}

namespace Flo

theorem lower_is {a b : Flo} {x y : ℝ} (ha : a.Is x) (hb : b.Is y) : (BBox.lower a b).Is (min x y) := by
  unfold BBox.lower
  rw [lt_is hb ha]
  by_cases h : y < x
  · rw [if_pos (by simpa using h), min_eq_right h.le]; exact hb
  · rw [if_neg (by simpa using h), min_eq_left (not_lt.1 h)]; exact ha

theorem upper_is {a b : Flo} {x y : ℝ} (ha : a.Is x) (hb : b.Is y) : (BBox.upper a b).Is (max x y) := by
  unfold BBox.upper
  rw [show (b >. a) = (a <. b) from rfl, lt_is ha hb]
  by_cases h : x < y
  · rw [if_pos (by simpa using h), max_eq_right h.le]; exact hb
  · rw [if_neg (by simpa using h), max_eq_left (not_lt.1 h)]; exact ha

private theorem not_nan {v : Vec Flo} {p : Vec ℝ} (h : v.FIs p) : checkNaNVec v = .ok () := by
  obtain ⟨⟨_, h1⟩, ⟨_, h2⟩, ⟨_, h3⟩⟩ := h
  have e1 : GoFloat.isNaN v.x = false := by change GoFloat.isNaN v.x.e = false; rw [h1]; rfl
  have e2 : GoFloat.isNaN v.y = false := by change GoFloat.isNaN v.y.e = false; rw [h2]; rfl
  have e3 : GoFloat.isNaN v.z = false := by change GoFloat.isNaN v.z.e = false; rw [h3]; rfl
  simp [checkNaNVec, Vec.isNaN, e1, e2, e3]

def vmin (a b : Vec ℝ) : Vec ℝ := ⟨min a.x b.x, min a.y b.y, min a.z b.z⟩
def vmax (a b : Vec ℝ) : Vec ℝ := ⟨max a.x b.x, max a.y b.y, max a.z b.z⟩

private theorem fold_is {l : List (Vec Flo)} {ps : List (Vec ℝ)} (h : List.Forall₂ Vec.FIs l ps) :
    ∀ (b : BBox Flo) (m m' : Vec ℝ), b.min.FIs m → b.max.FIs m' →
      ∃ b', l.foldlM BBox.hullStep b = .ok b' ∧ b'.min.FIs (ps.foldl vmin m) ∧ b'.max.FIs (ps.foldl vmax m') := by
  induction h with
  | nil => exact fun b m m' h1 h2 => ⟨b, rfl, h1, h2⟩
  | @cons v p l ps hv _ ih =>
    intro b m m' h1 h2
    obtain ⟨b', e, g1, g2⟩ := ih ⟨⟨BBox.lower b.min.x v.x, BBox.lower b.min.y v.y, BBox.lower b.min.z v.z⟩,
      ⟨BBox.upper b.max.x v.x, BBox.upper b.max.y v.y, BBox.upper b.max.z v.z⟩⟩ (vmin m p) (vmax m' p)
      ⟨lower_is h1.1 hv.1, lower_is h1.2.1 hv.2.1, lower_is h1.2.2 hv.2.2⟩
      ⟨upper_is h2.1 hv.1, upper_is h2.2.1 hv.2.1, upper_is h2.2.2 hv.2.2⟩
    refine ⟨b', ?_, g1, g2⟩
    rw [List.foldlM_cons, BBox.hullStep, not_nan hv, ok_bind, pure_bind']
    exact e

/-- The hull box of numbers. -/
theorem hull_is {v : Vec Flo} {p : Vec ℝ} {l : List (Vec Flo)} {ps : List (Vec ℝ)} (hv : v.FIs p) (h : List.Forall₂ Vec.FIs l ps) :
    ∃ b, BBox.fromHull (v :: l) = .ok b ∧ b.min.FIs ((p :: ps).foldl vmin p) ∧ b.max.FIs ((p :: ps).foldl vmax p) := by
  obtain ⟨b, e, h1, h2⟩ := fold_is (.cons hv h) ⟨v, v⟩ p p hv hv
  refine ⟨b, ?_, h1, h2⟩
  rw [BBox.fromHull, e, ok_bind, not_nan h1, ok_bind, not_nan h2, ok_bind]
  rfl

variable {W D x0 x1 x2 z0 z1 : ℝ} {C : Vec ℝ}

/-- The box around the two triangles. -/
theorem Corners.box (h : Corners W D C x0 x1 x2 z0 z1) {o a b e : Vertex Flo} (ho : o.pos.FIs ⟨x0, C.y, z0⟩)
    (ha : a.pos.FIs ⟨x0, C.y, z1⟩) (hb : b.pos.FIs ⟨x1, C.y, z0⟩) (he : e.pos.FIs ⟨x2, C.y, z1⟩) :
    ∃ bb, makeBoundingBox [(.face o a b : Obj Flo M), .face e b a] = .ok bb ∧ bb.min.FIs ⟨x0, C.y, z0⟩ ∧
      bb.max.FIs ⟨max x1 x2, C.y, z1⟩ := by
  obtain ⟨-, -, -, -, -, q1, q2, q3, -, -⟩ := h.bounds
  have g1 := h.w_ge
  have g2 := h.d_ge
  have k1 : x0 ≤ x1 := by rw [abs_le] at q1; norm_num at *; linarith
  have k2 : x0 ≤ x2 := by rw [abs_le] at q2; norm_num at *; linarith
  have k3 : z0 ≤ z1 := by rw [abs_le] at q3; norm_num at *; linarith
  obtain ⟨b1, e1, m1, M1⟩ := hull_is ho (.cons ha (.cons hb .nil))
  obtain ⟨b2, e2, m2, M2⟩ := hull_is he (.cons hb (.cons ha .nil))
  simp only [List.foldl_cons, List.foldl_nil, vmin, vmax, min_self, max_self, min_eq_left k1, min_eq_right k1, min_eq_left k2,
    min_eq_right k2, min_eq_left k3, min_eq_right k3, max_eq_left k1, max_eq_right k1, max_eq_left k2, max_eq_right k2,
    max_eq_left k3, max_eq_right k3] at m1 M1 m2 M2
  obtain ⟨bb, e3, m3, M3⟩ := hull_is m1 (.cons M1 (.cons m2 (.cons M2 .nil)))
  refine ⟨bb, ?_, ?_, ?_⟩
  · rw [makeBoundingBox, List.mapM_cons, List.mapM_cons, List.mapM_nil]
    change (do let bs ← (do let r ← Face.bounds o a b; let s ← (do let r ← Face.bounds e b a; let s ← pure []; pure (r :: s)); pure (r :: s)); _) = _
    rw [Face.bounds, e1, ok_bind, Face.bounds, e2, ok_bind]
    exact e3
  · simp only [List.foldl_cons, List.foldl_nil, vmin] at m3
    obtain ⟨a1, a2, a3⟩ := m3
    refine ⟨a1.of_eq ?_, a2.of_eq ?_, a3.of_eq ?_⟩ <;> simp [k1, k2, k3]
  · simp only [List.foldl_cons, List.foldl_nil, vmax] at M3
    obtain ⟨a1, a2, a3⟩ := M3
    refine ⟨a1.of_eq ?_, a2.of_eq ?_, a3.of_eq ?_⟩ <;> simp [k1, k2, k3, max_comm x2 x1]

end Flo

end BR
