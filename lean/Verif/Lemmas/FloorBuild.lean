import Verif.Lemmas.FaceHit
import Verif.Lemmas.RoundAgain
import Verif.Lemmas.Mesh

/-! The corners, the triangles and the box of a rectangle in double precision. -/

namespace BR
set_option linter.unusedSectionVars false

namespace Flo

/-- The coordinates of the corners, as computed, are close to the edges of the rectangle. -/
structure Corners (W D : ℝ) (C : Vec ℝ) (x0 x1 x2 z0 z1 : ℝ) : Prop where
  left : |x0 - (C.x - W / 2)| ≤ 1 / 2 ^ 40
  right : |x1 - (C.x + W / 2)| ≤ 1 / 2 ^ 40
  right' : |x2 - (C.x + W / 2)| ≤ 1 / 2 ^ 40
  front : |z0 - (C.z - D / 2)| ≤ 1 / 2 ^ 40
  back : |z1 - (C.z + D / 2)| ≤ 1 / 2 ^ 40
  same : |x1 - x2| ≤ 1 / 2 ^ 40
  w_ge : 2 ≤ W
  d_ge : 2 ≤ D
  x_le : |C.x| + W / 2 ≤ 1000
  y_le : |C.y| ≤ 1000
  z_le : |C.z| + D / 2 ≤ 1000

private theorem edge {w c : Flo} {W C : ℝ} (hw : w.Is W) (hc : c.Is C) (hB : |C| + |W| / 2 ≤ 1000) :
    ∃ x, (w / lit 2 + c).Is x ∧ |x - (W / 2 + C)| ≤ 1 / 2 ^ 42 ∧ |x| ≤ 1001 := by
  have two : (lit 2 : Flo).Is 2 := by
    have := lit_is 2 2 0 (by norm_num) (by norm_num) (by norm_num) (by norm_num)
    push_cast at this
    exact this
  have hW : |W / 2| ≤ 1000 := by rw [abs_div, abs_of_pos (show (0 : ℝ) < 2 by norm_num)]; linarith [abs_nonneg C]
  have h1 := div_is hw two (by norm_num) (hW.trans (by norm_num))
  have e1 := roundBits_err 53 (by norm_num) (W / 2)
  have hs : |W / 2 + C| ≤ 1000 := by
    refine (abs_add_le _ _).trans ?_
    rw [abs_div, abs_of_pos (show (0 : ℝ) < 2 by norm_num)]; linarith
  generalize roundBits 53 (W / 2) = v at *
  have hv : |v + C| ≤ 1000 + 1 / 2 ^ 42 := by
    have : v + C = (v - W / 2) + (W / 2 + C) := by ring
    rw [this]
    refine (abs_add_le _ _).trans ?_
    norm_num at *; linarith
  have h2 := add_is h1 hc (hv.trans (by norm_num))
  have e2 := roundBits_err 53 (by norm_num) (v + C)
  generalize roundBits 53 (v + C) = x at *
  refine ⟨x, h2, ?_, ?_⟩
  · have : x - (W / 2 + C) = (x - (v + C)) + (v - W / 2) := by ring
    rw [this]
    refine (abs_add_le _ _).trans ?_
    norm_num at *; linarith
  · have : x = (x - (v + C)) + (v + C) := by ring
    rw [this]
    refine (abs_add_le _ _).trans ?_
    norm_num at *; linarith

theorem neg_is {w : Flo} {W : ℝ} (hw : w.Is W) : (-w).Is (-W) := by
  obtain ⟨⟨v, h, e⟩, -⟩ := Rel.neg (hw.rel (b := 1) (Q := |W|) (by simp))
  rw [zero_mul] at e
  have := abs_nonpos_iff.1 e
  rwa [← show v = -W by linarith]

/-- The corners of a rectangle. -/
theorem corners {w dp : Flo} {c : Vec Flo} {W D : ℝ} {C : Vec ℝ} (hw : w.Is W) (hd : dp.Is D) (hc : c.FIs C)
    (w_ge : 2 ≤ W) (d_ge : 2 ≤ D) (x_le : |C.x| + W / 2 ≤ 1000) (y_le : |C.y| ≤ 1000) (z_le : |C.z| + D / 2 ≤ 1000)
    (hy : roundBits 53 C.y = C.y) (o a b : Vec Flo)
    (ho : o = (⟨-w / lit 2, lit 0, -dp / lit 2⟩ : Vec Flo).add c)
    (ha : a = (⟨-w / lit 2, lit 0, dp / lit 2⟩ : Vec Flo).add c)
    (hb : b = (⟨w / lit 2, lit 0, -dp / lit 2⟩ : Vec Flo).add c) :
    ∃ x0 x1 x2 z0 z1, Corners W D C x0 x1 x2 z0 z1 ∧ o.FIs ⟨x0, C.y, z0⟩ ∧ a.FIs ⟨x0, C.y, z1⟩ ∧ b.FIs ⟨x1, C.y, z0⟩ ∧
      (a.add (b.sub o)).FIs ⟨x2, C.y, z1⟩ := by
  have z : (lit 0 : Flo).Is 0 := by
    have := lit_is 0 0 0 (by simp) (by norm_num) (by norm_num) (by simp)
    simpa using this
  have aW : |W| = W := abs_of_pos (by linarith)
  have aD : |D| = D := abs_of_pos (by linarith)
  obtain ⟨x0, hx0, ex0, bx0⟩ := edge (neg_is hw) hc.1 (by rw [abs_neg, aW]; exact x_le)
  obtain ⟨x1, hx1, ex1, bx1⟩ := edge hw hc.1 (by rw [aW]; exact x_le)
  obtain ⟨z0, hz0, ez0, bz0⟩ := edge (neg_is hd) hc.2.2 (by rw [abs_neg, aD]; exact z_le)
  obtain ⟨z1, hz1, ez1, bz1⟩ := edge hd hc.2.2 (by rw [aD]; exact z_le)
  have hy0 : (lit 0 + c.y).Is C.y := by
    have := add_is z hc.2.1 (by rw [zero_add]; exact y_le.trans (by norm_num))
    rwa [zero_add, hy] at this
  have sx := sub_is hx1 hx0 (by rw [abs_le] at *; norm_num at *; constructor <;> linarith)
  have f1 := roundBits_err 53 (by norm_num) (x1 - x0)
  have hxx : |x1 - x0| ≤ 2002 := by rw [abs_le] at *; constructor <;> linarith
  set v := roundBits 53 (x1 - x0) with hv
  have hvx : |x0 + v - x1| ≤ 1 / 2 ^ 42 + 1 / 2 ^ 50 := by
    rw [show x0 + v - x1 = v - (x1 - x0) by ring]
    norm_num at *; linarith
  have hvb : |x0 + v| ≤ 1002 := by
    rw [abs_le] at *; norm_num at *; constructor <;> linarith
  have sx2 := add_is hx0 sx (hvb.trans (by norm_num))
  have f2 := roundBits_err 53 (by norm_num) (x0 + v)
  set x2 := roundBits 53 (x0 + v) with hx2
  have e12 : |x1 - x2| ≤ 1 / 2 ^ 42 + 1 / 2 ^ 50 + 1 / 2 ^ 42 := by
    rw [show x1 - x2 = -((x0 + v - x1) + (x2 - (x0 + v))) by ring, abs_neg]
    refine (abs_add_le _ _).trans ?_
    norm_num at *; linarith
  have sy : ((lit 0 + c.y) + ((lit 0 + c.y) - (lit 0 + c.y))).Is C.y := by
    have := add_is hy0 (hy0.sub_self hy0) (by rw [add_zero]; exact y_le.trans (by norm_num))
    rwa [add_zero, hy] at this
  have sz : ((dp / lit 2 + c.z) + ((-dp / lit 2 + c.z) - (-dp / lit 2 + c.z))).Is z1 := by
    have := add_is hz1 (hz0.sub_self hz0) (by rw [add_zero]; exact bz1.trans (by norm_num))
    obtain ⟨s, hs⟩ := hz1
    have hr : roundBits 53 z1 = z1 := by
      have h2 : (dp / lit 2 + c.z) = rnd ((dp / lit 2).e + c.z.e) := rfl
      rw [h2] at hs
      generalize (dp / lit 2).e + c.z.e = q at hs
      cases q with
      | nan => cases hs
      | inf s => cases hs
      | num q t =>
        rcases rnd_cases q t with ⟨u, h⟩ | ⟨u, h⟩
        · rw [h] at hs; cases hs
        · rw [h] at hs
          injection hs with hs
          rw [← hs, roundBits_again 53 (by norm_num)]
    rwa [add_zero, hr] at this
  subst ho ha hb
  refine ⟨x0, x1, x2, z0, z1, ?_, ⟨hx0, hy0, hz0⟩, ⟨hx0, hy0, hz1⟩, ⟨hx1, hy0, hz0⟩, ⟨sx2, sy, sz⟩⟩
  refine ⟨?_, ?_, ?_, ?_, ?_, ?_, w_ge, d_ge, x_le, y_le, z_le⟩
  · rw [abs_le] at *; norm_num at *; constructor <;> linarith
  · rw [abs_le] at *; norm_num at *; constructor <;> linarith
  · rw [abs_le] at *; norm_num at *; constructor <;> linarith
  · rw [abs_le] at *; norm_num at *; constructor <;> linarith
  · rw [abs_le] at *; norm_num at *; constructor <;> linarith
  · exact e12.trans (by norm_num)

variable {W D x0 x1 x2 z0 z1 : ℝ} {C : Vec ℝ}

/-- The coordinates in terms of the sizes. -/
theorem Corners.bounds (h : Corners W D C x0 x1 x2 z0 z1) : |x0| ≤ 1001 ∧ |x1| ≤ 1001 ∧ |x2| ≤ 1001 ∧ |z0| ≤ 1001 ∧ |z1| ≤ 1001 ∧
    |x1 - x0 - W| ≤ 1 / 2 ^ 39 ∧ |x2 - x0 - W| ≤ 1 / 2 ^ 39 ∧ |z1 - z0 - D| ≤ 1 / 2 ^ 39 ∧ W ≤ 2000 ∧ D ≤ 2000 := by
  obtain ⟨a, b, c, d, e, -, f, g, i, -, j⟩ := h
  have i1 := abs_nonneg C.x
  have i2 := abs_nonneg C.z
  have i3 := le_abs_self C.x
  have i4 := neg_abs_le C.x
  have i5 := le_abs_self C.z
  have i6 := neg_abs_le C.z
  simp only [abs_le] at a b c d e ⊢
  norm_num at a b c d e ⊢
  refine ⟨?_, ?_, ?_, ?_, ?_, ?_, ?_, ?_, ?_, ?_⟩ <;> first | linarith | (constructor <;> linarith)

/-- The first triangle. -/
theorem Corners.face1 (h : Corners W D C x0 x1 x2 z0 z1) {v0 v1 v2 : Vertex Flo} (h0 : v0.pos.FIs ⟨x0, C.y, z0⟩)
    (h1 : v1.pos.FIs ⟨x0, C.y, z1⟩) (h2 : v2.pos.FIs ⟨x1, C.y, z0⟩) :
    FlatFace v0 v1 v2 ⟨x0, C.y, z0⟩ 0 (z1 - z0) (x1 - x0) := by
  obtain ⟨-, -, -, -, -, a, -, b, e, f⟩ := h.bounds
  have c := h.w_ge
  have d := h.d_ge
  refine ⟨h0, ?_, ?_, by simp, ?_, ?_, ?_, ?_⟩
  · simpa using h1
  · simpa using h2
  all_goals
    rw [abs_le] at a b
    rw [abs_of_pos (by norm_num at *; linarith)]
    norm_num at *; linarith

/-- The second triangle. -/
theorem Corners.face2 (h : Corners W D C x0 x1 x2 z0 z1) {v0 v1 v2 : Vertex Flo} (h0 : v0.pos.FIs ⟨x2, C.y, z1⟩)
    (h1 : v1.pos.FIs ⟨x1, C.y, z0⟩) (h2 : v2.pos.FIs ⟨x0, C.y, z1⟩) :
    FlatFace v0 v1 v2 ⟨x2, C.y, z1⟩ (x1 - x2) (z0 - z1) (x0 - x2) := by
  obtain ⟨-, -, -, -, -, -, a, b, e, f⟩ := h.bounds
  have c := h.w_ge
  have d := h.d_ge
  refine ⟨h0, ?_, ?_, h.same, ?_, ?_, ?_, ?_⟩
  · simpa using h1
  · simpa using h2
  all_goals
    rw [abs_le] at a b
    rw [abs_of_neg (by norm_num at *; linarith)]
    norm_num at *; linarith

end Flo

end BR
