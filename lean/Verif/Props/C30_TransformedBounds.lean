import Verif.Props.C29_Transformed

/-! C30: bounds of transformed objects. -/

namespace BR

open Ext

variable {M : Type}

/-- The bounds of a transformed object contain the image of every point of the original's bounds. -/
theorem C30_bounded_partial (o o' : Obj Ext M) (hp : o.Plain) (t : Affine Ext) (T : Affine ℝ)
    (ht : t.Is T) (e : o.mkTransformed t = .ok o') (b : BBox Ext) (B : BBox ℝ)
    (hb : o.bounds = .ok b) (hB : b.Is B) :
    ∃ b' B', o'.bounds = .ok b' ∧ b'.Is B' ∧ ∀ p, B.Mem p → B'.Mem (T.point p) := by
  obtain ⟨bb, b', h1, h2, rfl⟩ := o.mkTransformed_ok o' hp t e
  rw [hb] at h1; cases h1
  obtain ⟨b1, B1, e1, e2, hi⟩ := BBox.transform_is hB ht
  rw [e1] at h2; cases h2
  obtain ⟨B2, e3, -, himg, -⟩ := B.transform_real T
  rw [e2] at e3; cases e3
  exact ⟨b', B1, by rw [Obj.bounds], hi, himg⟩

/-- For finite bounds and a finite transform, the constructor does not fail. -/
theorem C30_succeeds (o : Obj Ext M) (hp : o.Plain) (t : Affine Ext) (T : Affine ℝ)
    (ht : t.Is T) (b : BBox Ext) (B : BBox ℝ) (hb : o.bounds = .ok b) (hB : b.Is B) :
    ∃ o', o.mkTransformed t = .ok o' := by
  obtain ⟨b1, B1, e1, e2, hi⟩ := BBox.transform_is hB ht
  exact ⟨.transformed b1 t t.inverse o, by rw [o.mkTransformed_plain hp, hb, ok_bind, e1]; rfl⟩

/-- The bounds are the least box with this property: every box that contains the images of all points
of the original's bounds contains them. -/
theorem C30_tight (o o' : Obj Ext M) (hp : o.Plain) (t : Affine Ext) (T : Affine ℝ)
    (ht : t.Is T) (e : o.mkTransformed t = .ok o') (b : BBox Ext) (B : BBox ℝ)
    (hb : o.bounds = .ok b) (hB : b.Is B) (hpr : B.Proper) (C : BBox ℝ)
    (hC : ∀ p, B.Mem p → C.Mem (T.point p)) :
    ∃ b' B', o'.bounds = .ok b' ∧ b'.Is B' ∧ ∀ q, B'.Mem q → C.Mem q := by
  obtain ⟨bb, b', h1, h2, rfl⟩ := o.mkTransformed_ok o' hp t e
  rw [hb] at h1; cases h1
  obtain ⟨b1, B1, e1, e2, hi⟩ := BBox.transform_is hB ht
  rw [e1] at h2; cases h2
  obtain ⟨B2, e3, -, -, hmin⟩ := B.transform_real T
  rw [e2] at e3; cases e3
  refine ⟨b', B1, by rw [Obj.bounds], hi, fun q hq => ?_⟩
  have hw := hmin C (by
    intro v hv
    apply hC
    obtain ⟨hx, hy, hz⟩ := (B.mem_hull v).1 hv
    simp only [List.mem_cons, List.not_mem_nil, or_false] at hx hy hz
    obtain ⟨p1, p2, p3⟩ := hpr
    refine ⟨?_, ?_, ?_, ?_, ?_, ?_⟩
    · rcases hx with h | h <;> rw [h]; assumption
    · rcases hx with h | h <;> rw [h]; assumption
    · rcases hy with h | h <;> rw [h]; assumption
    · rcases hy with h | h <;> rw [h]; assumption
    · rcases hz with h | h <;> rw [h]; assumption
    · rcases hz with h | h <;> rw [h]; assumption)
  rw [BBox.within_real] at hw
  obtain ⟨q1, q2, q3, q4, q5, q6⟩ := hq
  obtain ⟨a1, a2, a3, a4, a5, a6⟩ := hw
  refine ⟨?_, ?_, ?_, ?_, ?_, ?_⟩ <;> linarith

/-- A box and a shear meet the hypotheses. -/
example : ∃ (o : Obj Ext Unit) (t : Affine Ext) (T : Affine ℝ) (b : BBox Ext) (B : BBox ℝ),
    o.Plain ∧ t.Is T ∧ o.bounds = .ok b ∧ b.Is B ∧ B.Proper ∧ T.point ⟨0, 1, 0⟩ = ⟨5, 1, 0⟩ := by
  refine ⟨.box unitCube none, ⟨⟨⟨fin 1, fin 0, fin 0⟩, ⟨fin 5, fin 1, fin 0⟩, ⟨fin 0, fin 0, fin 1⟩⟩,
      ⟨fin 0, fin 0, fin 0⟩⟩, ⟨⟨⟨1, 0, 0⟩, ⟨5, 1, 0⟩, ⟨0, 0, 1⟩⟩, ⟨0, 0, 0⟩⟩, unitCube, unitCubeR,
    fun _ _ _ _ h => (by cases h), ?_, by rw [Obj.bounds], ?_, ?_, ?_⟩
  · exact ⟨⟨⟨⟨_, rfl⟩, ⟨_, rfl⟩, ⟨_, rfl⟩⟩, ⟨⟨_, rfl⟩, ⟨_, rfl⟩, ⟨_, rfl⟩⟩, ⟨⟨_, rfl⟩, ⟨_, rfl⟩, ⟨_, rfl⟩⟩⟩,
      ⟨_, rfl⟩, ⟨_, rfl⟩, ⟨_, rfl⟩⟩
  · exact ⟨⟨⟨_, rfl⟩, ⟨_, rfl⟩, ⟨_, rfl⟩⟩, ⟨_, rfl⟩, ⟨_, rfl⟩, ⟨_, rfl⟩⟩
  · norm_num [BBox.Proper, unitCubeR]
  · simp only [geo]; norm_num

/-! ## Unbounded objects -/

/-- Some corner of the infinite box has no image: the sum of a row is undefined for some signs. -/
private theorem row_nan (a b c d : Ext) (ha : a.IsFin) (hb : b.IsFin) :
    ∃ s1 s2 s3, a * inf s1 + b * inf s2 + c * inf s3 + d = nan := by
  obtain ⟨x, s, rfl⟩ := ha
  obtain ⟨y, s', rfl⟩ := hb
  by_cases hx : x = 0
  · exact ⟨true, true, true, by rw [num_mul_inf, if_pos hx]; simp⟩
  by_cases hy : y = 0
  · exact ⟨true, true, true, by rw [num_mul_inf (x := y), if_pos hy]; simp⟩
  refine ⟨sgn (num x s), !(sgn (num y s')), true, ?_⟩
  rw [num_mul_inf, if_neg hx, num_mul_inf, if_neg hy]
  simp

/-- Transforming an unbounded object panics, for every finite transform (even the unit transform):
the bounds of the result cannot be computed. -/
theorem C30_violated_unbounded (o : Obj Ext M) (hp : o.Plain) (hb : o.bounds = .ok BBox.infBox)
    (t : Affine Ext) (ht : t.IsFin) : ∃ e, o.mkTransformed t = .error e := by
  obtain ⟨⟨⟨a1, -, -⟩, ⟨b1, -, -⟩, -⟩, -⟩ := ht
  obtain ⟨s1, s2, s3, h⟩ := row_nan _ _ t.A.c2.x t.B.x a1 b1
  have hmem : (⟨inf s1, inf s2, inf s3⟩ : Vec Ext) ∈ (BBox.infBox : BBox Ext).hull := by
    cases s1 <;> cases s2 <;> cases s3 <;> simp [BBox.hull, BBox.infBox]
  have hnan : (t.point ⟨inf s1, inf s2, inf s3⟩).isNaN = true := by
    simp only [Vec.isNaN, Affine.point, Matrix.mulVec, Vec.add, h]
    rfl
  obtain ⟨e, he⟩ := C20_nan ((BBox.infBox : BBox Ext).hull.map t.point) _ (List.mem_map_of_mem hmem) hnan
  refine ⟨e, ?_⟩
  rw [o.mkTransformed_plain hp, hb, ok_bind, BBox.transform, he]
  rfl

/-- The complement of an object, a backdrop, and all of space are unbounded. -/
theorem C30_unbounded_objects (o : Obj Ext M) (m : Option M) (t : Affine Ext) (ht : t.IsFin) :
    (∃ e, (Obj.not o).mkTransformed t = .error e) ∧
    (∃ e, (Obj.backdrop m : Obj Ext M).mkTransformed t = .error e) ∧
    (∃ e, (Obj.allSpace : Obj Ext M).mkTransformed t = .error e) :=
  ⟨C30_violated_unbounded _ (fun _ _ _ _ h => by cases h) (by rw [Obj.bounds]) t ht,
   C30_violated_unbounded _ (fun _ _ _ _ h => by cases h) (by rw [Obj.bounds]) t ht,
   C30_violated_unbounded _ (fun _ _ _ _ h => by cases h) (by rw [Obj.bounds]) t ht⟩

/-- The unit transform is finite. -/
example : (Affine.unit : Affine Ext).IsFin :=
  ⟨⟨⟨⟨_, _, rfl⟩, ⟨_, _, rfl⟩, ⟨_, _, rfl⟩⟩, ⟨⟨_, _, rfl⟩, ⟨_, _, rfl⟩, ⟨_, _, rfl⟩⟩,
    ⟨⟨_, _, rfl⟩, ⟨_, _, rfl⟩, ⟨_, _, rfl⟩⟩⟩, ⟨_, _, rfl⟩, ⟨_, _, rfl⟩, ⟨_, _, rfl⟩⟩

end BR
