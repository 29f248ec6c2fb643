import Verif.Lemmas.Geom

/-!
# C27 Affine transform algebra (exact arithmetic)
-/

namespace BR

/-- `t.Before(s)` applies `t` first, then `s`, to points. -/
theorem C27_before_point (t s : Affine ℝ) (p : Vec ℝ) :
    (t.before s).point p = s.point (t.point p) := by
  simp only [geo, lit_real]; push_cast; refine ⟨?_, ?_, ?_⟩ <;> ring

/-- `t.After(s)` applies `s` first, then `t`. -/
theorem C27_after_point (t s : Affine ℝ) (p : Vec ℝ) :
    (t.after s).point p = t.point (s.point p) := C27_before_point s t p

/-- The same for directions. -/
theorem C27_before_dir (t s : Affine ℝ) (d : Vec ℝ) :
    (t.before s).dir d = s.dir (t.dir d) := Matrix.mul_mulVec _ _ _

/-- `ComposeLR` of any number of transforms applies them from left to right. -/
theorem C27_composeLR (ts : List (Affine ℝ)) (p : Vec ℝ) :
    (Affine.composeLR ts).point p = ts.foldl (fun q t => t.point q) p := by
  have key : ∀ (ts : List (Affine ℝ)) (c : Affine ℝ),
      (ts.foldl (fun comp t => comp.before t) c).point p
        = ts.foldl (fun q t => t.point q) (c.point p) := by
    intro ts
    induction ts with
    | nil => intro c; rfl
    | cons t ts ih => intro c; simp only [List.foldl_cons, ih, C27_before_point]
  have h1 : (Affine.unit : Affine ℝ).point p = p := by
    simp only [geo, lit_real]; push_cast; refine ⟨?_, ?_, ?_⟩ <;> ring
  rw [Affine.composeLR, key, h1]

/-- Composition is associative. -/
theorem C27_before_assoc (a b c : Affine ℝ) : (a.before b).before c = a.before (b.before c) := by
  simp only [geo, lit_real]; push_cast; refine ⟨⟨⟨?_, ?_, ?_⟩, ⟨?_, ?_, ?_⟩, ?_, ?_, ?_⟩, ?_, ?_, ?_⟩ <;> ring

/-- The unit transform is neutral on both sides. -/
theorem C27_unit (t : Affine ℝ) : t.before Affine.unit = t ∧ Affine.unit.before t = t := by
  constructor <;>
  · simp only [geo, lit_real]; push_cast; refine ⟨⟨⟨?_, ?_, ?_⟩, ⟨?_, ?_, ?_⟩, ?_, ?_, ?_⟩, ?_, ?_, ?_⟩ <;> ring

/-- Directions are differences of points, so they ignore the translation part. -/
theorem C27_dir (t : Affine ℝ) (p q : Vec ℝ) : t.dir (p.sub q) = (t.point p).sub (t.point q) := by
  simp only [geo]; refine ⟨?_, ?_, ?_⟩ <;> ring

/-- `Inverse` undoes an invertible transform on points, in both orders. -/
theorem C27_inverse_point (t : Affine ℝ) (h : t.A.det ≠ 0) (p : Vec ℝ) :
    t.inverse.point (t.point p) = p ∧ t.point (t.inverse.point p) = p := by
  have h1 := Matrix.inverse_mulVec t.A h
  have h2 := Matrix.mulVec_inverse t.A h
  constructor
  · simp only [Affine.inverse, Affine.point, Matrix.mulVec_add, h1]
    simp only [geo, lit_real]; push_cast; refine ⟨?_, ?_, ?_⟩ <;> ring
  · simp only [Affine.inverse, Affine.point, Matrix.mulVec_add, Matrix.mulVec_mul, h2]
    simp only [geo, lit_real]; push_cast; refine ⟨?_, ?_, ?_⟩ <;> ring

/-- `Inverse` undoes an invertible transform on directions, in both orders. -/
theorem C27_inverse_dir (t : Affine ℝ) (h : t.A.det ≠ 0) (d : Vec ℝ) :
    t.inverse.dir (t.dir d) = d ∧ t.dir (t.inverse.dir d) = d :=
  ⟨Matrix.inverse_mulVec t.A h d, Matrix.mulVec_inverse t.A h d⟩

/-- The determinant the code divides by is the usual determinant of the linear map
(row `i`, column `j` is the coefficient of input component `j` in output component `i`). -/
theorem C27_det (m : Matrix ℝ) :
    m.det = (Matrix.of ![![m.c0.x, m.c1.x, m.c2.x], ![m.c0.y, m.c1.y, m.c2.y],
      ![m.c0.z, m.c1.z, m.c2.z]]).det := by
  rw [Matrix.det_fin_three]
  simp [geo]; ring

/-- `WithOrigin(o)` is the same map in coordinates relative to `o`. -/
theorem C27_withOrigin (t : Affine ℝ) (o p : Vec ℝ) :
    (t.withOrigin o).point p = (t.point (p.sub o)).add o := by
  rw [Affine.withOrigin, C27_composeLR]
  simp only [List.foldl, geo, lit_real]; push_cast; refine ⟨?_, ?_, ?_⟩ <;> ring

/-- A linear map with a new origin keeps that origin fixed. -/
theorem C27_withOrigin_fixed (t : Affine ℝ) (ht : t.B = Vec.zero) (o : Vec ℝ) :
    (t.withOrigin o).point o = o := by
  rw [C27_withOrigin, Affine.point, ht]
  simp only [geo, lit_real]; push_cast; refine ⟨?_, ?_, ?_⟩ <;> ring

/-- `Scale(o, s)` multiplies the displacement from `o` by `s`. -/
theorem C27_scale (o : Vec ℝ) (s : ℝ) (p : Vec ℝ) :
    (Affine.scale o s).point p = o.add ((p.sub o).mul s) := by
  rw [Affine.scale, C27_withOrigin]
  simp only [geo, lit_real]; push_cast; refine ⟨?_, ?_, ?_⟩ <;> ring

/-- `Translate(d)` moves points by `d` and leaves directions alone. -/
theorem C27_translate (d p : Vec ℝ) :
    (Affine.translate d).point p = p.add d ∧ (Affine.translate d).dir p = p := by
  constructor <;>
  · simp only [geo, lit_real]; push_cast; refine ⟨?_, ?_, ?_⟩ <;> ring

/-- `MapBaseTo(o,x,y,z)` sends the origin and the three unit points to `o`, `x`, `y`, `z`. -/
theorem C27_mapBaseTo (o x y z : Vec ℝ) :
    (Affine.mapBaseTo o x y z).point Vec.zero = o ∧ (Affine.mapBaseTo o x y z).point Vec.ex = x ∧
    (Affine.mapBaseTo o x y z).point Vec.ey = y ∧ (Affine.mapBaseTo o x y z).point Vec.ez = z := by
  refine ⟨?_, ?_, ?_, ?_⟩ <;>
  · simp only [geo, lit_real]; push_cast; refine ⟨?_, ?_, ?_⟩ <;> ring

/-- Non-vacuity: a shear with translation is invertible, and it is not the identity. -/
example : (⟨⟨⟨1, 2, 0⟩, ⟨0, 1, 0⟩, ⟨3, 0, 2⟩⟩, ⟨1, 2, 3⟩⟩ : Affine ℝ).A.det ≠ 0 ∧
    (⟨⟨⟨1, 2, 0⟩, ⟨0, 1, 0⟩, ⟨3, 0, 2⟩⟩, ⟨1, 2, 3⟩⟩ : Affine ℝ).point ⟨1, 1, 1⟩ = ⟨5, 5, 5⟩ := by
  constructor <;> norm_num [geo]

/-- Order matters: the composition order theorem distinguishes the two orders. -/
example : ((Affine.translate ⟨1, 0, 0⟩).before (Affine.scale Vec.zero 2)).point Vec.zero
    ≠ ((Affine.scale Vec.zero 2).before (Affine.translate ⟨1, 0, 0⟩) : Affine ℝ).point Vec.zero := by
  rw [C27_before_point, C27_before_point, C27_scale, C27_scale]
  simp only [geo, lit_real]; norm_num

end BR
