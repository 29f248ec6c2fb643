import Verif.Num.Ext
import Verif.Model.BBox

/-! Specification vocabulary for boxes: closed boxes as point sets, in terms of Go's `<=`. -/

namespace BR

variable {F : Type} [GoFloat F]

/-- The point lies in the closed box. -/
def BBox.Contains (b : BBox F) (p : Vec F) : Prop :=
  (b.min.x <=. p.x) = true ∧ (p.x <=. b.max.x) = true ∧
  (b.min.y <=. p.y) = true ∧ (p.y <=. b.max.y) = true ∧
  (b.min.z <=. p.z) = true ∧ (p.z <=. b.max.z) = true

/-- The box `b` lies within the box `c`, coordinate by coordinate. -/
def BBox.Within (b c : BBox F) : Prop :=
  (c.min.x <=. b.min.x) = true ∧ (b.max.x <=. c.max.x) = true ∧
  (c.min.y <=. b.min.y) = true ∧ (b.max.y <=. c.max.y) = true ∧
  (c.min.z <=. b.min.z) = true ∧ (b.max.z <=. c.max.z) = true

/-- A point of the exact real box `[min, max]` of a ray's world. -/
def BBox.Mem (b : BBox ℝ) (p : Vec ℝ) : Prop :=
  b.min.x ≤ p.x ∧ p.x ≤ b.max.x ∧ b.min.y ≤ p.y ∧ p.y ≤ b.max.y ∧ b.min.z ≤ p.z ∧ p.z ≤ b.max.z

/-- The point has a coordinate in common with one of the faces. -/
def BBox.OnFacePlane (b : BBox ℝ) (p : Vec ℝ) : Prop :=
  p.x = b.min.x ∨ p.x = b.max.x ∨ p.y = b.min.y ∨ p.y = b.max.y ∨ p.z = b.min.z ∨ p.z = b.max.z

/-- The point is on the surface of the box. -/
def BBox.OnSurface (b : BBox ℝ) (p : Vec ℝ) : Prop := b.Mem p ∧ b.OnFacePlane p

/-- The corners are in order. -/
def BBox.Proper (b : BBox ℝ) : Prop := b.min.x ≤ b.max.x ∧ b.min.y ≤ b.max.y ∧ b.min.z ≤ b.max.z

/-- `e` is the finite number `x`, with either sign bit. -/
def Ext.Is (e : Ext) (x : ℝ) : Prop := ∃ s, e = .num x s

/-- The vector of extended numbers is the real vector `w`. -/
def Vec.Is (v : Vec Ext) (w : Vec ℝ) : Prop := v.x.Is w.x ∧ v.y.Is w.y ∧ v.z.Is w.z

/-- The box of extended numbers is the real box `B`. -/
def BBox.Is (b : BBox Ext) (B : BBox ℝ) : Prop := b.min.Is B.min ∧ b.max.Is B.max

/-- The matrix of extended numbers is the real matrix. -/
def Matrix.Is (m : Matrix Ext) (A : Matrix ℝ) : Prop := m.c0.Is A.c0 ∧ m.c1.Is A.c1 ∧ m.c2.Is A.c2

/-- The transform of extended numbers is the real transform. -/
def Affine.Is (t : Affine Ext) (T : Affine ℝ) : Prop := t.A.Is T.A ∧ t.B.Is T.B

/-- The ray of extended numbers is the real ray `R`. -/
def Ray.Is (r : Ray Ext) (R : Ray ℝ) : Prop := r.start.Is R.start ∧ r.dir.Is R.dir

end BR
