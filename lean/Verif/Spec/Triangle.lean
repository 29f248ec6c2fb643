import Verif.Spec.Box
import Verif.Model.Object

/-! Specification vocabulary for triangles: the points of a triangle as weighted combinations of its
corners. -/

namespace BR

/-- Non-negative weights with sum one. -/
def IsWeights (l0 l1 l2 : ℝ) : Prop := 0 ≤ l0 ∧ 0 ≤ l1 ∧ 0 ≤ l2 ∧ l0 + l1 + l2 = 1

/-- The weighted combination of three vectors. -/
def combine (l0 l1 l2 : ℝ) (a b c : Vec ℝ) : Vec ℝ := ((a.mul l0).add (b.mul l1)).add (c.mul l2)

/-- The (unnormalised) normal of the triangle. -/
def triNormal (a b c : Vec ℝ) : Vec ℝ := (b.sub a).cross (c.sub a)

/-- The point lies in the closed triangle. -/
def InTriangle (a b c p : Vec ℝ) : Prop := ∃ l0 l1 l2, IsWeights l0 l1 l2 ∧ p = combine l0 l1 l2 a b c

/-- The triangle has an area and the direction is not parallel to it. -/
def Transverse (a b c d : Vec ℝ) : Prop := (triNormal a b c).dot d ≠ 0

/-- The point shares a coordinate with one of the points. -/
def SharesCoordinate (l : List (Vec ℝ)) (p : Vec ℝ) : Prop := ∃ q ∈ l, p.x = q.x ∨ p.y = q.y ∨ p.z = q.z

/-- The point lies beyond all the points along one of the axes. -/
def Beyond (l : List (Vec ℝ)) (p : Vec ℝ) : Prop :=
  (∀ q ∈ l, p.x < q.x) ∨ (∀ q ∈ l, q.x < p.x) ∨ (∀ q ∈ l, p.y < q.y) ∨ (∀ q ∈ l, q.y < p.y) ∨
  (∀ q ∈ l, p.z < q.z) ∨ ∀ q ∈ l, q.z < p.z

/-- The start of the ray shares no coordinate with one of the points; or it lies beyond all of them along one of the
axes, and shares a coordinate only along axes the ray moves in. -/
def StartsClear (l : List (Vec ℝ)) (R : Ray ℝ) : Prop :=
  ¬ SharesCoordinate l R.start ∨
  (Beyond l R.start ∧ ∀ q ∈ l, (R.dir.x = 0 → R.start.x ≠ q.x) ∧ (R.dir.y = 0 → R.start.y ≠ q.y) ∧
    (R.dir.z = 0 → R.start.z ≠ q.z))

/-- The smallest box that holds the points. -/
def BBox.Spans (B : BBox ℝ) (l : List (Vec ℝ)) : Prop :=
  (∀ p ∈ l, B.Mem p) ∧ (∃ p ∈ l, B.min.x = p.x) ∧ (∃ p ∈ l, B.max.x = p.x) ∧ (∃ p ∈ l, B.min.y = p.y) ∧
  (∃ p ∈ l, B.max.y = p.y) ∧ (∃ p ∈ l, B.min.z = p.z) ∧ ∃ p ∈ l, B.max.z = p.z

/-- What a surface reports for a ray: the first forward crossing, if there is one. Otherwise a miss or, if `small`, the
distance `9e99`. -/
def ReportsFirst {M : Type} (on : Vec ℝ → Prop) (R : Ray ℝ) (small : Prop) (hit : HitRecord Ext M) : Prop :=
  (∃ T, hit.t.Is T ∧ 0 < T ∧ on (R.at T) ∧ ∀ T' > 0, on (R.at T') → T ≤ T') ∨
  ((∀ T > 0, ¬ on (R.at T)) ∧ ((lit 0 <. hit.t) = false ∨ small ∧ hit.t = lit (9 * 10 ^ 99)))

end BR
