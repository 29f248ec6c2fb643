import Verif.Spec.LitAssembly
import Verif.Spec.Normals

/-! Specification of lit triangles and of a lit horizontal rectangle as bodies. -/

namespace BR

/-- A corner of a triangle: where it is, the normal there and the position on the texture. -/
structure Corner where
  pos : Vec ℝ
  normal : Vec ℝ
  u : ℝ
  v : ℝ

/-- The corner at vertex `i` of a mesh of triangles: the normal is the direction of the sum of the unit normals of the
triangles there, which is not zero; `uv` are the positions on the texture. -/
def IsCorner (V : List (Vec ℝ)) (tris : List (Nat × Nat × Nat)) (uv : Nat → ℝ × ℝ) (i : Nat) (A : Corner) : Prop :=
  V[i]? = some A.pos ∧ normalSum V tris i ≠ ⟨0, 0, 0⟩ ∧ A.normal = vertexNormal V tris i ∧ A.u = (uv i).1 ∧ A.v = (uv i).2

/-- The body is a smooth triangle with these corners: at each point, the normal and the position on the texture are those of
the corners, with the weights of the point. The normals of the corners nowhere cancel. -/
structure Body.IsTriangle (look : Vec ℝ → Surface) (A B C : Corner) (b : Body) : Prop where
  on : ∀ p, b.on p ↔ InTriangle A.pos B.pos C.pos p
  shade : ∀ l0 l1 l2, IsWeights l0 l1 l2 →
    combine l0 l1 l2 A.normal B.normal C.normal ≠ ⟨0, 0, 0⟩ ∧
    b.normal (combine l0 l1 l2 A.pos B.pos C.pos) = unitVec (combine l0 l1 l2 A.normal B.normal C.normal) ∧
    b.look (combine l0 l1 l2 A.pos B.pos C.pos) =
      look ⟨A.u * l0 + B.u * l1 + C.u * l2, A.v * l0 + B.v * l1 + C.v * l2, 0⟩

/-- A horizontal rectangle around `C`, of width `W` along `x` and depth `D` along `z`, with the normal upwards. The surface
is given by the position in the rectangle: from 0 to 1 along `z` and along `x`. -/
noncomputable def rectBody (W D : ℝ) (C : Vec ℝ) (look : Vec ℝ → Surface) : Body :=
  ⟨fun p => p.y = C.y ∧ |p.x - C.x| ≤ W / 2 ∧ |p.z - C.z| ≤ D / 2, fun _ => ⟨0, 1, 0⟩,
    fun p => look ⟨(p.z - C.z) / D + 1 / 2, (p.x - C.x) / W + 1 / 2, 0⟩⟩

/-- The ray does not start in the plane of the rectangle; and it does not run in one of the vertical planes through its
edges, unless it leads away from the plane of the rectangle. -/
def ClearOfRect (W D : ℝ) (C : Vec ℝ) (R : Ray ℝ) : Prop :=
  R.start.y ≠ C.y ∧
  (((R.dir.x = 0 → |R.start.x - C.x| ≠ W / 2) ∧ (R.dir.z = 0 → |R.start.z - C.z| ≠ D / 2)) ∨
    0 ≤ (R.start.y - C.y) * R.dir.y)

/-- The point is farther than `ε` from the plane of the rectangle and from the vertical planes through its edges. -/
def OffRect (ε W D : ℝ) (C p : Vec ℝ) : Prop :=
  ε < |p.y - C.y| ∧ ε < |(|p.x - C.x|) - W / 2| ∧ ε < |(|p.z - C.z|) - D / 2|

/-- The coordinates of the point are at most `1e98`. -/
def InReach (p : Vec ℝ) : Prop := |p.x| ≤ 10 ^ 98 ∧ |p.y| ≤ 10 ^ 98 ∧ |p.z| ≤ 10 ^ 98

end BR
