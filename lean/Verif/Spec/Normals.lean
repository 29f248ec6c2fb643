import Verif.Spec.Triangle

/-! Specification vocabulary for the normals of a mesh. -/

namespace BR

/-- The vector of length one in the direction of a vector that is not zero. -/
noncomputable def unitVec (v : Vec ℝ) : Vec ℝ := v.mul (1 / Real.sqrt (v.dot v))

open Classical in
/-- What a triangle (indices of its corners) contributes to the normal at vertex `i`: its unit normal for each of its
corners that is this vertex. Triangles without area contribute nothing. -/
noncomputable def cornerNormal (V : List (Vec ℝ)) (i : Nat) (f : Nat × Nat × Nat) : Vec ℝ :=
  match V[f.1]?, V[f.2.1]?, V[f.2.2]? with
  | some a, some b, some c =>
    if triNormal a b c = ⟨0, 0, 0⟩ then ⟨0, 0, 0⟩
    else (unitVec (triNormal a b c)).mul ([f.1, f.2.1, f.2.2].count i : ℝ)
  | _, _, _ => ⟨0, 0, 0⟩

/-- The sum of the unit normals of the triangles at vertex `i`. -/
noncomputable def normalSum (V : List (Vec ℝ)) (faces : List (Nat × Nat × Nat)) (i : Nat) : Vec ℝ :=
  (faces.map (cornerNormal V i)).foldl Vec.add ⟨0, 0, 0⟩

/-- The direction of the sum of the unit normals of the triangles at vertex `i`. -/
noncomputable def vertexNormal (V : List (Vec ℝ)) (faces : List (Nat × Nat × Nat)) (i : Nat) : Vec ℝ :=
  unitVec (normalSum V faces i)

end BR
