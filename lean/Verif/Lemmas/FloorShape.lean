import Verif.Lemmas.FloorUp

/-! What a rectangle consists of, in double precision. -/

namespace BR
set_option linter.unusedSectionVars false

section
variable {F M : Type} [Add F] [Sub F] [Mul F] [Div F] [Neg F] [GoFloat F]

/-- A quadrilateral, with its normals. -/
theorem quad_exact (S : Sorter (Obj F M)) (m : Option M) (a b c d n1 n2 : Vec F) (e1 : n1 = triangleNormal a b d)
    (e2 : n2 = triangleNormal c d b) (h1 : isBadVec n1 = false) (h2 : isBadVec n2 = false) (A B E D : Vertex F)
    (hA : A = ⟨a, (Vec.zero.add n1).normalized, lit 0, lit 0⟩)
    (hB : B = ⟨b, ((Vec.zero.add n1).add n2).normalized.normalized, lit 1, lit 0⟩)
    (hE : E = ⟨c, (Vec.zero.add n2).normalized, lit 1, lit 1⟩)
    (hD : D = ⟨d, ((Vec.zero.add n1).add n2).normalized.normalized, lit 0, lit 1⟩) :
    quadrilateral S m a b c d =
      (makeBoundingBox (M := M) [.face A B D, .face E D B] >>= fun bb => .ok (.withMaterial m (.tree (.leaf bb.toF [.face A B D, .face E D B])))) := by
  subst hA hB hE hD
  have hv : mkVertices [a, b, c, d] (some [((lit 0 : F), (lit 0 : F)), (lit 1, lit 0), (lit 1, lit 1), (lit 0, lit 1)])
      = .ok [⟨a, Vec.zero, lit 0, lit 0⟩, ⟨b, Vec.zero, lit 1, lit 0⟩, ⟨c, Vec.zero, lit 1, lit 1⟩,
        ⟨d, Vec.zero, lit 0, lit 1⟩] := rfl
  set vs : List (Vertex F) := [⟨a, Vec.zero, lit 0, lit 0⟩, ⟨b, Vec.zero, lit 1, lit 0⟩, ⟨c, Vec.zero, lit 1, lit 1⟩,
        ⟨d, Vec.zero, lit 0, lit 1⟩] with hvs
  have hf : quadFaces.mapM (triRef vs.length) = .ok [(0, 1, 3), (2, 3, 1)] := rfl
  have a1 : accumNormal vs (0, 1, 3) = [⟨a, Vec.zero.add n1, lit 0, lit 0⟩, ⟨b, Vec.zero.add n1, lit 1, lit 0⟩,
      ⟨c, Vec.zero, lit 1, lit 1⟩, ⟨d, Vec.zero.add n1, lit 0, lit 1⟩] := by
    rw [e1] at h1
    unfold accumNormal
    simp only [hvs, List.getElem?_cons_zero, List.getElem?_cons_succ]
    rw [if_neg (by rw [h1]; simp), e1]
    rfl
  have a2 : accumNormal [⟨a, Vec.zero.add n1, lit 0, lit 0⟩, ⟨b, Vec.zero.add n1, lit 1, lit 0⟩,
      ⟨c, Vec.zero, lit 1, lit 1⟩, ⟨d, Vec.zero.add n1, lit 0, lit 1⟩] (2, 3, 1) =
      [⟨a, Vec.zero.add n1, lit 0, lit 0⟩, ⟨b, (Vec.zero.add n1).add n2, lit 1, lit 0⟩,
      ⟨c, Vec.zero.add n2, lit 1, lit 1⟩, ⟨d, (Vec.zero.add n1).add n2, lit 0, lit 1⟩] := by
    rw [e2] at h2
    unfold accumNormal
    simp only [List.getElem?_cons_zero, List.getElem?_cons_succ]
    rw [if_neg (by rw [h2]; simp), e2]
    rfl
  have hc : calcNormals vs [(0, 1, 3), (2, 3, 1)] =
      [⟨a, (Vec.zero.add n1).normalized, lit 0, lit 0⟩, ⟨b, ((Vec.zero.add n1).add n2).normalized.normalized, lit 1, lit 0⟩,
      ⟨c, (Vec.zero.add n2).normalized, lit 1, lit 1⟩, ⟨d, ((Vec.zero.add n1).add n2).normalized.normalized, lit 0, lit 1⟩] := by
    have h : [(0, 1, 3), (2, 3, 1)].foldl accumNormal vs =
        [⟨a, Vec.zero.add n1, lit 0, lit 0⟩, ⟨b, (Vec.zero.add n1).add n2, lit 1, lit 0⟩,
      ⟨c, Vec.zero.add n2, lit 1, lit 1⟩, ⟨d, (Vec.zero.add n1).add n2, lit 0, lit 1⟩] := by
      rw [List.foldl_cons, a1, List.foldl_cons, a2, List.foldl_nil]
    unfold calcNormals
    rw [h]
    rfl
  have hfs : ([(0, 1, 3), (2, 3, 1)] : List Tri).mapM (faceObj (M := M) (calcNormals vs [(0, 1, 3), (2, 3, 1)])) =
      .ok [.face ⟨a, (Vec.zero.add n1).normalized, lit 0, lit 0⟩ ⟨b, ((Vec.zero.add n1).add n2).normalized.normalized, lit 1, lit 0⟩
        ⟨d, ((Vec.zero.add n1).add n2).normalized.normalized, lit 0, lit 1⟩,
        .face ⟨c, (Vec.zero.add n2).normalized, lit 1, lit 1⟩ ⟨d, ((Vec.zero.add n1).add n2).normalized.normalized, lit 0, lit 1⟩
        ⟨b, ((Vec.zero.add n1).add n2).normalized.normalized, lit 1, lit 0⟩] := by
    rw [hc]; rfl
  rw [quadrilateral, meshWithUV, hv, ok_bind, hf, ok_bind, meshObj]
  simp only [hfs, ok_bind, mkTree]
  rw [buildTree, if_pos (by simp [maxFacePerLeaf])]
  generalize makeBoundingBox (F := F) (M := M) _ = x
  cases x with
  | error e => rfl
  | ok bb => rfl

end

open Flo

/-- The parts of a rectangle in double precision. -/
structure FloorParts (bb : BBox Flo) (O A B E : Vertex Flo) (W D : ℝ) (C : Vec ℝ) (x0 x1 x2 z0 z1 : ℝ) : Prop where
  corners : Corners W D C x0 x1 x2 z0 z1
  lo : bb.min.FIs ⟨x0, C.y, z0⟩
  hi : bb.max.FIs ⟨max x1 x2, C.y, z1⟩
  o : O.pos.FIs ⟨x0, C.y, z0⟩
  a : A.pos.FIs ⟨x0, C.y, z1⟩
  b : B.pos.FIs ⟨x1, C.y, z0⟩
  e : E.pos.FIs ⟨x2, C.y, z1⟩
  no : Up O.normal
  na : Up A.normal
  nb : Up B.normal
  ne : Up E.normal
  uo : O.u = lit 0 ∧ O.v = lit 0
  ua : A.u = lit 1 ∧ A.v = lit 0
  ub : B.u = lit 0 ∧ B.v = lit 1
  ue : E.u = lit 1 ∧ E.v = lit 1

/-- **A rectangle** is a tree of two triangles, whose corners are as computed. -/
theorem floor_shape_at {M : Type} (S : Sorter (Obj Flo M)) (m : Option M) {w dp : Flo} {c : Vec Flo} {W D : ℝ} {C : Vec ℝ}
    (hw : w.Is W) (hd : dp.Is D) (hc : c.FIs C)
    (w_ge : 2 ≤ W) (d_ge : 2 ≤ D) (x_le : |C.x| + W / 2 ≤ 1000) (y_le : |C.y| ≤ 1000) (z_le : |C.z| + D / 2 ≤ 1000)
    (hy : roundBits 53 C.y = C.y) : ∃ bb O A B E x0 x1 x2 z0 z1, FloorParts bb O A B E W D C x0 x1 x2 z0 z1 ∧
      rectangle S m w dp c = .ok (.withMaterial m (.tree (.leaf bb.toF [.face O A B, .face E B A]))) ∧
      O.pos = (⟨-w / lit 2, lit 0, -dp / lit 2⟩ : Vec Flo).add c ∧ A.pos = (⟨-w / lit 2, lit 0, dp / lit 2⟩ : Vec Flo).add c ∧
      B.pos = (⟨w / lit 2, lit 0, -dp / lit 2⟩ : Vec Flo).add c ∧ E.pos = A.pos.add (B.pos.sub O.pos) := by
  obtain ⟨x0, x1, x2, z0, z1, cor, ho, ha, hb, he⟩ := Flo.corners hw hd hc w_ge d_ge x_le y_le z_le hy _ _ _ rfl rfl rfl
  rw [rectangle, rectangleWithVertices]
  generalize (⟨-w / lit 2, lit 0, -dp / lit 2⟩ : Vec Flo).add c = o at *
  generalize (⟨-w / lit 2, lit 0, dp / lit 2⟩ : Vec Flo).add c = a at *
  generalize (⟨w / lit 2, lit 0, -dp / lit 2⟩ : Vec Flo).add c = b at *
  generalize corner : a.add (b.sub o) = e at *
  obtain ⟨-, -, -, -, -, q1, q2, q3, -, -⟩ := cor.bounds
  have g1 := cor.w_ge
  have g2 := cor.d_ge
  have k1 : 0 < x1 - x0 := by rw [abs_le] at q1; norm_num at *; linarith
  have k2 : 0 < x2 - x0 := by rw [abs_le] at q2; norm_num at *; linarith
  have k3 : 0 < z1 - z0 := by rw [abs_le] at q3; norm_num at *; linarith
  have u1 : Up (triangleNormal o a b) :=
    (cor.face1 (v0 := ⟨o, Vec.zero, lit 0, lit 0⟩) (v1 := ⟨a, Vec.zero, lit 0, lit 0⟩) (v2 := ⟨b, Vec.zero, lit 0, lit 0⟩) ho ha hb).up
      (mul_pos k3 k1)
  have u2 : Up (triangleNormal e b a) :=
    (cor.face2 (v0 := ⟨e, Vec.zero, lit 0, lit 0⟩) (v1 := ⟨b, Vec.zero, lit 0, lit 0⟩) (v2 := ⟨a, Vec.zero, lit 0, lit 0⟩) he hb ha).up
      (mul_pos_of_neg_of_neg (by linarith) (by linarith))
  have q := quad_exact S m o a e b _ _ rfl rfl u1.not_bad u2.not_bad _ _ _ _ rfl rfl rfl rfl
  rw [q]
  obtain ⟨bb, ebb, hlo, hhi⟩ := cor.box (M := M)
    (o := ⟨o, ((Vec.zero : Vec Flo).add (triangleNormal o a b)).normalized, lit 0, lit 0⟩)
    (a := ⟨a, (((Vec.zero : Vec Flo).add (triangleNormal o a b)).add (triangleNormal e b a)).normalized.normalized, lit 1, lit 0⟩)
    (b := ⟨b, (((Vec.zero : Vec Flo).add (triangleNormal o a b)).add (triangleNormal e b a)).normalized.normalized, lit 0, lit 1⟩)
    (e := ⟨e, ((Vec.zero : Vec Flo).add (triangleNormal e b a)).normalized, lit 1, lit 1⟩) ho ha hb he
  rw [ebb, ok_bind]
  exact ⟨bb, _, _, _, _, x0, x1, x2, z0, z1, ⟨cor, hlo, hhi, ho, ha, hb, he, u1.zero_add, (u1.zero_add_add u2).again,
    (u1.zero_add_add u2).again, u2.zero_add, ⟨rfl, rfl⟩, ⟨rfl, rfl⟩, ⟨rfl, rfl⟩, ⟨rfl, rfl⟩⟩, rfl, rfl, rfl, rfl, corner.symm⟩

/-- **A rectangle** is a tree of two triangles. -/
theorem floor_shape {M : Type} (S : Sorter (Obj Flo M)) (m : Option M) {w dp : Flo} {c : Vec Flo} {W D : ℝ} {C : Vec ℝ}
    (hw : w.Is W) (hd : dp.Is D) (hc : c.FIs C)
    (w_ge : 2 ≤ W) (d_ge : 2 ≤ D) (x_le : |C.x| + W / 2 ≤ 1000) (y_le : |C.y| ≤ 1000) (z_le : |C.z| + D / 2 ≤ 1000)
    (hy : roundBits 53 C.y = C.y) : ∃ bb O A B E x0 x1 x2 z0 z1, FloorParts bb O A B E W D C x0 x1 x2 z0 z1 ∧
      rectangle S m w dp c = .ok (.withMaterial m (.tree (.leaf bb.toF [.face O A B, .face E B A]))) := by
  obtain ⟨bb, O, A, B, E, x0, x1, x2, z0, z1, h, e, -⟩ := floor_shape_at S m hw hd hc w_ge d_ge x_le y_le z_le hy
  exact ⟨bb, O, A, B, E, x0, x1, x2, z0, z1, h, e⟩

end BR
