import Verif.Model.Construct
import Verif.Lemmas.GoM

/-! Helper lemmas for meshes: `calcNormals` only changes normals, and the shape of a quadrilateral. -/

namespace BR

variable {F M : Type} [Add F] [Sub F] [Mul F] [Div F] [Neg F] [GoFloat F]

set_option linter.unusedSectionVars false

/-- A vertex without its normal. -/
def Vertex.strip (v : Vertex F) : Vec F × F × F := (v.pos, v.u, v.v)

theorem map_modify_strip (vs : List (Vertex F)) (i : Nat) (f : Vertex F → Vertex F)
    (hf : ∀ v, (f v).strip = v.strip) : (vs.modify i f).map Vertex.strip = vs.map Vertex.strip := by
  induction vs generalizing i with
  | nil => simp
  | cons v vs ih =>
    cases i with
    | zero => simp [hf]
    | succ i => simp [ih]

theorem addNormals_strip (n : Vec F) (is : List Nat) (vs : List (Vertex F)) :
    (is.foldl (addNormal n) vs).map Vertex.strip = vs.map Vertex.strip := by
  induction is generalizing vs with
  | nil => rfl
  | cons i is ih => rw [List.foldl_cons, ih]; exact map_modify_strip _ _ _ (fun _ => rfl)

theorem normalizes_strip (is : List Nat) (vs : List (Vertex F)) :
    (is.foldl normalizeAt vs).map Vertex.strip = vs.map Vertex.strip := by
  induction is generalizing vs with
  | nil => rfl
  | cons i is ih => rw [List.foldl_cons, ih]; exact map_modify_strip _ _ _ (fun _ => rfl)

theorem accumNormal_strip (vs : List (Vertex F)) (f : Tri) :
    (accumNormal vs f).map Vertex.strip = vs.map Vertex.strip := by
  unfold accumNormal
  split
  · dsimp only
    split_ifs
    · rfl
    · exact addNormals_strip _ _ _
  · rfl

theorem calcNormals_strip (vs : List (Vertex F)) (faces : List Tri) :
    (calcNormals vs faces).map Vertex.strip = vs.map Vertex.strip := by
  have h1 : ∀ (fs : List Tri) (vs : List (Vertex F)),
      (fs.foldl accumNormal vs).map Vertex.strip = vs.map Vertex.strip := by
    intro fs
    induction fs with
    | nil => intro vs; rfl
    | cons f fs ih => intro vs; rw [List.foldl_cons, ih, accumNormal_strip]
  have h2 : ∀ (fs : List Tri) (vs : List (Vertex F)),
      (fs.foldl (fun vs f => f.corners.foldl normalizeAt vs) vs).map Vertex.strip
        = vs.map Vertex.strip := by
    intro fs
    induction fs with
    | nil => intro vs; rfl
    | cons f fs ih => intro vs; rw [List.foldl_cons, ih, normalizes_strip]
  rw [calcNormals, h2, h1]

theorem calcNormals_length (vs : List (Vertex F)) (faces : List Tri) :
    (calcNormals vs faces).length = vs.length := by
  have := congrArg List.length (calcNormals_strip vs faces)
  simpa using this

/-- Vertex `i` after `calcNormals`: same position and texture coordinates. -/
theorem calcNormals_get (vs : List (Vertex F)) (faces : List Tri) (i : Nat) (v : Vertex F)
    (h : vs[i]? = some v) : ∃ n, (calcNormals vs faces)[i]? = some { v with normal := n } := by
  have e := congrArg (fun l => l[i]?) (calcNormals_strip vs faces)
  simp only [List.getElem?_map, h, Option.map_some] at e
  cases hw : (calcNormals vs faces)[i]? with
  | none => simp [hw] at e
  | some w =>
    rw [hw, Option.map_some] at e
    have e' := Option.some.inj e
    simp only [Vertex.strip, Prod.mk.injEq] at e'
    refine ⟨w.normal, ?_⟩
    rw [Option.some.injEq, Vertex.ext_iff]
    exact ⟨e'.1, rfl, e'.2.1, e'.2.2⟩

/-- A quadrilateral is a tree with one leaf holding the triangles `a b d` and `c d b`, with texture coordinates
(0,0), (1,0), (1,1), (0,1) at `a`, `b`, `c`, `d`. -/
theorem quad_spec (S : Sorter (Obj F M)) (m : Option M) (a b c d : Vec F) :
    ∃ na nb nc nd : Vec F,
      let A : Vertex F := ⟨a, na, lit 0, lit 0⟩
      let B : Vertex F := ⟨b, nb, lit 1, lit 0⟩
      let C : Vertex F := ⟨c, nc, lit 1, lit 1⟩
      let D : Vertex F := ⟨d, nd, lit 0, lit 1⟩
      let fs : List (Obj F M) := [.face A B D, .face C D B]
      quadrilateral S m a b c d =
        (makeBoundingBox fs >>= fun bb => .ok (.withMaterial m (.tree (.leaf bb.toF fs)))) := by
  have hv : mkVertices [a, b, c, d] (some [((lit 0 : F), (lit 0 : F)), (lit 1, lit 0), (lit 1, lit 1), (lit 0, lit 1)])
      = .ok [⟨a, Vec.zero, lit 0, lit 0⟩, ⟨b, Vec.zero, lit 1, lit 0⟩, ⟨c, Vec.zero, lit 1, lit 1⟩,
        ⟨d, Vec.zero, lit 0, lit 1⟩] := rfl
  set vs : List (Vertex F) := [⟨a, Vec.zero, lit 0, lit 0⟩, ⟨b, Vec.zero, lit 1, lit 0⟩, ⟨c, Vec.zero, lit 1, lit 1⟩,
        ⟨d, Vec.zero, lit 0, lit 1⟩] with hvs
  have hf : quadFaces.mapM (triRef vs.length) = .ok [(0, 1, 3), (2, 3, 1)] := rfl
  obtain ⟨na, ha⟩ := calcNormals_get vs [(0, 1, 3), (2, 3, 1)] 0 _ rfl
  obtain ⟨nb, hb⟩ := calcNormals_get vs [(0, 1, 3), (2, 3, 1)] 1 _ rfl
  obtain ⟨nc, hc⟩ := calcNormals_get vs [(0, 1, 3), (2, 3, 1)] 2 _ rfl
  obtain ⟨nd, hd⟩ := calcNormals_get vs [(0, 1, 3), (2, 3, 1)] 3 _ rfl
  refine ⟨na, nb, nc, nd, ?_⟩
  dsimp only
  have hfs : ([(0, 1, 3), (2, 3, 1)] : List Tri).mapM (faceObj (M := M) (calcNormals vs [(0, 1, 3), (2, 3, 1)])) =
      .ok [.face ⟨a, na, lit 0, lit 0⟩ ⟨b, nb, lit 1, lit 0⟩ ⟨d, nd, lit 0, lit 1⟩,
        .face ⟨c, nc, lit 1, lit 1⟩ ⟨d, nd, lit 0, lit 1⟩ ⟨b, nb, lit 1, lit 0⟩] := by
    simp only [List.mapM_cons, List.mapM_nil, faceObj, ha, hb, hc, hd]
    rfl
  rw [quadrilateral, meshWithUV, hv, ok_bind, hf, ok_bind, meshObj]
  simp only [hfs, ok_bind, mkTree]
  rw [buildTree, if_pos (by simp [maxFacePerLeaf])]
  generalize makeBoundingBox (F := F) (M := M) _ = x
  cases x with
  | error e => rfl
  | ok bb => rfl

end BR
