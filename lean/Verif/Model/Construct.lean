import Verif.Model.Object

/-! Model of the constructors in `/repo/tracer/objects` and the placement helpers of
`/repo/api/object.go`. -/

namespace BR

variable {F M : Type} [Add F] [Sub F] [Mul F] [Div F] [Neg F] [GoFloat F]

namespace Obj

/-- tracer/objects/box.go:11-20 `Box`. -/
def mkBox (m : Option M) (width height depth : F) (center : Vec F) : Obj F M :=
  .box ((⟨⟨-width / lit 2, -height / lit 2, -depth / lit 2⟩,
    ⟨width / lit 2, height / lit 2, depth / lit 2⟩⟩ : BBox F).translated center) m

/-- tracer/objects/box.go:22-30 `BoxWithBounds`. -/
def boxWithBounds (m : Option M) (min max : Vec F) : Obj F M := .box ⟨min, max⟩ m

/-- tracer/objects/quadric.go:9-25 `Sphere`. -/
def sphereQ (m : Option M) (diam : F) (center : Vec F) : Quadric F M :=
  let r := diam / lit 2
  { mat := m, origin := center, a := ⟨lit 1, lit 1, lit 1⟩, b := r * r,
    bounds := ((⟨⟨-r, -r, -r⟩, ⟨r, r, r⟩⟩ : BBox F).translated center).withMargin tiny }

@[inherit_doc sphereQ]
def sphere (m : Option M) (diam : F) (center : Vec F) : Obj F M := .quadric (sphereQ m diam center)

/-- tracer/objects/quadric.go:27-39 `Cylinder`. -/
def cylinderQ (m : Option M) (diam height : F) (center : Vec F) : Quadric F M :=
  let r := diam / lit 2
  { mat := m, origin := center, a := ⟨lit 1, lit 0, lit 1⟩, b := r * r,
    bounds := ((⟨⟨-r, -height / lit 2, -r⟩, ⟨r, height / lit 2, r⟩⟩ : BBox F).translated
      center).withMargin tiny }

@[inherit_doc cylinderQ]
def cylinder (m : Option M) (diam height : F) (center : Vec F) : Obj F M :=
  .quadric (cylinderQ m diam height center)

/-- tracer/objects/quadric.go:41-57 `CylinderDir` (`dir` must be 0, 1 or 2; other values panic). -/
def cylinderDirQ (m : Option M) (dir : Fin 3) (diam height : F) (center : Vec F) : Quadric F M :=
  let r := diam / lit 2
  let a : Vec F := (⟨lit 1, lit 1, lit 1⟩ : Vec F).set dir (lit 0)
  let bMin : Vec F := (⟨-r, -r, -r⟩ : Vec F).set dir (-height / lit 2)
  { mat := m, origin := center, a := a, b := r * r,
    bounds := ((⟨bMin, bMin.mul (lit (-1))⟩ : BBox F).translated center).withMargin tiny }

/-- tracer/objects/quadric.go:59-61 `CylinderWithCaps`. -/
def cylinderWithCaps (m : Option M) (diam height : F) (center : Vec F) : Obj F M :=
  .and (cylinder m diam height center) (mkBox m diam height diam center)

/-- tracer/objects/isosurface.go:21-31 `IsoSurface` (`fuel`: see `Iso`). -/
def isoSurface (fuel : Nat) (m : Option M) (dx dy dz : F) (f : F → F → F) : Obj F M :=
  .iso { bounds := ⟨⟨lit 0, lit 0, lit 0⟩, ⟨dx, dy, dz⟩⟩, tol := lit (1 / (1024 * 1024)), mat := m,
         hmap := f, fuel := fuel }

/-- tracer/objects/bounded.go:11-13 `Bounded`. -/
def mkBounded (orig : Obj F M) : GoM (Obj F M) := do return .bounded (← orig.bounds) orig

/-- tracer/objects/csg.go:196-198 `Difference`; also api/object.go:167-169 `AndNot`. -/
def difference (a b : Obj F M) : Obj F M := .and a (.not b)

/-- api/object.go:171-173 `Remove`. -/
def remove (a b : Obj F M) : Obj F M := .restrict a (.not b)

/-- tracer/objects/transformed.go:20-30 `Transformed`. -/
def mkTransformed : Obj F M → Affine F → GoM (Obj F M)
  | .transformed _ forward _ orig, t => mkTransformed orig (forward.before t)
  | object, t => do
    let bb ← object.bounds
    let bounds ← bb.transform t
    return .transformed bounds t t.inverse object

/-- tracer/objects/transformed.go:88-90 `Translated`; api/object.go:126-128 `Translate`. -/
def translate (o : Obj F M) (delta : Vec F) : GoM (Obj F M) := o.mkTransformed (Affine.translate delta)

/-- api/object.go:108-111 `WithCenter`. -/
def withCenter (o : Obj F M) (pos : Vec F) : GoM (Obj F M) := do
  let b ← o.bounds
  o.translate (pos.sub b.center)

/-- api/object.go:113-116 `WithCenterBottom`. -/
def withCenterBottom (o : Obj F M) (pos : Vec F) : GoM (Obj F M) := do
  let b ← o.bounds
  o.translate (pos.sub b.centerBottom)

/-- api/object.go:118-124 `Rotate`, `RotateAt`. -/
def rotate (o : Obj F M) (axis : Vec F) (radians : F) : GoM (Obj F M) := do
  let b ← o.bounds
  o.mkTransformed (Affine.rotate b.center axis radians)

/-- api/object.go:134-136 `Scale`. -/
def scale (o : Obj F M) (s : F) : GoM (Obj F M) := do
  let b ← o.bounds
  o.mkTransformed (Affine.scale b.center s)

/-- api/object.go:150-153 `ScaleToSize`: uses the X size. -/
def scaleToSize (o : Obj F M) (maxSize : F) : GoM (Obj F M) := do
  let b ← o.bounds
  o.scale (maxSize / b.size.x)

end Obj

/-! ## Trees -/

/-- tracer/objects/tree.go:167-174 `makeBoundingBox`. -/
def makeBoundingBox (children : List (Obj F M)) : GoM (BBox F) := do
  let bs ← children.mapM Obj.bounds
  BBox.fromHull (bs.flatMap fun b => [b.min, b.max])

/-- tracer/objects/tree.go:288-298 `argMax`. -/
def argMax (v : Vec F) : Fin 3 :=
  let step := fun (st : Fin 3 × F) (i : Fin 3) => if v.get i >. st.2 then (i, v.get i) else st
  ([0, 1, 2].foldl step (0, v.get 0)).1

/-- What `sort.Slice` (tree.go:45-49) does to the slice: some rearrangement of it, depending on
the split direction. The comparison function of the code cannot panic here because
`makeBoundingBox` has evaluated all bounds before. -/
structure Sorter (α : Type) where
  sort : Fin 3 → List α → List α
  perm : ∀ d l, (sort d l).Perm l

/-- tracer/objects/tree.go:45-49, the comparison function given to `sort.Slice`, on the elements `ch[i]`, `ch[j]`. -/
def treeLess (splitDir : Fin 3) (ci cj : Obj F M) : GoM Bool := do
  let bi ← ci.bounds
  let bj ← cj.bounds
  return bi.min.get splitDir + bi.max.get splitDir <. bj.min.get splitDir + bj.max.get splitDir

/-- tracer/objects/tree.go:11 `maxFacePerLeaf`. -/
def maxFacePerLeaf : Nat := 7

/-- tracer/objects/tree.go:34-57 `buildTree`. Sorting happens in place on the caller's slice and
its sub-slices; the second component is the contents of the slice afterwards. -/
def buildTree (S : Sorter (Obj F M)) (ch : List (Obj F M)) : GoM (Node F M × List (Obj F M)) :=
  if ch.length ≤ maxFacePerLeaf then do
    let bb ← makeBoundingBox ch
    return (.leaf bb.toF ch, ch)
  else do
    let bb ← makeBoundingBox ch
    let splitDir := argMax (bb.max.sub bb.min)
    let sorted := S.sort splitDir ch
    let (l, chl) ← buildTree S (sorted.take (ch.length / 2))
    let (r, chr) ← buildTree S (sorted.drop (ch.length / 2))
    return (.inner bb.toF l r, chl ++ chr)
termination_by ch.length
decreasing_by
  · have := (S.perm splitDir ch).length_eq
    simp only [List.length_take, maxFacePerLeaf] at *
    omega
  · have := (S.perm splitDir ch).length_eq
    have h2 := (S.perm (argMax (bb.max.sub bb.min)) ch).length_eq
    simp only [List.length_drop, maxFacePerLeaf] at *
    omega

/-- tracer/objects/tree.go:15-19 `Tree`. The argument slice is the caller's when called as
`Tree(list...)`; the second component is its contents afterwards. -/
def mkTree (S : Sorter (Obj F M)) (objects : List (Obj F M)) : GoM (Obj F M × List (Obj F M)) := do
  let (root, l) ← buildTree S objects
  return (.tree root, l)

/-! ## Meshes -/

/-- util/util.go:68-70 `IsBad`. -/
def isBad (x : F) : Bool := GoFloat.isNaN x || x ==. GoFloat.inf || x ==. -GoFloat.inf

/-- util/util.go:72-74 `IsBadVec`. -/
def isBadVec (v : Vec F) : Bool := isBad v.x || isBad v.y || isBad v.z

/-- A mesh face as pointers (indices) to shared vertices, mesh.go:256. -/
abbrev Tri := Nat × Nat × Nat

/-- The corners of a face in order. -/
def Tri.corners (f : Tri) : List Nat := [f.1, f.2.1, f.2.2]

/-- `v.Normal = v.Normal.Add(n)` for the vertex at index `i` (mesh.go:391). -/
def addNormal (n : Vec F) (vs : List (Vertex F)) (i : Nat) : List (Vertex F) :=
  vs.modify i fun v => { v with normal := v.normal.add n }

/-- `v.Normal.Normalize()` for the vertex at index `i` (mesh.go:398). -/
def normalizeAt (vs : List (Vertex F)) (i : Nat) : List (Vertex F) :=
  vs.modify i fun v => { v with normal := v.normal.normalized }

/-- mesh.go:384-393, one face (faces with indices out of range do not exist in Go: they would
have panicked on construction). -/
def accumNormal (vs : List (Vertex F)) (f : Tri) : List (Vertex F) :=
  match vs[f.1]?, vs[f.2.1]?, vs[f.2.2]? with
  | some a, some b, some c =>
    let n := triangleNormal a.pos b.pos c.pos
    if isBadVec n then vs else f.corners.foldl (addNormal n) vs
  | _, _, _ => vs

/-- tracer/objects/mesh.go:377-401 `calcNormals`. -/
def calcNormals (vs : List (Vertex F)) (faces : List Tri) : List (Vertex F) :=
  let vs := faces.foldl accumNormal vs
  faces.foldl (fun vs f => f.corners.foldl normalizeAt vs) vs

/-- The face object with the current vertices. -/
def faceObj (vs : List (Vertex F)) (f : Tri) : GoM (Obj F M) :=
  match vs[f.1]?, vs[f.2.1]?, vs[f.2.2]? with
  | some a, some b, some c => .ok (.face a b c)
  | _, _, _ => .error .indexOutOfRange

/-- tracer/objects/mesh.go:54-69 `mesh`. -/
def meshObj (S : Sorter (Obj F M)) (m : Option M) (vs : List (Vertex F)) (faces : List Tri) :
    GoM (Obj F M) := do
  let vs := calcNormals vs faces
  let fs ← faces.mapM (faceObj vs)
  let (t, _) ← mkTree S fs
  return .withMaterial m t

/-- `&Vertices[idx]` (mesh.go:47): the index, checked. -/
def vertexRef (n : Nat) (idx : Int) : GoM Nat :=
  if 0 ≤ idx ∧ idx < n then .ok idx.toNat else .error .indexOutOfRange

/-- mesh.go:45-49, one face. -/
def triRef (n : Nat) (f : Int × Int × Int) : GoM Tri := do
  return (← vertexRef n f.1, ← vertexRef n f.2.1, ← vertexRef n f.2.2)

/-- mesh.go:34-41: positions to vertices; `UV` is nil (`none`) or must be long enough. -/
def mkVertices (vertices : List (Vec F)) (UV : Option (List (F × F))) : GoM (List (Vertex F)) :=
  match UV with
  | none => .ok (vertices.map fun p => ⟨p, Vec.zero, lit 0, lit 0⟩)
  | some uv =>
    (vertices.zipIdx).mapM fun (p, i) =>
      match uv[i]? with
      | some (u, v) => .ok ⟨p, Vec.zero, u, v⟩
      | none => .error .indexOutOfRange

/-- tracer/objects/mesh.go:30-51 `MeshWithUV`; `Mesh` (lines 22-24) is `UV = none`. -/
def meshWithUV (S : Sorter (Obj F M)) (m : Option M) (vertices : List (Vec F))
    (faceIdx : List (Int × Int × Int)) (UV : Option (List (F × F))) : GoM (Obj F M) := do
  let vs ← mkVertices vertices UV
  let faces ← faceIdx.mapM (triRef vs.length)
  meshObj S m vs faces

/-- tracer/objects/mesh.go:75-81 `Triangle`. -/
def triangle (S : Sorter (Obj F M)) (m : Option M) (a b c : Vec F) : GoM (Obj F M) :=
  meshWithUV S m [a, b, c] [(0, 1, 2)] (some [(lit 0, lit 0), (lit 1, lit 0), (lit 0, lit 1)])

/-- The face list of mesh.go:127. -/
def quadFaces : List (Int × Int × Int) := [(0, 1, 3), (2, 3, 1)]

/-- tracer/objects/mesh.go:124-130 `Quadrilateral`. -/
def quadrilateral (S : Sorter (Obj F M)) (m : Option M) (a b c d : Vec F) : GoM (Obj F M) :=
  meshWithUV S m [a, b, c, d] quadFaces
    (some [(lit 0, lit 0), (lit 1, lit 0), (lit 1, lit 1), (lit 0, lit 1)])

/-- tracer/objects/mesh.go:96-99 `RectangleWithVertices`. -/
def rectangleWithVertices (S : Sorter (Obj F M)) (m : Option M) (o a b : Vec F) : GoM (Obj F M) :=
  quadrilateral S m o a (a.add (b.sub o)) b

/-- tracer/objects/mesh.go:103-109 `Rectangle`. -/
def rectangle (S : Sorter (Obj F M)) (m : Option M) (width depth : F) (center : Vec F) :
    GoM (Obj F M) :=
  rectangleWithVertices S m
    ((⟨-width / lit 2, lit 0, -depth / lit 2⟩ : Vec F).add center)
    ((⟨-width / lit 2, lit 0, depth / lit 2⟩ : Vec F).add center)
    ((⟨width / lit 2, lit 0, -depth / lit 2⟩ : Vec F).add center)

/-- tracer/objects/mesh.go:132-134 `Disk`. -/
def disk (S : Sorter (Obj F M)) (m : Option M) (diam : F) (center : Vec F) : GoM (Obj F M) := do
  let r ← rectangle S m diam diam center
  return .restrict r (Obj.cylinder none diam (lit 8 * tiny) center)

/-- One loaded polygon, mesh.go:211-219. -/
def polySplit (f : List Int) : GoM (List (Int × Int × Int)) :=
  match f with
  | [a, b, c] => .ok [(a, b, c)]
  | [a, b, c, d] => .ok [(a, b, c), (c, d, a)]
  | _ => .error (.msg "want 3 or 4 vertices")

/-- tracer/objects/mesh.go:208-222 `plyObj`. -/
def plyObj (S : Sorter (Obj F M)) (m : Option M) (v : List (Vec F)) (f : List (List Int)) :
    GoM (Obj F M) := do
  let f2 ← f.mapM polySplit
  meshWithUV S m v f2.flatten none

/-! ## Parametric surfaces -/

/-- mesh.go:151-153 `I`. -/
def paramIndex (numV iu iv : Nat) : Nat := iu * numV + iv

/-- The iterations `(iu, iv)` of mesh.go:159-161 in order. -/
def paramCells (numU numV : Nat) : List (Nat × Nat) :=
  (List.range numU).flatMap fun iu => (List.range numV).map fun iv => (iu, iv)

/-- mesh.go:164: the assignments to `vertices`, as (index, value), in order. -/
def paramVertexWrites (numU numV : Nat) (f : F → F → Vec F) : List (Nat × Vertex F) :=
  (paramCells numU numV).map fun (iu, iv) =>
    let u := ofInt iu / ofInt (numU - 1 : Int)
    let v := ofInt iv / ofInt (numV - 1 : Int)
    (paramIndex numV iu iv, ⟨f u v, Vec.zero, u, v⟩)

/-- mesh.go:165-168: the assignments to `faces`, as (index, value), in order. -/
def paramFaceWrites (numU numV : Nat) : List (Nat × Tri) :=
  (paramCells numU numV).flatMap fun (iu, iv) =>
    if iu < numU - 1 ∧ iv < numV - 1 then
      [(2 * (iu * (numV - 1) + iv) + 0,
         (paramIndex numV iu iv, paramIndex numV (iu + 1) iv, paramIndex numV (iu + 1) (iv + 1))),
       (2 * (iu * (numV - 1) + iv) + 1,
         (paramIndex numV iu iv, paramIndex numV (iu + 1) (iv + 1), paramIndex numV iu (iv + 1)))]
    else []

/-- `make([]T, n)` followed by a sequence of assignments; `none` is an element not assigned. -/
def applyWrites {α : Type} (n : Nat) (ws : List (Nat × α)) : GoM (List (Option α)) :=
  ws.foldlM (fun (arr : List (Option α)) (w : Nat × α) =>
    if w.1 < arr.length then .ok (arr.set w.1 (some w.2)) else .error .indexOutOfRange)
    (List.replicate n none)

/-- Every element has been assigned. (An unassigned face has nil vertices, which
`calcNormals` dereferences.) -/
def allAssigned {α : Type} (l : List (Option α)) : GoM (List α) :=
  l.mapM fun o => match o with | some a => .ok a | none => .error .nilDeref

/-- tracer/objects/mesh.go:141-172 `Parametric`. Simplification: for `numU < 2` or `numV < 2` the
code always panics (negative slice length, nil vertices, or a tree without members); the model
does not distinguish which. -/
def parametric (S : Sorter (Obj F M)) (m : Option M) (numU numV : Nat) (f : F → F → Vec F) :
    GoM (Obj F M) :=
  if numU < 2 ∨ numV < 2 then .error .indexOutOfRange
  else do
    let vs ← applyWrites (numU * numV) (paramVertexWrites numU numV f)
    let vs ← allAssigned vs
    let fs ← applyWrites (2 * (numU - 1) * (numV - 1)) (paramFaceWrites numU numV)
    let fs ← allAssigned fs
    meshObj S m vs fs

end BR
