import Verif.Model.Construct
import Verif.Model.Wavefront
import Verif.Model.PlyFile

/-! Model of the objects made from mesh files, `/repo/tracer/objects/mesh.go:174-228`. -/

namespace BR

set_option linter.unusedSectionVars false

variable {F M : Type} [Add F] [Sub F] [Mul F] [Div F] [Neg F] [GoFloat F]

/-- tracer/objects/mesh.go:224-228 `applyTransform`. -/
def applyTransform (t : Affine F) (v : List (Vec F)) : List (Vec F) := v.map t.point

/-- mesh.go:182-184 and 193-195: the vertices are transformed if there is a transform. -/
def transformVertices (transf : List (Affine F)) (v : List (Vec F)) : List (Vec F) :=
  if transf.length ≠ 0 then applyTransform (Affine.composeLR transf) v else v

/-- tracer/objects/mesh.go:177-186 `PlyFile`. `file` is the text of the file, `none` if it cannot be read; `log.Fatal`
ends the program. -/
def plyFile (S : Sorter (Obj F M)) (rd : Text.Reader F) (m : Option M) (file : Option (List Char))
    (transf : List (Affine F)) : GoM (Obj F M) :=
  match file.bind (PlyFile.parse rd) with
  | none => .error (.msg "log.Fatal")
  | some (v, f) => meshWithUV S m (transformVertices transf v) f none

/-- mesh.go:199-203, one turn of the loop over the map of faces. `m` is the map of materials: the outer `none` stands for
an absent key, the inner one for a nil material. -/
def objPart (S : Sorter (Obj F M)) (m : List Char → Option (Option M)) (v : List (Vec F))
    (faces : List Char → List (List Int)) (mat : List Char) : GoM (Obj F M) :=
  match m mat with
  | none => .error (.msg "log.Fatal: material not defined")
  | some m => plyObj S m v (faces mat)

/-- tracer/objects/mesh.go:188-206 `ObjFile`. `order` is the order in which the loop visits the keys of the map of faces
(any order: see `VisitsAll`). -/
def objFile (S : Sorter (Obj F M)) (rd : Text.Reader F) (m : List Char → Option (Option M)) (file : Option (List Char))
    (transf : List (Affine F)) (order : List (List Char)) : GoM (Obj F M) :=
  match file.bind (Wavefront.parse rd) with
  | none => .error (.msg "log.Fatal")
  | some (v, faces) => do
    let objects ← order.mapM (objPart S m (transformVertices transf v) faces)
    let (t, _) ← mkTree S objects
    return t

end BR
