import Verif.Spec.Wavefront
import Verif.Spec.PlyFile
import Verif.Spec.Triangle

/-! What mesh files say, as a whole. -/

namespace BR

open Text

/-- An OBJ file consists of lines shorter than 64 kB with the given meanings. -/
def ObjSays {F : Type} (rd : Reader F) (text : List Char) (items : List (Wavefront.Item F)) : Prop :=
  ∃ lines, Wavefront.IsText lines text ∧ (∀ l ∈ lines, byteLength l < 65536) ∧
    List.Forall₂ (fun l it => ∃ ws, Spells ws l ∧ Wavefront.Means rd ws it) lines items

/-- A PLY file has the given vertices and triangles. -/
def PlySays {F : Type} (rd : Reader F) (text : List Char) (vs : List (Vec F)) (fs : List (Int × Int × Int)) : Prop :=
  ∃ magic format header stop vertexLines faceLines rest items triangles tail,
    text = unlines (magic :: format :: header ++ stop :: vertexLines ++ faceLines ++ rest) ++ tail ∧
    (∀ l ∈ magic :: format :: header ++ stop :: vertexLines ++ faceLines ++ rest, '\n' ∉ l) ∧ '\n' ∉ tail ∧
    Trimmed magic "ply".toList ∧ Trimmed format "format ascii 1.0".toList ∧
    List.Forall₂ (fun l it => ∃ t, Trimmed l t ∧ PlyFile.HeaderMeans t it) header items ∧
    Trimmed stop "end_header".toList ∧
    PlyFile.numVertices 0 items = vertexLines.length ∧ List.Forall₂ (PlyFile.VertexLine rd) vertexLines vs ∧
    PlyFile.numFaces 0 items = faceLines.length ∧ List.Forall₂ PlyFile.FaceLine faceLines triangles ∧
    fs = triangles.flatten

/-- The loop visits every material that has faces, once. -/
def VisitsAll (faces : List Char → List (List Int)) (order : List (List Char)) : Prop :=
  order.Nodup ∧ ∀ name, name ∈ order ↔ faces name ≠ []

/-- The point after the transforms, from left to right. -/
def pointAfter (T : List (Affine ℝ)) (p : Vec ℝ) : Vec ℝ := T.foldl (fun q t => t.point q) p

end BR
