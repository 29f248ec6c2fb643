import Verif.Spec.Text

/-! What a PLY file says. -/

namespace BR.PlyFile

open Text

/-- What a line of the header says. -/
inductive HeaderItem
  | vertices (n : Int)
  | faces (n : Int)
  | other

/-- An integer that fits in 64 bits. -/
def Number (w : List Char) (z : Int) : Prop := Integer w z ∧ -(2 ^ 63 : Int) ≤ z ∧ z < 2 ^ 63

/-- The meaning of a header line, without the white space around it. -/
def HeaderMeans (l : List Char) : HeaderItem → Prop
  | .vertices n => ∃ w, l = "element vertex ".toList ++ w ∧ Number w n
  | .faces n => ∃ w, l = "element face ".toList ++ w ∧ Number w n
  | .other => l ≠ "end_header".toList ∧ ¬ "element vertex ".toList <+: l ∧ ¬ "element face ".toList <+: l

/-- The declared number of vertices: the last declaration counts, `n` if there is none. -/
def numVertices (n : Int) : List HeaderItem → Int
  | [] => n
  | .vertices m :: is => numVertices m is
  | _ :: is => numVertices n is

/-- The declared number of faces. -/
def numFaces (n : Int) : List HeaderItem → Int
  | [] => n
  | .faces m :: is => numFaces m is
  | _ :: is => numFaces n is

/-- A vertex: the first three words are its coordinates. -/
def VertexLine {F : Type} (rd : Reader F) (l : List Char) (v : Vec F) : Prop :=
  ∃ x y z more, Spells (x :: y :: z :: more) l ∧ rd.read64 x = some v.x ∧ rd.read64 y = some v.y ∧ rd.read64 z = some v.z

/-- A face with three vertices, or one with four vertices, which stands for two triangles. -/
def FaceLine (l : List Char) (ts : List (Int × Int × Int)) : Prop :=
  (∃ n a b c more i j k, Spells (n :: a :: b :: c :: more) l ∧ Number n 3 ∧ Number a i ∧ Number b j ∧ Number c k ∧
      ts = [(i, j, k)]) ∨
  (∃ n a b c d more i j k m, Spells (n :: a :: b :: c :: d :: more) l ∧ Number n 4 ∧ Number a i ∧ Number b j ∧ Number c k ∧
      Number d m ∧ ts = [(i, j, k), (k, m, i)])

end BR.PlyFile
