import Verif.Spec.Text

/-! What a Wavefront OBJ file says. -/

namespace BR.Wavefront

open Text

/-- `text` consists of the given lines; only the last one may lack its line feed. -/
def IsText (lines : List (List Char)) (text : List Char) : Prop :=
  (∀ l ∈ lines, '\n' ∉ l) ∧
    (text = unlines lines ∨ ∃ init last, lines = init ++ [last] ∧ last ≠ [] ∧ text = unlines init ++ last)

/-- What one line says. Vertices of a face are numbered from one. -/
inductive Item (F : Type)
  | vertex (v : Vec F)
  | face (idx : List Int)
  | material (name : List Char)
  | nothing

/-- A vertex of a face: its number, possibly followed by a slash and more. -/
def IndexWord (w : List Char) (i : Int) : Prop :=
  ∃ number more, w = number ++ more ∧ '/' ∉ number ∧ (∀ c ∈ more.head?, c = '/') ∧ Integer number i ∧ 1 ≤ i ∧ i < 2 ^ 31

/-- The meaning of the words of a line. -/
def Means {F : Type} (rd : Reader F) (ws : List (List Char)) : Item F → Prop
  | .vertex v => ∃ x y z, (ws = [['v'], x, y, z] ∨ ∃ t, ws = [['v'], x, y, z, t]) ∧
      rd.read32 x = some v.x ∧ rd.read32 y = some v.y ∧ rd.read32 z = some v.z
  | .face idx => ∃ args, ws = ['f'] :: args ∧ (args.length = 3 ∨ args.length = 4) ∧ List.Forall₂ IndexWord args idx
  | .material m => ws = ["usemtl".toList, m]
  | .nothing => ws = [] ∨ ∃ c args, ws = c :: args ∧
      c ∈ ["#".toList, "o".toList, "vn".toList, "vt".toList, "s".toList, "l".toList, "g".toList, "mtllib".toList]

/-- The vertices, in order. -/
def verticesOf {F : Type} : List (Item F) → List (Vec F)
  | [] => []
  | .vertex v :: is => v :: verticesOf is
  | _ :: is => verticesOf is

/-- The faces made of material `m`, in order, with vertices numbered from zero; `cur` is the current material. -/
def facesOf {F : Type} (m : List Char) (cur : List Char) : List (Item F) → List (List Int)
  | [] => []
  | .face idx :: is => if m = cur then idx.map (· - 1) :: facesOf m cur is else facesOf m cur is
  | .material m' :: is => facesOf m m' is
  | _ :: is => facesOf m cur is

end BR.Wavefront
