import Verif.Model.Text

/-! Model of `/repo/tracer/objects/ply/parser.go`. -/

namespace BR.PlyFile

open Text

set_option linter.unusedSectionVars false

variable {F : Type}

/-- parser.go:123-125 `panicf`. -/
def panicf {α : Type} : GoM α := .error (.msg "ply: error")

/-- parser.go:105-121 `check`, `atoi`, `atof`. -/
def check {α : Type} : Option α → GoM α
  | some a => .ok a
  | none => panicf

/-- parser.go:98-103 `readLine`. The reader is the list of the remaining complete lines; at the end of the file, also
after an incomplete line, it panics. -/
def readLine : List (List Char) → GoM (List Char × List (List Char))
  | [] => panicf
  | l :: ls => .ok (trimSpace l, ls)

/-- `fields[i]`. -/
def field (fs : List (List Char)) (i : Nat) : GoM (List Char) :=
  match fs[i]? with
  | some f => .ok f
  | none => .error .indexOutOfRange

/-- parser.go:45-55, the header loop. -/
def readHeader : List (List Char) → Int → Int → GoM (Int × Int × List (List Char))
  | [], _, _ => panicf
  | line :: ls, nv, nf =>
    let l := trimSpace line
    if l = "end_header".toList then .ok (nv, nf, ls)
    else if "element vertex ".toList.isPrefixOf l then do
      let n ← check (parseInt 64 (l.drop "element vertex ".toList.length))
      readHeader ls n nf
    else if "element face ".toList.isPrefixOf l then do
      let n ← check (parseInt 64 (l.drop "element face ".toList.length))
      readHeader ls nv n
    else readHeader ls nv nf

/-- parser.go:59-62, one vertex. -/
def readVertex (rd : Reader F) (line : List Char) : GoM (Vec F) := do
  let fs := fields line
  let x ← check (rd.read64 (← field fs 0))
  let y ← check (rd.read64 (← field fs 1))
  let z ← check (rd.read64 (← field fs 2))
  return ⟨x, y, z⟩

/-- parser.go:58-63, the vertex loop. -/
def readVertices (rd : Reader F) : Nat → List (List Char) → GoM (List (Vec F) × List (List Char))
  | 0, ls => .ok ([], ls)
  | n + 1, ls => do
    let (l, ls) ← readLine ls
    let v ← readVertex rd l
    let (vs, ls) ← readVertices rd n ls
    return (v :: vs, ls)

/-- `p.atoi(fields[i])`. -/
def atoiField (fs : List (List Char)) (i : Nat) : GoM Int := do check (parseInt 64 (← field fs i))

/-- parser.go:74-79: a face of three vertices. -/
def readTriangle (fs : List (List Char)) : GoM (Int × Int × Int) := do
  return (← atoiField fs 1, ← atoiField fs 2, ← atoiField fs 3)

/-- parser.go:81-87: the second half of a face of four vertices. -/
def readOther (fs : List (List Char)) : GoM (Int × Int × Int) := do
  return (← atoiField fs 3, ← atoiField fs 4, ← atoiField fs 1)

/-- parser.go:67-87, one face: one or two triangles. -/
def readFace (line : List Char) : GoM (List (Int × Int × Int)) := do
  let fs := fields line
  let numV ← atoiField fs 0
  if numV = 3 then do
    let f ← readTriangle fs
    return [f]
  else if numV = 4 then do
    let f ← readTriangle fs
    let g ← readOther fs
    return [f, g]
  else panicf

/-- parser.go:66-89, the face loop. -/
def readFaces : Nat → List (List Char) → GoM (List (Int × Int × Int) × List (List Char))
  | 0, ls => .ok ([], ls)
  | n + 1, ls => do
    let (l, ls) ← readLine ls
    let f ← readFace l
    let (fs, ls) ← readFaces n ls
    return (f ++ fs, ls)

/-- `make` with a length or capacity: panics if it is negative. (Sizes beyond the memory are not modelled.) -/
def make (n : Int) : GoM Nat := if n < 0 then .error (.msg "makeslice: len out of range") else .ok n.toNat

/-- parser.go:37-91 `parse`. -/
def parseBody (rd : Reader F) (text : List Char) : GoM (List (Vec F) × List (Int × Int × Int)) := do
  let (magic, ls) ← readLine (fullLines text)
  if magic ≠ "ply".toList then panicf
  else do
    let (format, ls) ← readLine ls
    if format ≠ "format ascii 1.0".toList then panicf
    else do
      let (numVertex, numFace, ls) ← readHeader ls 0 0
      let nv ← make numVertex
      let (vs, ls) ← readVertices rd nv ls
      let nf ← make numFace
      let (fs, _) ← readFaces nf ls
      return (vs, fs)

/-- parser.go:24-35 `Parse`: every panic becomes an error, with no partial data. -/
def parse (rd : Reader F) (text : List Char) : Option (List (Vec F) × List (Int × Int × Int)) :=
  match parseBody rd text with
  | .ok r => some r
  | .error _ => none

end BR.PlyFile
