import Verif.Model.Text

/-! Model of `/repo/tracer/objects/obj/parser.go`. -/

namespace BR.Wavefront

open Text

set_option linter.unusedSectionVars false

variable {F : Type}

/-- parser.go:29-37 `Obj` and `parser`. The map of faces is a function; a key is in the map if and only if its list is
not empty. -/
structure St (F : Type) where
  usemtl : List Char
  vertices : List (Vec F)
  faces : List Char → List (List Int)

/-- The initial state, parser.go:24. -/
def St.init : St F := ⟨[], [], fun _ => []⟩

/-- parser.go:141-149 `check` and `errorf`: panics with an `error`. -/
def errorf {α : Type} : GoM α := .error (.msg "obj: error")

/-- `check` of a parsed value. -/
def check {α : Type} : Option α → GoM α
  | some a => .ok a
  | none => errorf

/-- parser.go:78-89 `parseV`. -/
def parseV (rd : Reader F) (st : St F) (l : List (List Char)) : GoM (St F) :=
  match l with
  | x :: y :: z :: rest =>
    if rest.length ≤ 1 then do
      let a ← check (rd.read32 x)
      let b ← check (rd.read32 y)
      let c ← check (rd.read32 z)
      return { st with vertices := st.vertices ++ [⟨a, b, c⟩] }
    else errorf
  | _ => errorf

/-- parser.go:99-106, one word of a face. `strings.Split(w, "/")[0]` is what comes before the first slash. -/
def parseIndex (w : List Char) : GoM Int := do
  let idx ← check (parseInt 32 (w.takeWhile (· ≠ '/')))
  if idx < 1 then errorf else return idx - 1

/-- parser.go:91-110 `parseF`. -/
def parseF (st : St F) (l : List (List Char)) : GoM (St F) :=
  if l.length = 3 ∨ l.length = 4 then do
    let f ← l.mapM parseIndex
    return { st with faces := fun m => if m = st.usemtl then st.faces m ++ [f] else st.faces m }
  else errorf

/-- parser.go:112-115 `parseUsemtl`. -/
def parseUsemtl (st : St F) (l : List (List Char)) : GoM (St F) :=
  match l with
  | [m] => .ok { st with usemtl := m }
  | _ => errorf

/-- The commands of parser.go:67-74, which are skipped. -/
def ignored : List (List Char) :=
  ["#".toList, "o".toList, "vn".toList, "vt".toList, "s".toList, "l".toList, "g".toList, "mtllib".toList]

/-- parser.go:51-76 `parseLine`. -/
def parseLine (rd : Reader F) (st : St F) (l : List Char) : GoM (St F) :=
  match fields l with
  | [] => .ok st
  | command :: args =>
    if command = "v".toList then parseV rd st args
    else if command = "f".toList then parseF st args
    else if command = "usemtl".toList then parseUsemtl st args
    else if command ∈ ignored then .ok st
    else errorf

/-- parser.go:39-49 `parseFile` on the text of the file. -/
def parseLines (rd : Reader F) (text : List Char) : GoM (St F) :=
  (rawLines text).foldlM (fun st l => if tooLong l then errorf else parseLine rd st (dropCR l)) St.init

/-- parser.go:17-27 `ParseFile`: every panic in this code is an `error` (explicit ones and runtime errors), so all of them
are turned into the result `none`, with no partial data. -/
def parse (rd : Reader F) (text : List Char) : Option (List (Vec F) × (List Char → List (List Int))) :=
  match parseLines rd text with
  | .ok st => some (st.vertices, st.faces)
  | .error _ => none

end BR.Wavefront
