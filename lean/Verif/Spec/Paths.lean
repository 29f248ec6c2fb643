/-! Where a slash-separated path leads, in a file system without symbolic links. -/

namespace BR

/-- One element of a path: nothing and `.` stay, `..` goes to the parent (of the root: the root), a name goes down. A place
is given by the names from the root, the last one first. -/
def walk (place : List (List Char)) (e : List Char) : List (List Char) :=
  if e = [] ∨ e = ['.'] then place else if e = ['.', '.'] then place.tail else e :: place

/-- Where the path `p` leads from the directory `cwd`. -/
def placeOf (cwd : List (List Char)) (p : List Char) : List (List Char) :=
  (p.splitOn '/').foldl walk (if p.head? = some '/' then [] else cwd)

end BR
