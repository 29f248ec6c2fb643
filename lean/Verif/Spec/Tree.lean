import Verif.Model.Construct

/-! Specification vocabulary for trees: members, leaf sizes, depth, boxes. -/

namespace BR

variable {F M : Type}

namespace Node

/-- The objects in the leaves, from left to right. -/
def members : Node F M → List (Obj F M)
  | .leaf _ leafs => leafs
  | .inner _ ch0 ch1 => ch0.members ++ ch1.members

/-- The object lists of the leaves. -/
def leafLists : Node F M → List (List (Obj F M))
  | .leaf _ leafs => [leafs]
  | .inner _ ch0 ch1 => ch0.leafLists ++ ch1.leafLists

/-- Levels below the root. -/
def depth : Node F M → Nat
  | .leaf _ _ => 0
  | .inner _ ch0 ch1 => Nat.max ch0.depth ch1.depth + 1

/-- Each box stored in the tree, with the objects below it. -/
def boxes : Node F M → List (BBox F × List (Obj F M))
  | .leaf bb leafs => [(bb, leafs)]
  | .inner bb ch0 ch1 => (bb, ch0.members ++ ch1.members) :: (ch0.boxes ++ ch1.boxes)

end Node

end BR
