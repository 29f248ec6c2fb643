import Verif.Model.Scene

/-! All materials of an object. -/

namespace BR

variable {F M : Type} [Add F] [Sub F] [Mul F] [Div F] [Neg F] [GoFloat F]

/-- The optional material, if present, satisfies `Q`. -/
def OptMat (Q : M → Prop) (m : Option M) : Prop := ∀ x, m = some x → Q x

mutual

/-- Every material occurring in the object satisfies `Q`. For an object implemented outside the package
(`prim`): every material it ever reports. -/
def Obj.AllMat (Q : M → Prop) : Obj F M → Prop
  | .backdrop mat => OptMat Q mat
  | .bounded _ o => o.AllMat Q
  | .box _ mat => OptMat Q mat
  | .quadric q => OptMat Q q.mat
  | .iso s => OptMat Q s.mat
  | .face _ _ _ => True
  | .tree root => root.AllMat Q
  | .withMaterial mat _ => OptMat Q mat
  | .transformed _ _ _ o => o.AllMat Q
  | .and a b => a.AllMat Q ∧ b.AllMat Q
  | .or a b => a.AllMat Q ∧ b.AllMat Q
  | .restrict a _ => a.AllMat Q
  | .not o => o.AllMat Q
  | .hollow o => o.AllMat Q
  | .remapped o _ => o.AllMat Q
  | .allSpace => True
  | .prim isect _ _ => ∀ r h, isect r = .ok h → OptMat Q h.mat

/-- As `Obj.AllMat`, for a node of a tree. -/
def Node.AllMat (Q : M → Prop) : Node F M → Prop
  | .leaf _ leafs => Obj.AllMatList Q leafs
  | .inner _ a b => a.AllMat Q ∧ b.AllMat Q

/-- As `Obj.AllMat`, for a list of objects. -/
def Obj.AllMatList (Q : M → Prop) : List (Obj F M) → Prop
  | [] => True
  | o :: os => o.AllMat Q ∧ Obj.AllMatList Q os

end

end BR
