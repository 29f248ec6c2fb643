import Verif.Spec.Sturdy

/-! Scenes with a backdrop, in which trees may have few members. -/

namespace BR
set_option linter.unusedSectionVars false

variable {F M : Type} [Add F] [Sub F] [Mul F] [Div F] [Neg F] [GoFloat F]

mutual

/-- Every part of the object that can be hit has a material with property `P`. Unlike with `Obj.Wears`, trees need not
have eight members or a material of their own. -/
def Obj.Clad (P : M → Prop) : Obj F M → Prop
  | .backdrop m => ∃ x, m = some x ∧ P x
  | .bounded _ o => o.Clad P
  | .box _ m => ∃ x, m = some x ∧ P x
  | .quadric q => ∃ x, q.mat = some x ∧ P x
  | .iso s => ∃ x, s.mat = some x ∧ P x
  | .face _ _ _ => False
  | .tree root => root.Clad P
  | .withMaterial m _ => ∃ x, m = some x ∧ P x
  | .transformed _ _ _ o => o.Clad P
  | .and a b => a.Clad P ∧ b.Clad P
  | .or a b => a.Clad P ∧ b.Clad P
  | .restrict a _ => a.Clad P
  | .not o => o.Clad P
  | .hollow o => o.Clad P
  | .remapped o _ => o.Clad P
  | .allSpace => False
  | .prim isect _ _ => ∀ r h, isect r = .ok h → (h.t >. lit 0) = true → ∃ x, h.mat = some x ∧ P x

/-- The same for the nodes of a tree. -/
def Node.Clad (P : M → Prop) : Node F M → Prop
  | .leaf _ os => Obj.AllClad P os
  | .inner _ a b => a.Clad P ∧ b.Clad P

/-- The same for all members of a list. -/
def Obj.AllClad (P : M → Prop) : List (Obj F M) → Prop
  | [] => True
  | o :: os => o.Clad P ∧ Obj.AllClad P os

end

/-- What the constructors give: an object whose parts can be shown and whose inside can be asked for. -/
def Obj.Solid (o : Obj F (Mat F)) : Prop := o.Sturdy ∧ o.Clad Mat.Total ∧ o.Decides

/-- A scene with a backdrop, all of whose objects and lamps can be shown in front of it. -/
def Scene.Backed (s : Scene F) : Prop :=
  (∃ m, Obj.backdrop m ∈ s.objects) ∧ (∀ o ∈ s.objects, o.Sturdy ∧ o.Clad Mat.Total) ∧
    ∀ l ∈ s.lights, l.object.Sturdy ∧ l.object.Clad Mat.Total

/-- The laws of addition that matter for a scene with a backdrop: what is far beyond the backdrop
stays there when something is added that is not negative. -/
structure FarLaw (F : Type) [Add F] [GoFloat F] : Prop where
  sentinel : ((lit (10 ^ 99) : F) <. lit (9 * 10 ^ 99)) = true
  pos : ((lit 0 : F) <. lit (10 ^ 99)) = true
  tiny_pos : ((lit 0 : F) <. tiny) = true
  add_nonneg : ∀ a b : F, (lit 0 <=. a) = true → (lit 0 <=. b) = true → (lit 0 <=. a + b) = true
  add_far : ∀ a b : F, (lit (9 * 10 ^ 99) <=. a) = true → (lit 0 <=. b) = true → (lit (9 * 10 ^ 99) <=. a + b) = true

end BR
