import Verif.Model.Api

/-! Scenes that cannot make the program crash, described by what they are made of. -/

namespace BR
set_option linter.unusedSectionVars false

variable {F S M : Type} [Add F] [Sub F] [Mul F] [Div F] [Neg F] [GoFloat F]

/-- A texture that has a colour everywhere. -/
def Tex.Total (t : Tex F) : Prop := ∀ p, ∃ c, t p = .ok c

/-- A material whose textures have a colour everywhere. -/
def Mat.Total : Mat F → Prop
  | .black => True
  | .flat t => Tex.Total t
  | .matte t => Tex.Total t
  | .reflective _ => True
  | .reflectFresnel _ under => under.Total
  | .refractive _ _ => True
  | .transparent t _ => Tex.Total t
  | .twoSided front back => front.Total ∧ back.Total
  | .blend _ a _ b => a.Total ∧ b.Total
  | .blendMap t a b => Tex.Total t ∧ a.Total ∧ b.Total
  | .func f => ∀ r h, ∃ c, f r h = .ok c

mutual

/-- Asking whether a point is inside cannot fail: only height surfaces and user-defined objects can fail here. -/
def Obj.Decides : Obj F M → Prop
  | .backdrop _ => True
  | .bounded _ o => o.Decides
  | .box _ _ => True
  | .quadric _ => True
  | .iso s => ∀ p, ∃ b, s.inside p = .ok b
  | .face _ _ _ => True
  | .tree root => root.Decides
  | .withMaterial _ o => o.Decides
  | .transformed _ _ _ o => o.Decides
  | .and a b => a.Decides ∧ b.Decides
  | .or a b => a.Decides ∧ b.Decides
  | .restrict a b => a.Decides ∧ b.Decides
  | .not o => o.Decides
  | .hollow _ => True
  | .remapped o _ => o.Decides
  | .allSpace => True
  | .prim _ inside _ => ∀ p, ∃ b, inside p = .ok b

/-- The same for the nodes of a tree. -/
def Node.Decides : Node F M → Prop
  | .leaf _ os => Obj.AllDecide os
  | .inner _ a b => a.Decides ∧ b.Decides

/-- The same for all members of a list. -/
def Obj.AllDecide : List (Obj F M) → Prop
  | [] => True
  | o :: os => o.Decides ∧ Obj.AllDecide os

end

mutual

/-- Intersecting a ray with the object cannot fail, by its composition: boxes, height surfaces and user-defined objects
must be known not to fail, everything else never does. -/
def Obj.Sturdy : Obj F M → Prop
  | .backdrop _ => True
  | .bounded _ o => o.Sturdy
  | .box b m => ∀ r, ∃ h, b.hit m r = .ok h
  | .quadric _ => True
  | .iso s => ∀ r, ∃ h, s.hit r = .ok h
  | .face _ _ _ => True
  | .tree root => root.Sturdy
  | .withMaterial _ o => o.Sturdy
  | .transformed _ _ _ o => o.Sturdy
  | .and a b => (a.Sturdy ∧ a.Decides) ∧ b.Sturdy ∧ b.Decides
  | .or a b => (a.Sturdy ∧ a.Decides) ∧ b.Sturdy ∧ b.Decides
  | .restrict a b => a.Sturdy ∧ b.Decides
  | .not o => o.Sturdy
  | .hollow o => o.Sturdy
  | .remapped o _ => o.Sturdy
  | .allSpace => False
  | .prim isect _ _ => ∀ r, ∃ h, isect r = .ok h

/-- The same for the nodes of a tree. -/
def Node.Sturdy : Node F M → Prop
  | .leaf _ os => Obj.AllSturdy os
  | .inner _ a b => a.Sturdy ∧ b.Sturdy

/-- The same for all members of a list. -/
def Obj.AllSturdy : List (Obj F M) → Prop
  | [] => True
  | o :: os => o.Sturdy ∧ Obj.AllSturdy os

end

mutual

/-- Every part of the object that can be hit has a material with property `P`. Triangles have none of their own: they need
to be given one (`withMaterial`). So do trees that are a single leaf, with at most seven members, even if the members have
a material; larger trees do not. -/
def Obj.Wears (P : M → Prop) : Obj F M → Prop
  | .backdrop m => ∃ x, m = some x ∧ P x
  | .bounded _ o => o.Wears P
  | .box _ m => ∃ x, m = some x ∧ P x
  | .quadric q => ∃ x, q.mat = some x ∧ P x
  | .iso s => ∃ x, s.mat = some x ∧ P x
  | .face _ _ _ => False
  | .tree (.leaf _ _) => False
  | .tree (.inner _ a b) => a.Wears P ∧ b.Wears P
  | .withMaterial m _ => ∃ x, m = some x ∧ P x
  | .transformed _ _ _ o => o.Wears P
  | .and a b => a.Wears P ∧ b.Wears P
  | .or a b => a.Wears P ∧ b.Wears P
  | .restrict a _ => a.Wears P
  | .not o => o.Wears P
  | .hollow o => o.Wears P
  | .remapped o _ => o.Wears P
  | .allSpace => False
  | .prim isect _ _ => ∀ r h, isect r = .ok h → (h.t >. lit 0) = true → ∃ x, h.mat = some x ∧ P x

/-- The same for the nodes of a tree. -/
def Node.Wears (P : M → Prop) : Node F M → Prop
  | .leaf _ os => Obj.AllWear P os
  | .inner _ a b => a.Wears P ∧ b.Wears P

/-- The same for all members of a list. -/
def Obj.AllWear (P : M → Prop) : List (Obj F M) → Prop
  | [] => True
  | o :: os => o.Wears P ∧ Obj.AllWear P os

end

/-- An object that can be shown. -/
def Obj.Showable (o : Obj F (Mat F)) : Prop := o.Sturdy ∧ o.Wears Mat.Total

/-- What the constructors give: an object that can be shown and whose inside can be asked for. -/
def Obj.Good (o : Obj F (Mat F)) : Prop := o.Showable ∧ o.Decides

/-- A scene all of whose objects and lamps can be shown. -/
def Scene.Sturdy (s : Scene F) : Prop :=
  (∀ o ∈ s.objects, o.Showable) ∧ ∀ l ∈ s.lights, l.object.Showable

/-- The sequences of a context produce numbers. -/
def Ctx.Ready (c : Ctx F S) : Prop :=
  (∃ uv, c.seq1.generate2 = .ok uv) ∧ ∃ uv, c.seq2.generate2 = .ok uv

/-- The one law of subtraction that the code relies on not to crash: the difference of a larger and a smaller number,
and of zero and zero, is not negative (or NaN). -/
def SubLaw (F : Type) [Sub F] [GoFloat F] : Prop :=
  ((lit 0 : F) - lit 0 >=. lit 0) = true ∧ ∀ a b : F, (a >. b) = true → (a - b >=. lit 0) = true

end BR
