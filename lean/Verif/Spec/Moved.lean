import Verif.Num.Ext
import Verif.Model.Camera
import Verif.Spec.MapMat
import Verif.Spec.Materials

/-! The same scene at another place: every position displaced by a vector. -/

namespace BR

variable {F M : Type} [Add F] [Sub F] [Mul F] [Div F] [Neg F] [GoFloat F]

/-- The ray starting at the displaced point. -/
def Ray.moved (d : Vec F) (r : Ray F) : Ray F := ⟨r.start.add d, r.dir⟩

/-- The vertex at the displaced position; normal and texture coordinates are the same. -/
def Vertex.moved (d : Vec F) (v : Vertex F) : Vertex F := { v with pos := v.pos.add d }

/-- The affine transformation followed by the displacement. -/
def Affine.moved (d : Vec F) (t : Affine F) : Affine F := ⟨t.A, t.B.add d⟩

mutual

/-- The object at the displaced place. Transformed objects are displaced after their transformation. Surfaces that
have a fixed place (bare height surfaces, textures remapped by absolute position, unknown objects) stay where they are;
see `Obj.Movable`. -/
def Obj.moved (d : Vec F) : Obj F M → Obj F M
  | .backdrop mat => .backdrop mat
  | .bounded bounds o => .bounded (bounds.translated d) (o.moved d)
  | .box bounds mat => .box (bounds.translated d) mat
  | .quadric q => .quadric ⟨q.origin.add d, q.a, q.b, q.bounds.translated d, q.mat⟩
  | .iso s => .iso s
  | .face v0 v1 v2 => .face (v0.moved d) (v1.moved d) (v2.moved d)
  | .tree root => .tree (root.moved d)
  | .withMaterial mat o => .withMaterial mat (o.moved d)
  | .transformed bounds forward _ o =>
    .transformed (bounds.translated d) (forward.moved d) (forward.moved d).inverse o
  | .and a b => .and (a.moved d) (b.moved d)
  | .or a b => .or (a.moved d) (b.moved d)
  | .restrict a b => .restrict (a.moved d) (b.moved d)
  | .not o => .not (o.moved d)
  | .hollow o => .hollow (o.moved d)
  | .remapped o remap => .remapped o remap
  | .allSpace => .allSpace
  | .prim isect inside bounds => .prim isect inside bounds

/-- As `Obj.moved`, for a node of a tree. -/
def Node.moved (d : Vec F) : Node F M → Node F M
  | .leaf bb leafs => .leaf (bb.translated d) (Obj.movedList d leafs)
  | .inner bb a b => .inner (bb.translated d) (a.moved d) (b.moved d)

/-- As `Obj.moved`, for a list of objects. -/
def Obj.movedList (d : Vec F) : List (Obj F M) → List (Obj F M)
  | [] => []
  | o :: os => o.moved d :: Obj.movedList d os

end

/-- The light at the displaced place. -/
def Light.moved (d : Vec F) : Light F → Light F
  | .point pos power => .point (pos.add d) power
  | .planar w h center totalPower object transf => .planar w h (center.add d) totalPower (object.moved d) transf
  | .transformed forward _ orig object =>
    .transformed (forward.moved d) (forward.moved d).inverse orig (object.moved d)

/-- The medium, its upper boundary displaced. -/
def Medium.moved (d : Vec F) : Medium F → Medium F
  | .expFog density ambient height => .expFog density ambient (height + d.y)
  | .fog density height numLight => .fog density (height + d.y) numLight

/-- The scene at the displaced place. -/
def Scene.moved (d : Vec F) (s : Scene F) : Scene F where
  lights := s.lights.map (Light.moved d)
  objects := s.objects.map (Obj.moved d)
  media := s.media.map (Medium.moved d)
  recursionDepth := s.recursionDepth

/-- The camera at the displaced place. -/
def Cam.moved (d : Vec F) (c : Cam F) : Cam F := { c with pos := c.pos.add d }

namespace Ext

/-- The number is not the negative zero. -/
def NotNegZero : Ext → Prop
  | num x s => ¬ (x = 0 ∧ s = true)
  | _ => True

/-- The number is neither infinite nor NaN. -/
def Finite : Ext → Prop
  | num _ _ => True
  | _ => False

end Ext

/-- No coordinate is the negative zero. -/
def Vec.NotNegZero (p : Vec Ext) : Prop := p.x.NotNegZero ∧ p.y.NotNegZero ∧ p.z.NotNegZero

/-- All coordinates are finite. -/
def Vec.Finite (p : Vec Ext) : Prop := p.x.Finite ∧ p.y.Finite ∧ p.z.Finite

/-- No coordinate of the box is the negative zero. -/
def BBox.NotNegZero (b : BBox Ext) : Prop := b.min.NotNegZero ∧ b.max.NotNegZero

/-- A translation with its inverse. -/
def IsTranslation (forward inverse : Affine Ext) : Prop :=
  ∃ delta : Vec Ext, forward = Affine.translate delta ∧ inverse = forward.inverse

mutual

/-- The object can be displaced by displacing the positions it is made of. Those must not contain negative zeros
(a negative zero becomes a positive one when something is added to it). Excluded are surfaces that have a fixed place,
and, because of the sign of zero, transformations other than translations. What is inside a translated object is
arbitrary. -/
def Obj.Movable {M : Type} : Obj Ext M → Prop
  | .backdrop _ => True
  | .bounded bounds o => bounds.NotNegZero ∧ o.Movable
  | .box bounds _ => bounds.NotNegZero
  | .quadric q => q.bounds.NotNegZero
  | .iso _ => False
  | .face v0 v1 v2 => v0.pos.NotNegZero ∧ v1.pos.NotNegZero ∧ v2.pos.NotNegZero
  | .tree root => root.Movable
  | .withMaterial _ o => o.Movable
  | .transformed bounds forward inverse _ => bounds.NotNegZero ∧ IsTranslation forward inverse
  | .and a b => a.Movable ∧ b.Movable
  | .or a b => a.Movable ∧ b.Movable
  | .restrict a b => a.Movable ∧ b.Movable
  | .not o => o.Movable
  | .hollow o => o.Movable
  | .remapped _ _ => False
  | .allSpace => True
  | .prim _ _ _ => False

/-- As `Obj.Movable`, for a node of a tree. -/
def Node.Movable {M : Type} : Node Ext M → Prop
  | .leaf bb leafs => bb.NotNegZero ∧ Obj.MovableList leafs
  | .inner bb a b => bb.NotNegZero ∧ a.Movable ∧ b.Movable

/-- As `Obj.Movable`, for a list of objects. -/
def Obj.MovableList {M : Type} : List (Obj Ext M) → Prop
  | [] => True
  | o :: os => o.Movable ∧ Obj.MovableList os

end

/-- The light can be displaced; see `Obj.Movable`. -/
def Light.Movable : Light Ext → Prop
  | .point pos _ => pos.NotNegZero
  | .planar _ _ center _ object _ => center.NotNegZero ∧ object.Movable
  | .transformed forward inverse _ object =>
    forward.B.NotNegZero ∧ IsTranslation forward inverse ∧ object.Movable

/-- The two sort functions rearrange the objects and the displaced objects alike. -/
def SortAlike {M : Type} (d : Vec Ext) (S S' : Sorter (Obj Ext M)) (ch : List (Obj Ext M)) : Prop :=
  ∀ dir l, (∀ o ∈ l, o ∈ ch) → S'.sort dir (l.map (Obj.moved d)) = (S.sort dir l).map (Obj.moved d)

/-- What a sort function with a comparison does: the new order of the elements depends only on the results of the
comparisons. This is so for `sort.Slice` with the comparison function of tree.go:45-49. -/
def Sorter.ByComparison (S : Sorter (Obj F M)) : Prop :=
  ∃ order : List (List (GoM Bool)) → List Nat, ∀ dir l,
    S.sort dir l = (order (l.map fun a => l.map fun b => treeLess dir a b)).filterMap (l[·]?)

/-- User functions used as material do not depend on the place of the ray. -/
def Mat.Placeless (d : Vec F) : Mat F → Prop
  | .reflectFresnel _ under => under.Placeless d
  | .twoSided front back => front.Placeless d ∧ back.Placeless d
  | .blend _ matA _ matB => matA.Placeless d ∧ matB.Placeless d
  | .blendMap _ matA matB => matA.Placeless d ∧ matB.Placeless d
  | .func f => ∀ r h, f (r.moved d) h = f r h
  | _ => True

/-- The scene can be displaced: its objects and lights can, and user functions used as material do not depend on the
place. -/
structure Scene.Movable (d : Vec Ext) (s : Scene Ext) : Prop where
  objects : ∀ o ∈ s.objects, o.Movable ∧ o.AllMat (Mat.Placeless d)
  lights : ∀ l ∈ s.lights, l.Movable ∧ l.object.AllMat (Mat.Placeless d)

end BR
