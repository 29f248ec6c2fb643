import Verif.Model.Scene

/-! The same object with other materials. -/

namespace BR

variable {F M N : Type} [Add F] [Sub F] [Mul F] [Div F] [Neg F] [GoFloat F]

/-- The record with its material replaced. -/
def HitRecord.mapOpt (g : Option M → Option N) (h : HitRecord F M) : HitRecord F N := ⟨h.t, h.normal, h.loc, g h.mat⟩

mutual

/-- The same object, every material `m` in it replaced by `g m` (nil is the material `none`). -/
def Obj.mapOpt (g : Option M → Option N) : Obj F M → Obj F N
  | .backdrop mat => .backdrop (g mat)
  | .bounded bounds o => .bounded bounds (o.mapOpt g)
  | .box bounds mat => .box bounds (g mat)
  | .quadric q => .quadric ⟨q.origin, q.a, q.b, q.bounds, g q.mat⟩
  | .iso s => .iso ⟨s.bounds, s.tol, g s.mat, s.hmap, s.fuel⟩
  | .face v0 v1 v2 => .face v0 v1 v2
  | .tree root => .tree (root.mapOpt g)
  | .withMaterial mat o => .withMaterial (g mat) (o.mapOpt g)
  | .transformed bounds forward inverse o => .transformed bounds forward inverse (o.mapOpt g)
  | .and a b => .and (a.mapOpt g) (b.mapOpt g)
  | .or a b => .or (a.mapOpt g) (b.mapOpt g)
  | .restrict a b => .restrict (a.mapOpt g) (b.mapOpt g)
  | .not o => .not (o.mapOpt g)
  | .hollow o => .hollow (o.mapOpt g)
  | .remapped o remap => .remapped (o.mapOpt g) remap
  | .allSpace => .allSpace
  | .prim isect inside bounds => .prim (fun r => (isect r).map (HitRecord.mapOpt g)) inside bounds

/-- As `Obj.mapOpt`, for a node of a tree. -/
def Node.mapOpt (g : Option M → Option N) : Node F M → Node F N
  | .leaf bb leafs => .leaf bb (Obj.mapOptList g leafs)
  | .inner bb a b => .inner bb (a.mapOpt g) (b.mapOpt g)

/-- As `Obj.mapOpt`, for a list of objects. -/
def Obj.mapOptList (g : Option M → Option N) : List (Obj F M) → List (Obj F N)
  | [] => []
  | o :: os => o.mapOpt g :: Obj.mapOptList g os

end

/-- The same object, every material `m` in it replaced by `g m`; nil stays nil. -/
def Obj.mapMat (g : M → N) (o : Obj F M) : Obj F N := o.mapOpt (Option.map g)

/-- The bare shape: the same object with nil for every material. -/
def Obj.bare (o : Obj F M) : Obj F Unit := o.mapOpt fun _ => none

/-- What a record says about the geometry: distance, normal and local coordinates. -/
def HitRecord.geometry (h : HitRecord F M) : F × Vec F × Vec F := (h.t, h.normal, h.loc)

end BR
