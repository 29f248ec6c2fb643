import Verif.Model.Construct

/-! The objects a user can make with the constructors of package objects. -/

namespace BR

variable {F M : Type} [Add F] [Sub F] [Mul F] [Div F] [Neg F] [GoFloat F]

/-- No coordinate of the box is NaN. -/
def BBox.NoNaN (b : BBox F) : Prop := b.min.isNaN = false ∧ b.max.isNaN = false

/-- Composition of constructors. Parameters: `S` is the sorting routine of trees, `E` says which
transforms may be used. Numbers given by the user must not be NaN. Members of trees must have bounds
representable in single precision (no condition in arithmetic without rounding). Other implementations
of the interface (`prim`) must satisfy the conclusion themselves. -/
inductive Built (S : Sorter (Obj F M)) (E : Affine F → Prop) : Obj F M → Prop
  | backdrop (mat) : Built S E (.backdrop mat)
  | allSpace : Built S E .allSpace
  | box (bounds mat) (hn : bounds.NoNaN) : Built S E (.box bounds mat)
  | quadric (q) (hn : q.bounds.NoNaN) : Built S E (.quadric q)
  | iso (s) (hn : s.bounds.NoNaN) : Built S E (.iso s)
  | face (v0 v1 v2) (h0 : v0.pos.isNaN = false) (h1 : v1.pos.isNaN = false) (h2 : v2.pos.isNaN = false) :
      Built S E (.face v0 v1 v2)
  | bounded (o o') (ho : Built S E o) (h : o.mkBounded = .ok o') : Built S E o'
  | tree (ch t l) (hc : ∀ o ∈ ch, Built S E o) (hr : ∀ o ∈ ch, ∀ b, o.bounds = .ok b → b.toF = b)
      (h : mkTree S ch = .ok (t, l)) : Built S E t
  | withMaterial (mat o) (ho : Built S E o) : Built S E (.withMaterial mat o)
  | transformed (o o' t) (ho : Built S E o) (ht : E t) (h : o.mkTransformed t = .ok o') : Built S E o'
  | and (a b) (ha : Built S E a) (hb : Built S E b) : Built S E (.and a b)
  | or (a b) (ha : Built S E a) (hb : Built S E b) : Built S E (.or a b)
  | restrict (a b) (ha : Built S E a) (hb : Built S E b) : Built S E (.restrict a b)
  | not (o) (ho : Built S E o) : Built S E (.not o)
  | hollow (o) (ho : Built S E o) : Built S E (.hollow o)
  | remapped (o remap) (ho : Built S E o) : Built S E (.remapped o remap)
  | prim (isect inside bounds) (hn : bounds.NoNaN)
      (h : ∀ p, inside p = .ok true → (bounds.inside p) = true) : Built S E (.prim isect inside bounds)

end BR
