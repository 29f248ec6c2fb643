import Verif.Model.BBox

/-! Model of `/repo/tracer/objects` (boxes, quadrics, isosurfaces, triangles, trees, CSG,
transformed and wrapped objects) and of `tracer/util.go`.

Objects are values of the abstract syntax `Obj`, one constructor per Go type implementing
`objects.Interface`. `Intersect` receives a pointer to the caller's ray and some
implementations overwrite it temporarily, so here it returns the ray as well.
`M` is the type of materials; Go's nil material is `none`. -/

namespace BR

variable {F M : Type} [Add F] [Sub F] [Mul F] [Div F] [Neg F] [GoFloat F]

/-- tracer/interfaces.go:37-42 `HitRecord`. -/
@[ext] structure HitRecord (F M : Type) where
  t : F
  normal : Vec F
  loc : Vec F
  mat : Option M

namespace HitRecord

/-- The Go zero value `HitRecord{}`. -/
def miss : HitRecord F M := ⟨lit 0, Vec.zero, Vec.zero, none⟩

/-- tracer/util.go:14-25 `Frontmost`. -/
def frontmost (a b : HitRecord F M) : HitRecord F M :=
  let (a, b) := if b.t <. a.t then (b, a) else (a, b)
  if a.t >. lit 0 then a
  else if b.t >. lit 0 then b
  else miss

end HitRecord

/-- tracer/util.go:27-38 `FrontT`. -/
def frontT (t1 t2 : F) : F :=
  let (t1, t2) := if t2 <. t1 then (t2, t1) else (t1, t2)
  if t1 >. lit 0 then t1
  else if t2 >. lit 0 then t2
  else lit 0

/-- tracer/objects/mesh.go:258-263 `vertex`. -/
@[ext] structure Vertex (F : Type) where
  pos : Vec F
  normal : Vec F
  u : F
  v : F

/-- Parameters of tracer/objects/quadric.go:65-72 `quadric`: `a0 x² + a1 y² + a2 z² = b`. -/
structure Quadric (F M : Type) where
  origin : Vec F
  a : Vec F
  b : F
  bounds : BBox F
  mat : Option M

/-- Parameters of tracer/objects/isosurface.go:33-38 `isoSurface`. `fuel` is not in the code:
it bounds the iterations of the bisection loop, beyond which the model reports `diverge`. -/
structure Iso (F M : Type) where
  bounds : BBox F
  tol : F
  mat : Option M
  hmap : F → F → F
  fuel : Nat

mutual

/-- The object types of package objects, one constructor each.
`prim` stands for an object implemented outside the package (for example by a user): any
`Intersect`, `Inside` and `Bounds` that do not modify the ray. -/
inductive Obj (F M : Type)
  /-- backdrop.go:20-23 -/
  | backdrop (mat : Option M)
  /-- bounded.go:15-18 -/
  | bounded (bounds : BBox F) (orig : Obj F M)
  /-- box.go:31-35 -/
  | box (bounds : BBox F) (mat : Option M)
  /-- quadric.go:65-72 -/
  | quadric (q : Quadric F M)
  /-- isosurface.go:33-38 -/
  | iso (s : Iso F M)
  /-- mesh.go:256 `face`: three vertices -/
  | face (v0 v1 v2 : Vertex F)
  /-- tree.go:21-23 -/
  | tree (root : Node F M)
  /-- mesh.go:237-240 -/
  | withMaterial (mat : Option M) (orig : Obj F M)
  /-- transformed.go:32-37 -/
  | transformed (bounds : BBox F) (forward inverse : Affine F) (orig : Obj F M)
  /-- csg.go:17-19 -/
  | and (a b : Obj F M)
  /-- csg.go:87-89 -/
  | or (a b : Obj F M)
  /-- csg.go:151-154 -/
  | restrict (orig inside : Obj F M)
  /-- csg.go:168-170 -/
  | not (orig : Obj F M)
  /-- csg.go:209-212 -/
  | hollow (orig : Obj F M)
  /-- remap.go:9-12 -/
  | remapped (orig : Obj F M) (remap : Vec F → Vec F)
  /-- lights/planar.go:124-134 `allSpace` -/
  | allSpace
  /-- any other implementation of the interface -/
  | prim (isect : Ray F → GoM (HitRecord F M)) (inside : Vec F → GoM Bool) (bounds : BBox F)

/-- tree.go:25-29 `node`: either leafs or two children; the box is already in float32 precision. -/
inductive Node (F M : Type)
  | leaf (bb : BBox F) (leafs : List (Obj F M))
  | inner (bb : BBox F) (ch0 ch1 : Node F M)

end

/-- tree.go:26 `boundingBox`. -/
def Node.bb : Node F M → BBox F
  | .leaf bb _ => bb
  | .inner bb _ _ => bb

/-! ## Primitives -/

namespace BBox

/-- tracer/objects/box.go:67-69 `approx`. -/
def approx (a b : F) : Bool := GoFloat.abs (a - b) <. lit (1 / 10 ^ 8)

/-- tracer/objects/box.go:54-65 `normal` (loop unrolled); `unit` of line 71 is `Ex, Ey, Ez`. -/
def normal (s : BBox F) (p : Vec F) : GoM (Vec F) :=
  if approx p.x s.min.x then .ok (Vec.ex.mul (lit (-1)))
  else if approx p.x s.max.x then .ok Vec.ex
  else if approx p.y s.min.y then .ok (Vec.ey.mul (lit (-1)))
  else if approx p.y s.max.y then .ok Vec.ey
  else if approx p.z s.min.z then .ok (Vec.ez.mul (lit (-1)))
  else if approx p.z s.max.z then .ok Vec.ez
  else .error (.msg "box.normal")

/-- tracer/objects/box.go:45-52 `box.Intersect`. -/
def hit (b : BBox F) (mat : Option M) (r : Ray F) : GoM (HitRecord F M) :=
  let t := b.intersect r
  if !(t >. lit 0) then .ok HitRecord.miss
  else do
    let p := r.at t
    let n ← b.normal p
    return ⟨t, n, p.sub b.min, mat⟩

end BBox

namespace Vec

/-- tracer/objects/quadric.go:140-146 `mul3`. -/
def mul3 (a b : Vec F) : Vec F := ⟨a.x * b.x, a.y * b.y, a.z * b.z⟩

end Vec

namespace Quadric

/-- tracer/objects/quadric.go:135-138 `normal`. -/
def normal (s : Quadric F M) (x : Vec F) : Vec F := s.a.mul3 (x.sub s.origin)

/-- tracer/objects/quadric.go:127-133 `Inside`. -/
def inside (s : Quadric F M) (p : Vec F) : Bool :=
  if !s.bounds.inside p then false
  else
    let p_o := p.sub s.origin
    (s.a.mul3 p_o).dot p_o <. s.b

/-- The coefficients `A`, `B`, `C` of tracer/objects/quadric.go:79-93. -/
def coeffs (s : Quadric F M) (r : Ray F) : F × F × F :=
  let s0 := r.start.x - s.origin.x
  let s1 := r.start.y - s.origin.y
  let s2 := r.start.z - s.origin.z
  let d0 := r.dir.x
  let d1 := r.dir.y
  let d2 := r.dir.z
  let a0 := s.a.x
  let a1 := s.a.y
  let a2 := s.a.z
  (a0 * d0 * d0 + a1 * d1 * d1 + a2 * d2 * d2,
   lit 2 * (a0 * d0 * s0 + a1 * d1 * s1 + a2 * d2 * s2),
   a0 * s0 * s0 + a1 * s1 * s1 + a2 * s2 * s2 - s.b)

/-- tracer/objects/quadric.go:108-114 and 116-122: accept parameter `t` or not. -/
def accept (s : Quadric F M) (r : Ray F) (t : F) : Bool := t >. lit 0 && s.bounds.inside (r.at t)

/-- The hit record built in tracer/objects/quadric.go:112 and 120. -/
def record (s : Quadric F M) (r : Ray F) (t : F) : HitRecord F M :=
  let p := r.at t
  ⟨t, s.normal p, p.sub s.origin, s.mat⟩

/-- tracer/objects/quadric.go:78-125 `Intersect`. -/
def hit (s : Quadric F M) (r : Ray F) : HitRecord F M :=
  let (A, B, C) := s.coeffs r
  let D := B * B - lit 4 * A * C
  if D <. lit 0 then HitRecord.miss
  else
    let V := GoFloat.sqrt D
    let t1 := (-B - V) / (lit 2 * A)
    let t2 := (-B + V) / (lit 2 * A)
    let (t1, t2) := if t2 <. t1 then (t2, t1) else (t1, t2)
    if s.accept r t1 then s.record r t1
    else if s.accept r t2 then s.record r t2
    else HitRecord.miss

end Quadric

namespace Iso

/-- tracer/objects/isosurface.go:77-89 `heightAtUV` and `height`. -/
def heightAtUV (o : Iso F M) (u v : F) : GoM F :=
  let f := o.hmap u v
  if f <. lit (-(1 / 1024)) || f >. lit (1 + 1 / 1024) then
    .error (.msg "IsoSurface: User function: bad value")
  else .ok (o.bounds.max.y * f)

/-- tracer/objects/isosurface.go:109-111 `localUV`. -/
def localUV (o : Iso F M) (p : Vec F) : F × F := (p.x / o.bounds.max.x, p.z / o.bounds.max.z)

/-- tracer/objects/isosurface.go:73-75 `heightAt`. -/
def heightAt (o : Iso F M) (p : Vec F) : GoM F :=
  let uv := o.localUV p
  o.heightAtUV uv.1 uv.2

/-- tracer/objects/isosurface.go:67-71 `isoValueAt`. -/
def isoValueAt (o : Iso F M) (p : Vec F) : GoM F := do
  let h ← o.heightAt p
  return p.y - h

/-- tracer/objects/isosurface.go:44-46 `Inside`. -/
def inside (o : Iso F M) (p : Vec F) : GoM Bool :=
  if o.bounds.inside p then do
    let h ← o.heightAt p
    return p.y <. h
  else .ok false

/-- tracer/objects/isosurface.go:95-107 `partialAtUV` and `normalAtUV`. -/
def normalAtUV (o : Iso F M) (u v : F) : GoM (Vec F) := do
  let hd : F := lit (1 / 8192)
  let inv : F := lit 4096
  let a ← o.heightAtUV (u + hd) v
  let b ← o.heightAtUV (u - hd) v
  let c ← o.heightAtUV u (v + hd)
  let d ← o.heightAtUV u (v - hd)
  return ⟨-(inv * (a - b)), lit 1, -(inv * (c - d))⟩

/-- The loop of tracer/objects/isosurface.go:129-138. The value `iso t` stands for
`f.isoValueAt(r.At(t))`. Returns `out`; `n` bounds the iterations (see `Iso.fuel`). -/
def bisectLoop (iso : F → GoM F) (tol : F) : Nat → F → F → GoM F
  | n, inn, out =>
    if (out - inn) >. tol then
      match n with
      | 0 => .error .diverge
      | n + 1 => do
        let mid := (inn + out) / lit 2
        let v ← iso mid
        if v >. lit 0 then bisectLoop iso tol n mid out else bisectLoop iso tol n inn mid
    else .ok out

/-- tracer/objects/isosurface.go:113-144 `bisect`. -/
def bisect (iso : F → GoM F) (tol : F) (fuel : Nat) (min max : F) : GoM F := do
  let f1 ← iso min
  let f2 ← iso max
  if f1 * f2 >. lit 0 then return lit 0
  let vo ← iso min
  let (inn, out) := if vo >. lit 0 then (min, max) else (max, min)
  bisectLoop iso tol fuel inn out

/-- tracer/objects/isosurface.go:48-65 `Intersect`. `Vec{uv[0], uv[1]}` has third component 0. -/
def hit (s : Iso F M) (r : Ray F) : GoM (HitRecord F M) :=
  let (t1, t2) := s.bounds.intersect2 r
  if !(t2 >. lit 0) then .ok HitRecord.miss
  else do
    let t ← bisect (fun t => s.isoValueAt (r.at t)) s.tol s.fuel (t1 - tiny) (t2 + tiny)
    if t ==. lit 0 then return HitRecord.miss
    let p := r.at t
    let uv := s.localUV p
    let n ← s.normalAtUV uv.1 uv.2
    return ⟨t, n, ⟨uv.1, uv.2, lit 0⟩, s.mat⟩

end Iso

namespace Face

/-- tracer/objects/mesh.go:268-302: the distance `t` to the plane of the triangle. -/
def planeT (v0 v1 v2 : Vertex F) (r : Ray F) : F :=
  let o := v0.pos
  let a := v1.pos.sub o
  let b := v2.pos.sub o
  let n := a.cross b
  let s := r.start.sub o
  let t := -n.dot s / n.dot r.dir
  t

/-- tracer/objects/mesh.go:308-343: the barycentric coordinates `l1, l2, l3` of the point
at distance `t`. Component formulas are grouped into the vector operations quoted in the comments
of the Go code; the order of floating point operations is the same. -/
def bary (v0 v1 v2 : Vertex F) (r : Ray F) (t : F) : F × F × F :=
  let o := v0.pos
  let a := v1.pos.sub o
  let b := v2.pos.sub o
  let n := a.cross b
  let s := r.start.sub o
  let p := s.madd t r.dir
  let nc := a.cross p
  let p_a := p.sub a
  let b_a := b.sub a
  let na := b_a.cross p_a
  let n2 := n.len2
  let l1 := n.dot na / n2
  let l3 := n.dot nc / n2
  (l1, lit 1 - l1 - l3, l3)

/-- tracer/objects/mesh.go:267-362 `face.Intersect` (no material). -/
def hit (v0 v1 v2 : Vertex F) (r : Ray F) : HitRecord F M :=
  let t := planeT v0 v1 v2 r
  if !(t >. lit 0) then HitRecord.miss
  else
    let (l1, l2, l3) := bary v0 v1 v2 r t
    if l1 <. lit 0 || l2 <. lit 0 || l3 <. lit 0 then HitRecord.miss
    else
      let n := ((v0.normal.mul l1).add (v1.normal.mul l2)).add (v2.normal.mul l3)
      let u := v0.u * l1 + v1.u * l2 + v2.u * l3
      let v := v0.v * l1 + v1.v * l2 + v2.v * l3
      ⟨t, n, ⟨u, v, lit 0⟩, none⟩

/-- tracer/objects/mesh.go:364-366 `face.Bounds`. -/
def bounds (v0 v1 v2 : Vertex F) : GoM (BBox F) := BBox.fromHull [v0.pos, v1.pos, v2.pos]

end Face

/-! ## Inside and Bounds -/

mutual

/-- The `Inside` methods: interface.go:38-41 (backdrop, hollow), bounded.go:24-29,
box.go:41-43, quadric.go:127, isosurface.go:44, mesh.go:265 (face), tree.go:66-68,
mesh.go:252-254, transformed.go:61-63, csg.go:79-81, 101-103, 164-166, 192-194, remap.go:20-22,
lights/planar.go:126-128. -/
def Obj.inside : Obj F M → Vec F → GoM Bool
  | .backdrop _, _ => .ok false
  | .bounded bounds orig, p => if !bounds.inside p then .ok false else orig.inside p
  | .box bounds _, p => .ok (bounds.inside p)
  | .quadric q, p => .ok (q.inside p)
  | .iso s, p => s.inside p
  | .face _ _ _, _ => .ok false
  | .tree root, p => root.inside p
  | .withMaterial _ orig, p => orig.inside p
  | .transformed _ _ inverse orig, p => orig.inside (inverse.point p)
  | .and a b, p => do if ← a.inside p then b.inside p else return false
  | .or a b, p => do if ← a.inside p then return true else b.inside p
  | .restrict a b, p => do if ← a.inside p then b.inside p else return false
  | .not orig, p => do return !(← orig.inside p)
  | .hollow _, _ => .ok false
  | .remapped orig _, p => orig.inside p
  | .allSpace, _ => .ok true
  | .prim _ inside _, p => inside p

/-- tree.go:70-85 `node.Inside`. -/
def Node.inside : Node F M → Vec F → GoM Bool
  | .leaf _ leafs, p => Obj.anyInside leafs p
  | .inner _ ch0 ch1, p => do if ← ch0.inside p then return true else ch1.inside p

/-- The loop of tree.go:79-84. -/
def Obj.anyInside : List (Obj F M) → Vec F → GoM Bool
  | [], _ => .ok false
  | l :: ls, p => do if ← l.inside p then return true else Obj.anyInside ls p

end

/-- The `Bounds` methods: backdrop.go:31-33, bounded.go:20-22, box.go:37-39, quadric.go:74-76,
isosurface.go:40-42, mesh.go:364-366, tree.go:176-178, mesh.go:248-250, transformed.go:57-59,
csg.go:60-62, 105-120, 160-162, 188-190, 218-220, remap.go:24-26, lights/planar.go:130-132. -/
def Obj.bounds : Obj F M → GoM (BBox F)
  | .backdrop _ => .ok BBox.infBox
  | .bounded bounds _ => .ok bounds
  | .box bounds _ => .ok bounds
  | .quadric q => .ok q.bounds
  | .iso s => .ok s.bounds
  | .face v0 v1 v2 => Face.bounds v0 v1 v2
  | .tree root => .ok root.bb
  | .withMaterial _ orig => orig.bounds
  | .transformed bounds _ _ _ => .ok bounds
  | .and a b => do return (← a.bounds).inter (← b.bounds)
  | .or a b => do return (← a.bounds).union (← b.bounds)
  | .restrict a b => do return (← a.bounds).inter (← b.bounds)
  | .not _ => .ok BBox.infBox
  | .hollow orig => orig.bounds
  | .remapped orig _ => orig.bounds
  | .allSpace => .ok BBox.infBox
  | .prim _ _ bounds => .ok bounds

/-! ## Intersect -/

/-- The loop of csg.go:40-53 (`want = true`, andMarch) and csg.go:131-144 (`want = false`,
orMarch): advance the ray along the hits of `a` until a hit point's membership in `b` equals
`want`. `start` is the backed-up ray start. -/
def marchLoop (isect : Ray F → GoM (HitRecord F M × Ray F)) (inside : Vec F → GoM Bool) (want : Bool)
    (maxT : F) (start : Vec F) : Nat → F → HitRecord F M → Ray F → GoM (HitRecord F M × Ray F)
  | ttl, tOff, h, r =>
    if h.t >. lit 0 && ttl != 0 && h.t <. maxT then
      match ttl with
      | 0 => .ok (HitRecord.miss, { r with start := start })
      | ttl + 1 => do
        let i ← inside (r.at h.t)
        if i == want then return ({ h with t := h.t + tOff }, { r with start := start })
        let deltaT := h.t + tiny
        let tOff := tOff + deltaT
        let r := { r with start := r.at deltaT }
        let (h, r) ← isect r
        marchLoop isect inside want maxT start ttl tOff h r
    else .ok (HitRecord.miss, { r with start := start })

/-- csg.go:34-54 `andMarch` (`want = true`) and csg.go:125-145 `orMarch` (`want = false`). -/
def march (isect : Ray F → GoM (HitRecord F M × Ray F)) (inside : Vec F → GoM Bool) (want : Bool)
    (r : Ray F) (maxT : F) : GoM (HitRecord F M × Ray F) := do
  let backup := r.start
  let (h, r) ← isect r
  marchLoop isect inside want maxT backup 100 (lit 0) h r

/-- csg.go:21-29 `and.Intersect` and csg.go:91-99 `or.Intersect` (by `want`). -/
def marchBoth (isectA : Ray F → GoM (HitRecord F M × Ray F)) (insideA : Vec F → GoM Bool)
    (isectB : Ray F → GoM (HitRecord F M × Ray F)) (insideB : Vec F → GoM Bool) (want : Bool)
    (r : Ray F) : GoM (HitRecord F M × Ray F) := do
  let (a, r) ← march isectA insideB want r GoFloat.inf
  let max := if a.t >. lit 0 then a.t else GoFloat.inf
  let (b, r) ← march isectB insideA want r max
  return (HitRecord.frontmost a b, r)

/-- tree.go:89 `HitRecord{T: 9e99}`. -/
def noHit : HitRecord F M := ⟨lit (9 * 10 ^ 99), Vec.zero, Vec.zero, none⟩

/-- tree.go:109-114 and 115-120: if the child's box is hit, intersect it and take its record if
its distance is positive (and, for the second child, smaller than the front distance). -/
def visitChild (boxHit : Bool) (isect : Ray F → GoM (HitRecord F M × Ray F))
    (better : HitRecord F M → HitRecord F M → Bool) (front : HitRecord F M) (r : Ray F) :
    GoM (HitRecord F M × Ray F) :=
  if boxHit then do
    let (frag, r) ← isect r
    return (if frag.t >. lit 0 && better frag front then frag else front, r)
  else .ok (front, r)

mutual

/-- The `Intersect` methods: backdrop.go:25-29, bounded.go:31-36, box.go:45-52,
quadric.go:78-125, isosurface.go:48-65, mesh.go:267-362 (face), tree.go:59-64, mesh.go:242-246,
transformed.go:39-55, csg.go:21, 91, 156-158, 182-186, 214-216, remap.go:14-18,
lights/planar.go:134. -/
def Obj.intersect : Obj F M → Ray F → GoM (HitRecord F M × Ray F)
  | .backdrop mat, r => .ok (⟨lit (10 ^ 99), r.dir, r.dir, mat⟩, r)
  | .bounded bounds orig, r => if !bounds.intersects r then .ok (HitRecord.miss, r) else orig.intersect r
  | .box bounds mat, r => do return (← bounds.hit mat r, r)
  | .quadric q, r => .ok (q.hit r, r)
  | .iso s, r => do return (← s.hit r, r)
  | .face v0 v1 v2, r => .ok (Face.hit v0 v1 v2 r, r)
  | .tree root, r =>
    if root.bb.intersect r <=. lit 0 then .ok (HitRecord.miss, r) else root.intersect r
  | .withMaterial mat orig, r => do
    let (h, r) ← orig.intersect r
    return ({ h with mat := mat }, r)
  | .transformed bounds forward inverse orig, r =>
    if !bounds.intersects r then .ok (HitRecord.miss, r)
    else do
      let prev := r
      let (h, _) ← orig.intersect ⟨inverse.point prev.start, inverse.dir prev.dir⟩
      return ({ h with normal := forward.dir h.normal }, prev)
  | .and a b, r => marchBoth a.intersect a.inside b.intersect b.inside true r
  | .or a b, r => marchBoth a.intersect a.inside b.intersect b.inside false r
  | .restrict a b, r => march a.intersect b.inside true r GoFloat.inf
  | .not orig, r => do
    let (h, r) ← orig.intersect r
    return ({ h with normal := h.normal.mul (lit (-1)) }, r)
  | .hollow orig, r => orig.intersect r
  | .remapped orig remap, r => do
    let (h, r) ← orig.intersect r
    return ({ h with loc := remap (r.at h.t) }, r)
  | .allSpace, _ => .error (.msg "unused")
  | .prim isect _ _, r => do return (← isect r, r)

/-- tree.go:87-126 `node.Intersect`. -/
def Node.intersect : Node F M → Ray F → GoM (HitRecord F M × Ray F)
  | .leaf _ leafs, r => Obj.scan leafs noHit r
  | .inner _ ch0 ch1, r => do
    let t0 := ch0.bb.intersect r
    let t1 := ch1.bb.intersect r
    let (front, r) ← visitChild (t0 >. lit 0) ch0.intersect (fun _ _ => true) noHit r
    let (front, r) ← visitChild (t1 >. lit 0) ch1.intersect (fun frag front => frag.t <. front.t) front r
    return (if front.t ==. lit (9 * 10 ^ 99) then { front with t := lit 0 } else front, r)

/-- The loop of tree.go:91-96 over the leafs. -/
def Obj.scan : List (Obj F M) → HitRecord F M → Ray F → GoM (HitRecord F M × Ray F)
  | [], front, r => .ok (front, r)
  | o :: os, front, r => do
    let (frag, r) ← o.intersect r
    Obj.scan os (if frag.t >. lit 0 && frag.t <. front.t then frag else front) r

end

end BR
