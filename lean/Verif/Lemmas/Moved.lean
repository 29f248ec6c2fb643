import Verif.Lemmas.Shift
import Verif.Lemmas.Sim
import Verif.Lemmas.Tree
import Mathlib.Tactic.NormNum

/-! A displaced object reports to displaced rays what the object reports. -/

namespace BR
set_option linter.unusedSectionVars false

namespace Ext

theorem Finite.add {a b : Ext} (ha : a.Finite) (hb : b.Finite) : (a + b).Finite := by
  cases a <;> cases b <;> first | exact ha.elim | exact hb.elim | trivial

theorem finite_add_iff {d : Ext} (hd : d.Finite) (a : Ext) : (a + d).Finite ↔ a.Finite := by
  cases d <;> first | exact hd.elim | (cases a <;> simp [Finite, num_add_num])

/-- First row of the unit matrix times a vector. -/
noncomputable def row (a b c : Ext) : Ext := num 1 false * a + num 0 false * b + num 0 false * c

theorem zero_mul_not_finite {b : Ext} (h : ¬ b.Finite) : num 0 false * b = nan := by
  cases b with
  | nan => simp
  | inf s => rw [num_mul_inf, if_pos rfl]
  | num x s => exact (h trivial).elim

theorem zero_mul_finite {b : Ext} (h : b.Finite) : ∃ s, num 0 false * b = num 0 s := by
  cases b with
  | nan => exact h.elim
  | inf s => exact h.elim
  | num x s => exact ⟨_, by rw [num_mul_num, zero_mul]⟩

theorem row_not_finite {a b c : Ext} (h : ¬ (b.Finite ∧ c.Finite)) : row a b c = nan := by
  unfold row
  by_cases hb : b.Finite
  · rw [zero_mul_not_finite (b := c) fun hc => h ⟨hb, hc⟩]; simp
  · rw [zero_mul_not_finite hb]; simp

theorem row_finite {a b c : Ext} (hb : b.Finite) (hc : c.Finite) : ∃ s t, row a b c = num 1 false * a + num 0 s + num 0 t := by
  obtain ⟨s, hs⟩ := zero_mul_finite hb
  obtain ⟨t, ht⟩ := zero_mul_finite hc
  exact ⟨s, t, by rw [row, hs, ht]⟩

theorem one_mul_num (x : ℝ) (s : Bool) : num 1 false * num x s = num x (sgn (num x s)) := by
  rw [num_mul_num, one_mul, sgn_ne one_ne_zero]
  simp [not_lt.2 zero_le_one]

theorem negOne_mul_num (x : ℝ) (s : Bool) : num (-1) false * num x s = -(num x s) := by
  rw [num_mul_num, neg_num, sgn_ne (by norm_num)]
  simp

theorem row_num (x : ℝ) (s t u : Bool) : num 1 false * num x s + num 0 t + num 0 u =
    num x (sgn (num x (decide (x = 0) && s && t && u))) := by
  rw [one_mul_num, num_add3, add_zero, add_zero]
  congr 1
  by_cases h : x = 0
  · simp [h, sgn_zero]
  · rw [sgn_ne h, sgn_ne h]

theorem row_sub {a b c a' b' c' : Ext} (ha : a.NotNegZero) (h : b.Finite ∧ c.Finite ∧ b'.Finite ∧ c'.Finite) :
    row a b c + num (-1) false * row a' b' c' = a - a' := by
  obtain ⟨s, t, e⟩ := row_finite (a := a) h.1 h.2.1
  obtain ⟨s', t', e'⟩ := row_finite (a := a') h.2.2.1 h.2.2.2
  rw [e, e']
  clear e e' h
  have h1 : ∀ u, num 1 false * inf u = inf u := by intro u; rw [num_mul_inf, sgn_ne one_ne_zero]; simp [not_lt.2 (zero_le_one (α := ℝ))]
  have h2 : ∀ u, num (-1) false * inf u = inf (!u) := by
    intro u; rw [num_mul_inf, sgn_ne (by norm_num)]; simp
  cases a with
  | nan => simp
  | inf u =>
    cases a' with
    | nan => simp
    | inf u' => simp only [h1, inf_add_num, h2]; rfl
    | num y v => rw [row_num, h1, inf_add_num, inf_add_num, negOne_mul_num, neg_num]; simp
  | num x u =>
    cases a' with
    | nan => simp
    | inf u' => rw [row_num, h1, inf_add_num, inf_add_num, h2]; simp
    | num y v =>
      rw [row_num, row_num, negOne_mul_num, ← sub_def, num_sub_num, num_sub_num]
      congr 1
      by_cases e : x - y = 0
      · have e2 : x = y := by linarith
        subst e2
        rw [e, sgn_zero, sgn_zero, sgn_sub_zero, sgn_sub_zero]
        by_cases hx : x = 0
        · have hu : u = false := by cases u with | false => rfl | true => exact (ha ⟨hx, rfl⟩).elim
          subst hu
          simp [hx, sgn_zero]
        · simp [hx]
      · rw [sgn_ne e, sgn_ne e]

theorem row_shift {a b c a' b' c' d e f : Ext} (ha : a.NotNegZero) (hd : d.Finite) (he : e.Finite) (hf : f.Finite) :
    row (a + d) (b + e) (c + f) + num (-1) false * row (a' + d) (b' + e) (c' + f) =
      row a b c + num (-1) false * row a' b' c' := by
  by_cases h : b.Finite ∧ c.Finite ∧ b'.Finite ∧ c'.Finite
  · rw [row_sub ha h, row_sub (ha.add d) ⟨h.1.add he, h.2.1.add hf, h.2.2.1.add he, h.2.2.2.add hf⟩, add_sub_add ha hd]
  · have n1 : row a b c + num (-1) false * row a' b' c' = nan := by
      by_cases h1 : b.Finite ∧ c.Finite
      · rw [row_not_finite (a := a') fun h2 => h ⟨h1.1, h1.2, h2⟩]; simp
      · rw [row_not_finite h1]; simp
    have n2 : row (a + d) (b + e) (c + f) + num (-1) false * row (a' + d) (b' + e) (c' + f) = nan := by
      by_cases h1 : b.Finite ∧ c.Finite
      · rw [row_not_finite (a := a' + d) (b := b' + e) (c := c' + f) fun h2 => h ⟨h1.1, h1.2, (finite_add_iff he _).1 h2.1, (finite_add_iff hf _).1 h2.2⟩]; simp
      · rw [row_not_finite (a := a + d) (b := b + e) (c := c + f) fun h2 => h1 ⟨(finite_add_iff he _).1 h2.1, (finite_add_iff hf _).1 h2.2⟩]; simp
    rw [n1, n2]

end Ext

open Ext in
theorem translate_inverse (δ : Vec Ext) : (Affine.translate δ).A.inverse = Matrix.unit := by
  simp [Affine.translate, Matrix.inverse, Matrix.det, Matrix.mulf, Vec.mul, Matrix.unit, Vec.ex, Vec.ey, Vec.ez,
    num_mul_num, num_sub_num, num_add_num, num_div_num, sgn]

theorem unit_mulVec (v : Vec Ext) : (Matrix.unit : Matrix Ext).mulVec v =
    ⟨Ext.row v.x v.y v.z, Ext.row v.y v.x v.z, Ext.row v.z v.x v.y⟩ := by
  simp only [Matrix.mulVec, Matrix.unit, Vec.ex, Vec.ey, Vec.ez, Ext.row, Ext.lit_ext, Rat.cast_one, Rat.cast_zero]
  congr 1
  · rw [Ext.add_comm (Ext.num 0 false * v.x)]
  · rw [Ext.add_comm, Ext.add_assoc]

theorem Vec.NotNegZero.add {p : Vec Ext} (h : p.NotNegZero) (q : Vec Ext) : (p.add q).NotNegZero :=
  ⟨h.1.add _, h.2.1.add _, h.2.2.add _⟩

theorem Vec.NotNegZero.add' {p : Vec Ext} (h : p.NotNegZero) (q : Vec Ext) : (q.add p).NotNegZero :=
  ⟨h.1.add' _, h.2.1.add' _, h.2.2.add' _⟩

theorem Vec.NotNegZero.madd {p : Vec Ext} (h : p.NotNegZero) (t : Ext) (q : Vec Ext) : (p.madd t q).NotNegZero :=
  ⟨h.1.add _, h.2.1.add _, h.2.2.add _⟩

theorem Vec.add_assoc (a b c : Vec Ext) : (a.add b).add c = a.add (b.add c) := by
  simp only [Vec.add, Ext.add_assoc]

theorem Vec.add_comm (a b : Vec Ext) : a.add b = b.add a := by
  simp only [Vec.add, Ext.add_comm]

theorem Vec.add_right_comm (a b c : Vec Ext) : (a.add b).add c = (a.add c).add b := by
  simp only [Vec.add, Ext.add_right_comm]

variable {d : Vec Ext} (hd : d.Finite)

include hd

theorem Vec.add_sub_add {p : Vec Ext} (h : p.NotNegZero) (q : Vec Ext) : (p.add d).sub (q.add d) = p.sub q := by
  simp only [Vec.sub, Vec.add, Ext.add_sub_add h.1 hd.1, Ext.add_sub_add h.2.1 hd.2.1, Ext.add_sub_add h.2.2 hd.2.2]

theorem translate_inverse_point (δ p : Vec Ext) (hp : p.NotNegZero) :
    (Affine.translate (δ.add d)).inverse.point (p.add d) = (Affine.translate δ).inverse.point p := by
  have hn : (lit (-1) : Ext) = Ext.num (-1) false := by simp
  simp only [Affine.inverse, Affine.point, translate_inverse, unit_mulVec]
  simp only [Affine.translate, Vec.mul, Vec.add, hn]
  rw [Ext.row_shift hp.1 hd.1 hd.2.1 hd.2.2, Ext.row_shift hp.2.1 hd.2.1 hd.1 hd.2.2,
    Ext.row_shift hp.2.2 hd.2.2 hd.1 hd.2.1]

omit hd
theorem moved_at (r : Ray Ext) (t : Ext) : (r.moved d).at t = (r.at t).add d := by
  simp only [Ray.at, Ray.moved, Vec.madd, Vec.add, Ext.add_right_comm]

theorem at_ok {r : Ray Ext} (h : r.start.NotNegZero) (t : Ext) : (r.at t).NotNegZero := h.madd _ _
include hd

/-! Boxes -/

theorem BBox.inside_moved (b : BBox Ext) (p : Vec Ext) : (b.translated d).inside (p.add d) = b.inside p := by
  simp only [BBox.inside, BBox.translated, Vec.add, Ext.add_lt_add hd.1, Ext.add_lt_add hd.2.1, Ext.add_lt_add hd.2.2]

theorem BBox.tenTex_moved (b : BBox Ext) (hb : b.NotNegZero) (r : Ray Ext) :
    (b.translated d).tenTex (r.moved d) = b.tenTex r := by
  obtain ⟨h1, h2⟩ := hb
  simp only [BBox.tenTex, BBox.slab, BBox.translated, Ray.moved, Vec.add, Ext.add_sub_add h1.1 hd.1,
    Ext.add_sub_add h1.2.1 hd.2.1, Ext.add_sub_add h1.2.2 hd.2.2, Ext.add_sub_add h2.1 hd.1,
    Ext.add_sub_add h2.2.1 hd.2.1, Ext.add_sub_add h2.2.2 hd.2.2]

theorem BBox.intersect_moved (b : BBox Ext) (hb : b.NotNegZero) (r : Ray Ext) :
    (b.translated d).intersect (r.moved d) = b.intersect r := by
  simp only [BBox.intersect, BBox.tenTex_moved hd b hb]

theorem BBox.intersects_moved (b : BBox Ext) (hb : b.NotNegZero) (r : Ray Ext) :
    (b.translated d).intersects (r.moved d) = b.intersects r := by
  simp only [BBox.intersects, BBox.intersect_moved hd b hb]

theorem BBox.normal_moved (b : BBox Ext) (p : Vec Ext) (hp : p.NotNegZero) :
    (b.translated d).normal (p.add d) = b.normal p := by
  simp only [BBox.normal, BBox.approx, BBox.translated, Vec.add, Ext.add_sub_add hp.1 hd.1,
    Ext.add_sub_add hp.2.1 hd.2.1, Ext.add_sub_add hp.2.2 hd.2.2]
  rfl

variable {M : Type}

theorem BBox.hit_moved (b : BBox Ext) (hb : b.NotNegZero) (m : Option M) (r : Ray Ext) (hr : r.start.NotNegZero) :
    (b.translated d).hit m (r.moved d) = b.hit m r := by
  unfold BBox.hit
  rw [BBox.intersect_moved hd b hb]
  dsimp only
  rw [moved_at]
  split
  · rfl
  · rw [BBox.normal_moved hd b _ (at_ok hr _)]
    have : ((r.at (b.intersect r)).add d).sub (b.translated d).min = (r.at (b.intersect r)).sub b.min :=
      Vec.add_sub_add hd (at_ok hr _) _
    rw [this]

/-! Quadrics -/

/-- The displaced quadric. -/
noncomputable def Quadric.mv (d : Vec Ext) (q : Quadric Ext M) : Quadric Ext M :=
  ⟨q.origin.add d, q.a, q.b, q.bounds.translated d, q.mat⟩

theorem Quadric.inside_moved (q : Quadric Ext M) (p : Vec Ext) (hp : p.NotNegZero) : (q.mv d).inside (p.add d) = q.inside p := by
  simp only [Quadric.inside, Quadric.mv, BBox.inside_moved hd, Vec.add_sub_add hd hp]

theorem Quadric.hit_moved (q : Quadric Ext M) (r : Ray Ext) (hr : r.start.NotNegZero) :
    (q.mv d).hit (r.moved d) = q.hit r := by
  have hc : (q.mv d).coeffs (r.moved d) = q.coeffs r := by
    simp only [Quadric.coeffs, Quadric.mv, Ray.moved, Vec.add, Ext.add_sub_add hr.1 hd.1,
      Ext.add_sub_add hr.2.1 hd.2.1, Ext.add_sub_add hr.2.2 hd.2.2]
  have ha : ∀ t, (q.mv d).accept (r.moved d) t = q.accept r t := by
    intro t
    simp only [Quadric.accept, Quadric.mv, moved_at, BBox.inside_moved hd]
  have hn : ∀ t, (q.mv d).record (r.moved d) t = q.record r t := by
    intro t
    simp only [Quadric.record, Quadric.mv, Quadric.normal, moved_at, Vec.add_sub_add hd (at_ok hr _)]
  unfold Quadric.hit
  rw [hc]
  simp only [ha, hn]

/-! Triangles -/

theorem Face.hit_moved (v0 v1 v2 : Vertex Ext) (h1 : v1.pos.NotNegZero) (h2 : v2.pos.NotNegZero) (r : Ray Ext)
    (hr : r.start.NotNegZero) :
    (Face.hit (v0.moved d) (v1.moved d) (v2.moved d) (r.moved d) : HitRecord Ext M) = Face.hit v0 v1 v2 r := by
  have hp : Face.planeT (v0.moved d) (v1.moved d) (v2.moved d) (r.moved d) = Face.planeT v0 v1 v2 r := by
    simp only [Face.planeT, Vertex.moved, Ray.moved, Vec.add_sub_add hd h1, Vec.add_sub_add hd h2,
      Vec.add_sub_add hd hr]
  have hb : ∀ t, Face.bary (v0.moved d) (v1.moved d) (v2.moved d) (r.moved d) t = Face.bary v0 v1 v2 r t := by
    intro t
    simp only [Face.bary, Vertex.moved, Ray.moved, Vec.add_sub_add hd h1, Vec.add_sub_add hd h2,
      Vec.add_sub_add hd hr]
  unfold Face.hit
  rw [hp]
  dsimp only
  rw [hb]
  rfl

/-! Marching through CSG objects -/

omit hd

/-- The second function reports to displaced rays what the first one reports. -/
def MovedHits (d : Vec Ext) (isect isect' : Ray Ext → GoM (HitRecord Ext M × Ray Ext)) : Prop :=
  ∀ r, r.start.NotNegZero → isect' (r.moved d) = (isect r).map fun a => (a.1, a.2.moved d)

/-- The second function answers for displaced points what the first one answers. -/
def MovedInside (d : Vec Ext) (inside inside' : Vec Ext → GoM Bool) : Prop :=
  ∀ p, p.NotNegZero → inside' (p.add d) = inside p

theorem marchLoop_moved {isect isect' : Ray Ext → GoM (HitRecord Ext M × Ray Ext)} {inside inside' : Vec Ext → GoM Bool}
    (hi : MovedHits d isect isect') (hk : KeepsRay isect) (hin : MovedInside d inside inside') (want : Bool) (maxT : Ext)
    (start : Vec Ext) (ttl : Nat) (tOff : Ext) (h : HitRecord Ext M) (r : Ray Ext) (hr : r.start.NotNegZero) :
    marchLoop isect' inside' want maxT (start.add d) ttl tOff h (r.moved d) =
      (marchLoop isect inside want maxT start ttl tOff h r).map fun a => (a.1, a.2.moved d) := by
  induction ttl generalizing tOff h r with
  | zero =>
    rw [marchLoop, marchLoop]
    split <;> rfl
  | succ n ih =>
    rw [marchLoop, marchLoop]
    split
    · dsimp only
      rw [map_bind', moved_at, hin _ (at_ok hr _)]
      refine bind_congr_ok rfl ?_
      intro i _
      split
      · rfl
      · have e : ({ start := (r.moved d).at (h.t + tiny), dir := (r.moved d).dir } : Ray Ext) =
            Ray.moved d ⟨r.at (h.t + tiny), r.dir⟩ := by rw [moved_at]; rfl
        rw [e]
        refine map_bind_congr (hi _ (at_ok hr _)) ?_
        rintro ⟨h1, r1⟩ e1
        have := hk _ _ _ e1
        subst this
        exact ih _ _ _ (at_ok hr _)
    · rfl

theorem march_moved {isect isect' : Ray Ext → GoM (HitRecord Ext M × Ray Ext)} {inside inside' : Vec Ext → GoM Bool}
    (hi : MovedHits d isect isect') (hk : KeepsRay isect) (hin : MovedInside d inside inside') (want : Bool) (maxT : Ext)
    (r : Ray Ext) (hr : r.start.NotNegZero) :
    march isect' inside' want (r.moved d) maxT = (march isect inside want r maxT).map fun a => (a.1, a.2.moved d) := by
  unfold march
  refine map_bind_congr (hi _ hr) ?_
  rintro ⟨h1, r1⟩ e1
  have := hk _ _ _ e1
  subst this
  exact marchLoop_moved hi hk hin _ _ _ _ _ _ _ hr

theorem marchBoth_moved {isectA isectA' isectB isectB' : Ray Ext → GoM (HitRecord Ext M × Ray Ext)}
    {insideA insideA' insideB insideB' : Vec Ext → GoM Bool}
    (ha : MovedHits d isectA isectA') (hka : KeepsRay isectA) (hia : MovedInside d insideA insideA')
    (hb : MovedHits d isectB isectB') (hkb : KeepsRay isectB) (hib : MovedInside d insideB insideB') (want : Bool)
    (r : Ray Ext) (hr : r.start.NotNegZero) :
    marchBoth isectA' insideA' isectB' insideB' want (r.moved d) =
      (marchBoth isectA insideA isectB insideB want r).map fun a => (a.1, a.2.moved d) := by
  unfold marchBoth
  refine map_bind_congr (march_moved ha hka hib _ _ _ hr) ?_
  rintro ⟨h1, r1⟩ e1
  have := march_keeps hka _ _ _ _ _ _ e1
  subst this
  dsimp only
  refine map_bind_congr (march_moved hb hkb hia _ _ _ hr) ?_
  rintro ⟨h2, r2⟩ -
  rfl

theorem visitChild_moved {isect isect' : Ray Ext → GoM (HitRecord Ext M × Ray Ext)} (hi : MovedHits d isect isect')
    (boxHit : Bool) (better : HitRecord Ext M → HitRecord Ext M → Bool) (front : HitRecord Ext M) (r : Ray Ext)
    (hr : r.start.NotNegZero) :
    visitChild boxHit isect' better front (r.moved d) =
      (visitChild boxHit isect better front r).map fun a => (a.1, a.2.moved d) := by
  unfold visitChild
  split
  · refine map_bind_congr (hi _ hr) ?_
    rintro ⟨h, r1⟩ -
    rfl
  · rfl

theorem moved_translate (δ : Vec Ext) : (Affine.translate δ).moved d = Affine.translate (δ.add d) := rfl

theorem Node.bb_moved (n : Node Ext M) : (n.moved d).bb = n.bb.translated d := by
  cases n <;> simp only [Node.moved, Node.bb]

theorem Node.Movable.bb {n : Node Ext M} (h : n.Movable) : n.bb.NotNegZero := by
  cases n <;> (simp only [Node.Movable] at h; exact h.1)

variable (d)
include hd

mutual

theorem Obj.inside_moved (o : Obj Ext M) (ho : o.Movable) : MovedInside d o.inside (o.moved d).inside := by
  intro p hp
  cases o with
  | bounded b o =>
    simp only [Obj.Movable] at ho
    simp only [Obj.moved, Obj.inside, BBox.inside_moved hd, Obj.inside_moved o ho.2 p hp]
  | box b m => simp only [Obj.moved, Obj.inside, BBox.inside_moved hd]
  | quadric q =>
    simp only [Obj.moved, Obj.inside]
    exact congrArg Except.ok (Quadric.inside_moved hd q p hp)
  | iso s => simp only [Obj.Movable] at ho
  | tree root =>
    simp only [Obj.Movable] at ho
    simp only [Obj.moved, Obj.inside, Node.inside_moved root ho p hp]
  | withMaterial m o =>
    simp only [Obj.Movable] at ho
    simp only [Obj.moved, Obj.inside, Obj.inside_moved o ho p hp]
  | transformed b f i o =>
    simp only [Obj.Movable] at ho
    obtain ⟨_, δ, rfl, rfl⟩ := ho
    simp only [Obj.moved, Obj.inside]
    rw [moved_translate, translate_inverse_point hd δ p hp]
  | and a b =>
    simp only [Obj.Movable] at ho
    simp only [Obj.moved, Obj.inside, Obj.inside_moved a ho.1 p hp, Obj.inside_moved b ho.2 p hp]
  | or a b =>
    simp only [Obj.Movable] at ho
    simp only [Obj.moved, Obj.inside, Obj.inside_moved a ho.1 p hp, Obj.inside_moved b ho.2 p hp]
  | restrict a b =>
    simp only [Obj.Movable] at ho
    simp only [Obj.moved, Obj.inside, Obj.inside_moved a ho.1 p hp, Obj.inside_moved b ho.2 p hp]
  | not o =>
    simp only [Obj.Movable] at ho
    simp only [Obj.moved, Obj.inside, Obj.inside_moved o ho p hp]
  | remapped o f => simp only [Obj.Movable] at ho
  | prim i n b => simp only [Obj.Movable] at ho
  | _ => simp only [Obj.moved, Obj.inside]

theorem Node.inside_moved (n : Node Ext M) (hn : n.Movable) : MovedInside d n.inside (n.moved d).inside := by
  intro p hp
  cases n with
  | leaf bb os =>
    simp only [Node.Movable] at hn
    simp only [Node.moved, Node.inside, Obj.anyInside_moved os hn.2 p hp]
  | inner bb a b =>
    simp only [Node.Movable] at hn
    simp only [Node.moved, Node.inside, Node.inside_moved a hn.2.1 p hp, Node.inside_moved b hn.2.2 p hp]

theorem Obj.anyInside_moved (os : List (Obj Ext M)) (ho : Obj.MovableList os) :
    MovedInside d (Obj.anyInside os) (Obj.anyInside (Obj.movedList d os)) := by
  intro p hp
  cases os with
  | nil => simp only [Obj.movedList, Obj.anyInside]
  | cons o os =>
    simp only [Obj.MovableList] at ho
    simp only [Obj.movedList, Obj.anyInside, Obj.inside_moved o ho.1 p hp, Obj.anyInside_moved os ho.2 p hp]

end

mutual

theorem Obj.intersect_moved (o : Obj Ext M) (ho : o.Movable) : MovedHits d o.intersect (o.moved d).intersect := by
  intro r hr
  cases o with
  | backdrop m => simp only [Obj.moved, Obj.intersect]; rfl
  | bounded b o =>
    simp only [Obj.Movable] at ho
    simp only [Obj.moved, Obj.intersect, BBox.intersects_moved hd b ho.1]
    split
    · rfl
    · exact Obj.intersect_moved o ho.2 r hr
  | box b m =>
    simp only [Obj.Movable] at ho
    simp only [Obj.moved, Obj.intersect, BBox.hit_moved hd b ho m r hr, map_bind']
    rfl
  | quadric q =>
    simp only [Obj.moved, Obj.intersect]
    rw [map_ok']
    exact congrArg (fun h => Except.ok (h, r.moved d)) (Quadric.hit_moved hd q r hr)
  | iso s => simp only [Obj.Movable] at ho
  | face v0 v1 v2 =>
    simp only [Obj.Movable] at ho
    simp only [Obj.moved, Obj.intersect, Face.hit_moved hd v0 v1 v2 ho.2.1 ho.2.2 r hr]
    rfl
  | tree root =>
    simp only [Obj.Movable] at ho
    simp only [Obj.moved, Obj.intersect, Node.bb_moved, BBox.intersect_moved hd _ ho.bb]
    split
    · rfl
    · exact Node.intersect_moved root ho r hr
  | withMaterial m o =>
    simp only [Obj.Movable] at ho
    simp only [Obj.moved, Obj.intersect]
    refine map_bind_congr (Obj.intersect_moved o ho r hr) ?_
    rintro ⟨h, r1⟩ -
    rfl
  | transformed b f i o =>
    simp only [Obj.Movable] at ho
    obtain ⟨hb, δ, rfl, rfl⟩ := ho
    simp only [Obj.moved, Obj.intersect, BBox.intersects_moved hd b hb]
    split
    · rfl
    · rw [map_bind', moved_translate]
      have e : (Affine.translate (δ.add d)).inverse.point (r.moved d).start = (Affine.translate δ).inverse.point r.start :=
        translate_inverse_point hd δ _ hr
      rw [e]
      rfl
  | and a b =>
    simp only [Obj.Movable] at ho
    simp only [Obj.moved, Obj.intersect]
    exact marchBoth_moved (Obj.intersect_moved a ho.1) (Obj.intersect_keeps a) (Obj.inside_moved d hd a ho.1)
      (Obj.intersect_moved b ho.2) (Obj.intersect_keeps b) (Obj.inside_moved d hd b ho.2) _ r hr
  | or a b =>
    simp only [Obj.Movable] at ho
    simp only [Obj.moved, Obj.intersect]
    exact marchBoth_moved (Obj.intersect_moved a ho.1) (Obj.intersect_keeps a) (Obj.inside_moved d hd a ho.1)
      (Obj.intersect_moved b ho.2) (Obj.intersect_keeps b) (Obj.inside_moved d hd b ho.2) _ r hr
  | restrict a b =>
    simp only [Obj.Movable] at ho
    simp only [Obj.moved, Obj.intersect]
    exact march_moved (Obj.intersect_moved a ho.1) (Obj.intersect_keeps a) (Obj.inside_moved d hd b ho.2) _ _ r hr
  | not o =>
    simp only [Obj.Movable] at ho
    simp only [Obj.moved, Obj.intersect]
    refine map_bind_congr (Obj.intersect_moved o ho r hr) ?_
    rintro ⟨h, r1⟩ -
    rfl
  | hollow o =>
    simp only [Obj.Movable] at ho
    simp only [Obj.moved, Obj.intersect]
    exact Obj.intersect_moved o ho r hr
  | remapped o f => simp only [Obj.Movable] at ho
  | allSpace => simp only [Obj.moved, Obj.intersect]; rfl
  | prim isect inside b => simp only [Obj.Movable] at ho

theorem Node.intersect_moved (n : Node Ext M) (hn : n.Movable) : MovedHits d n.intersect (n.moved d).intersect := by
  intro r hr
  cases n with
  | leaf bb os =>
    simp only [Node.Movable] at hn
    simp only [Node.moved, Node.intersect]
    exact Obj.scan_moved os hn.2 noHit r hr
  | inner bb a b =>
    simp only [Node.Movable] at hn
    simp only [Node.moved, Node.intersect, Node.bb_moved, BBox.intersect_moved hd _ hn.2.1.bb,
      BBox.intersect_moved hd _ hn.2.2.bb]
    refine map_bind_congr (visitChild_moved (Node.intersect_moved a hn.2.1) _ _ _ r hr) ?_
    rintro ⟨f1, r1⟩ e1
    have := visitChild_keeps (Node.intersect_keeps a) _ _ _ _ _ _ e1
    subst this
    refine map_bind_congr (visitChild_moved (Node.intersect_moved b hn.2.2) _ _ _ r1 hr) ?_
    rintro ⟨f2, r2⟩ -
    rfl

theorem Obj.scan_moved (os : List (Obj Ext M)) (ho : Obj.MovableList os) (front : HitRecord Ext M) (r : Ray Ext)
    (hr : r.start.NotNegZero) :
    Obj.scan (Obj.movedList d os) front (r.moved d) = (Obj.scan os front r).map fun a => (a.1, a.2.moved d) := by
  cases os with
  | nil => simp only [Obj.movedList, Obj.scan]; rfl
  | cons o os =>
    simp only [Obj.MovableList] at ho
    simp only [Obj.movedList, Obj.scan]
    refine map_bind_congr (Obj.intersect_moved o ho.1 r hr) ?_
    rintro ⟨h, r1⟩ e1
    have := Obj.intersect_keeps o _ _ _ e1
    subst this
    exact Obj.scan_moved os ho.2 _ r1 hr

end

end BR
