import Verif.Spec.Triangle
import Verif.Lemmas.ExtIs
import Verif.Lemmas.Geom
import Verif.Props.C24_Triangle

/-! Intersection with a triangle in extended numbers follows intersection in real numbers when the
triangle and the ray are finite and the ray is not parallel to the triangle. Parallel triangles are not hit at any
finite distance. -/

namespace BR

variable {M : Type}

theorem Vec.Is.dot {a b : Vec Ext} {x y : Vec ℝ} (ha : a.Is x) (hb : b.Is y) : (a.dot b).Is (x.dot y) :=
  ((ha.1.mul hb.1).add (ha.2.1.mul hb.2.1)).add (ha.2.2.mul hb.2.2)

theorem Vec.Is.cross {a b : Vec Ext} {x y : Vec ℝ} (ha : a.Is x) (hb : b.Is y) : (a.cross b).Is (x.cross y) :=
  ⟨(ha.2.1.mul hb.2.2).sub (ha.2.2.mul hb.2.1), (ha.2.2.mul hb.1).sub (ha.1.mul hb.2.2),
    (ha.1.mul hb.2.1).sub (ha.2.1.mul hb.1)⟩

/-- A vertex of real numbers at the given place. -/
noncomputable def Vertex.real (p : Vec ℝ) : Vertex ℝ := ⟨p, Vec.zero, 0, 0⟩

theorem Transverse.len2 {a b c d : Vec ℝ} (h : Transverse a b c d) : (triNormal a b c).len2 ≠ 0 := by
  intro h0
  apply h
  have hx := sq_nonneg (triNormal a b c).x
  have hy := sq_nonneg (triNormal a b c).y
  have hz := sq_nonneg (triNormal a b c).z
  unfold Vec.len2 at h0
  have h0' : (triNormal a b c).x ^ 2 + (triNormal a b c).y ^ 2 + (triNormal a b c).z ^ 2 = 0 := by
    rw [← h0]; ring
  have ex : (triNormal a b c).x = 0 := pow_eq_zero_iff two_ne_zero |>.1 (by linarith)
  have ey : (triNormal a b c).y = 0 := pow_eq_zero_iff two_ne_zero |>.1 (by linarith)
  have ez : (triNormal a b c).z = 0 := pow_eq_zero_iff two_ne_zero |>.1 (by linarith)
  simp only [Vec.dot, ex, ey, ez]; ring

variable {v0 v1 v2 : Vertex Ext} {p0 p1 p2 : Vec ℝ} {r : Ray Ext} {R : Ray ℝ}

theorem face_planeT (h0 : v0.pos.Is p0) (h1 : v1.pos.Is p1) (h2 : v2.pos.Is p2) (hr : r.Is R)
    (hd : Transverse p0 p1 p2 R.dir) :
    (Face.planeT v0 v1 v2 r).Is (Face.planeT (.real p0) (.real p1) (.real p2) R) := by
  have hn := (h1.sub h0).cross (h2.sub h0)
  exact Ext.Is.div ((hn.dot (hr.1.sub h0)).neg) (hn.dot hr.2) hd

theorem face_bary (h0 : v0.pos.Is p0) (h1 : v1.pos.Is p1) (h2 : v2.pos.Is p2) (hr : r.Is R)
    (hd : Transverse p0 p1 p2 R.dir) {t : Ext} {T : ℝ} (ht : t.Is T) :
    (Face.bary v0 v1 v2 r t).1.Is (Face.bary (.real p0) (.real p1) (.real p2) R T).1 ∧
    (Face.bary v0 v1 v2 r t).2.1.Is (Face.bary (.real p0) (.real p1) (.real p2) R T).2.1 ∧
    (Face.bary v0 v1 v2 r t).2.2.Is (Face.bary (.real p0) (.real p1) (.real p2) R T).2.2 := by
  have ha := h1.sub h0
  have hb := h2.sub h0
  have hn := ha.cross hb
  have hp := (hr.1.sub h0).madd ht hr.2
  have l1 := (hn.dot ((hb.sub ha).cross (hp.sub ha))).div (hn.dot hn) hd.len2
  have l3 := (hn.dot (ha.cross hp)).div (hn.dot hn) hd.len2
  refine ⟨l1, ?_, l3⟩
  have := ((Ext.Is.lit 1).sub l1).sub l3
  exact this

/-- The distance reported is that of exact arithmetic; if there is no hit the record is the empty record. -/
theorem face_hit_t (h0 : v0.pos.Is p0) (h1 : v1.pos.Is p1) (h2 : v2.pos.Is p2) (hr : r.Is R)
    (hd : Transverse p0 p1 p2 R.dir) :
    ((Face.hit v0 v1 v2 r : HitRecord Ext M).t).Is
      (Face.hit (.real p0) (.real p1) (.real p2) R : HitRecord ℝ M).t := by
  have ht := face_planeT h0 h1 h2 hr hd
  obtain ⟨b1, b2, b3⟩ := face_bary h0 h1 h2 hr hd ht
  have z : (lit 0 : Ext).Is 0 := by simpa using Ext.Is.lit 0
  simp only [Face.hit, z.lt ht, b1.lt z, b2.lt z, b3.lt z, lt_real, lit_real, Rat.cast_zero]
  split_ifs
  · simpa [HitRecord.miss] using z
  · simpa [HitRecord.miss] using z
  · exact ht

/-- A triangle that is degenerate or parallel to the ray is missed, or reported at a distance that is not below `9e99`
(at `+Inf`). -/
theorem face_hit_parallel (h0 : v0.pos.Is p0) (h1 : v1.pos.Is p1) (h2 : v2.pos.Is p2) (hr : r.Is R)
    (hd : ¬ Transverse p0 p1 p2 R.dir) :
    (lit 0 <. (Face.hit v0 v1 v2 r : HitRecord Ext M).t) = false ∨
      ((Face.hit v0 v1 v2 r : HitRecord Ext M).t <. (lit (9 * 10 ^ 99) : Ext)) = false := by
  have hn := (h1.sub h0).cross (h2.sub h0)
  have hz : (((v1.pos.sub v0.pos).cross (v2.pos.sub v0.pos)).dot r.dir).Is 0 := by
    have := hn.dot hr.2
    rwa [show ((p1.sub p0).cross (p2.sub p0)).dot R.dir = 0 from not_not.1 hd] at this
  have z : (lit 0 : Ext).Is 0 := by simpa using Ext.Is.lit 0
  have hmiss : ((lit 0 : Ext) <. (HitRecord.miss : HitRecord Ext M).t) = false := by
    change ((lit 0 : Ext) <. lit 0) = false
    rw [z.lt z]; simp
  have ht : (lit 0 <. Face.planeT v0 v1 v2 r) = false ∨ Face.planeT v0 v1 v2 r = .inf false := by
    obtain ⟨s, e⟩ := (hn.dot (hr.1.sub h0)).neg
    obtain ⟨u, e'⟩ := hz
    change (lit 0 <. _ / _) = false ∨ _ / _ = _
    rw [e, e', Ext.num_div_zero]
    split_ifs
    · exact .inl (by simp)
    · cases hx : xor (Ext.sgn (.num (-((p1.sub p0).cross (p2.sub p0)).dot (R.start.sub p0)) s)) u
      · exact .inr rfl
      · exact .inl (by simp)
  rcases ht with ht | ht
  · left
    rw [Face.hit, ht]
    exact hmiss
  · rw [Face.hit]
    split
    · exact .inl hmiss
    · dsimp only
      split
      · exact .inl hmiss
      · right
        show (Face.planeT v0 v1 v2 r <. _) = false
        rw [ht]; simp

/-- A forward crossing with the triangle is reported at its distance. -/
theorem face_hit_is (h0 : v0.pos.Is p0) (h1 : v1.pos.Is p1) (h2 : v2.pos.Is p2) (hr : r.Is R)
    (hd : Transverse p0 p1 p2 R.dir) {T : ℝ} (hT : 0 < T) (hin : InTriangle p0 p1 p2 (R.at T)) :
    ((Face.hit v0 v1 v2 r : HitRecord Ext M).t).Is T := by
  have h := face_hit_t (M := M) h0 h1 h2 hr hd
  obtain ⟨l0, l1, l2, hl, hp⟩ := hin
  rw [C24_hit (.real p0) (.real p1) (.real p2) R hd.len2 hd T l0 l1 l2 hl hT hp] at h
  exact h

/-- A reported distance that is positive is that of a forward crossing with the triangle. -/
theorem face_hit_sound (h0 : v0.pos.Is p0) (h1 : v1.pos.Is p1) (h2 : v2.pos.Is p2) (hr : r.Is R)
    (hd : Transverse p0 p1 p2 R.dir)
    (hp : (lit 0 <. (Face.hit v0 v1 v2 r : HitRecord Ext M).t) = true) :
    ∃ T, ((Face.hit v0 v1 v2 r : HitRecord Ext M).t).Is T ∧ 0 < T ∧ InTriangle p0 p1 p2 (R.at T) := by
  have h := face_hit_t (M := M) h0 h1 h2 hr hd
  have z : (lit 0 : Ext).Is 0 := by simpa using Ext.Is.lit 0
  rw [z.lt h, decide_eq_true_eq] at hp
  obtain ⟨t, l0, l1, l2, hl, ht, he, e⟩ := C24_sound (.real p0) (.real p1) (.real p2) R hd.len2 hd hp
  rw [e] at h
  exact ⟨t, h, ht, l0, l1, l2, hl, he⟩

/-- The whole record of a hit: weights of the crossing point, with which normals and texture coordinates are combined. -/
theorem face_hit_full (h0 : v0.pos.Is p0) (h1 : v1.pos.Is p1) (h2 : v2.pos.Is p2) (hr : r.Is R)
    (hd : Transverse p0 p1 p2 R.dir)
    (hp : (lit 0 <. (Face.hit v0 v1 v2 r : HitRecord Ext M).t) = true) :
    ∃ T l0 l1 l2, ∃ e0 e1 e2 : Ext, IsWeights l0 l1 l2 ∧ 0 < T ∧ R.at T = combine l0 l1 l2 p0 p1 p2 ∧
      e0.Is l0 ∧ e1.Is l1 ∧ e2.Is l2 ∧ ((Face.hit v0 v1 v2 r : HitRecord Ext M).t).Is T ∧
      (Face.hit v0 v1 v2 r : HitRecord Ext M).normal =
        ((v0.normal.mul e0).add (v1.normal.mul e1)).add (v2.normal.mul e2) ∧
      (Face.hit v0 v1 v2 r : HitRecord Ext M).loc =
        ⟨v0.u * e0 + v1.u * e1 + v2.u * e2, v0.v * e0 + v1.v * e1 + v2.v * e2, lit 0⟩ := by
  have ht := face_planeT h0 h1 h2 hr hd
  obtain ⟨b1, b2, b3⟩ := face_bary h0 h1 h2 hr hd ht
  have z : (lit 0 : Ext).Is 0 := by simpa using Ext.Is.lit 0
  have hpl := (Face.plane_iff (.real p0) (.real p1) (.real p2) R _ hd).2 rfl
  obtain ⟨m0, m1, m2, hb, hm, he⟩ := Face.bary_of_plane (.real p0) (.real p1) (.real p2) R _ hd.len2 hpl
  rw [hb] at b1 b2 b3
  have zz : ¬ ((lit 0 : Ext) <. lit 0) = true := by rw [z.lt z]; simp
  by_cases c1 : (!(lit 0 <. Face.planeT v0 v1 v2 r)) = true
  · rw [Face.hit, if_pos c1] at hp
    exact absurd hp zz
  by_cases c2 : ((Face.bary v0 v1 v2 r (Face.planeT v0 v1 v2 r)).1 <. lit 0 ||
      (Face.bary v0 v1 v2 r (Face.planeT v0 v1 v2 r)).2.1 <. lit 0 ||
      (Face.bary v0 v1 v2 r (Face.planeT v0 v1 v2 r)).2.2 <. lit 0) = true
  · rw [Face.hit, if_neg c1] at hp
    dsimp only at hp
    rw [if_pos c2] at hp
    exact absurd hp zz
  generalize hbe : Face.bary v0 v1 v2 r (Face.planeT v0 v1 v2 r) = be at b1 b2 b3 c2
  obtain ⟨e0, e1, e2⟩ := be
  have e : (Face.hit v0 v1 v2 r : HitRecord Ext M) = ⟨Face.planeT v0 v1 v2 r,
      ((v0.normal.mul e0).add (v1.normal.mul e1)).add (v2.normal.mul e2),
      ⟨v0.u * e0 + v1.u * e1 + v2.u * e2, v0.v * e0 + v1.v * e1 + v2.v * e2, lit 0⟩, none⟩ := by
    rw [Face.hit, if_neg c1]
    dsimp only
    rw [hbe]
    dsimp only
    rw [if_neg c2]
  rw [e]
  rw [Bool.not_eq_true, Bool.not_eq_false', z.lt ht, decide_eq_true_eq] at c1
  rw [Bool.not_eq_true, Bool.or_eq_false_iff, Bool.or_eq_false_iff, b1.lt z, b2.lt z, b3.lt z] at c2
  simp only [decide_eq_false_iff_not, not_lt] at c2
  exact ⟨_, m0, m1, m2, _, _, _, ⟨c2.1.1, c2.1.2, c2.2, hm⟩, c1, he, b1, b2, b3, ht, rfl, rfl⟩

end BR
