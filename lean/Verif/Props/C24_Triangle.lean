import Verif.Spec.Triangle
import Verif.Lemmas.Geom
import Verif.Lemmas.GoM
import Verif.Lemmas.ExtIs

/-!
C24: triangle hits lie on the ray and in the triangle, with the barycentric coordinates used for shading, and every
forward crossing is reported.
-/

namespace BR

variable {M : Type}

/-- The record for the point with the given weights at distance `t`: interpolated normal and texture coordinates. -/
def weightedRecord (v0 v1 v2 : Vertex ℝ) (t l0 l1 l2 : ℝ) : HitRecord ℝ M :=
  ⟨t, combine l0 l1 l2 v0.normal v1.normal v2.normal,
    ⟨l0 * v0.u + l1 * v1.u + l2 * v2.u, l0 * v0.v + l1 * v1.v + l2 * v2.v, 0⟩, none⟩

theorem Face.plane_iff (v0 v1 v2 : Vertex ℝ) (r : Ray ℝ) (t : ℝ)
    (hd : (triNormal v0.pos v1.pos v2.pos).dot r.dir ≠ 0) :
    (triNormal v0.pos v1.pos v2.pos).dot ((r.at t).sub v0.pos) = 0 ↔ t = Face.planeT v0 v1 v2 r := by
  have e : (triNormal v0.pos v1.pos v2.pos).dot ((r.at t).sub v0.pos) =
      (triNormal v0.pos v1.pos v2.pos).dot (r.start.sub v0.pos)
        + t * (triNormal v0.pos v1.pos v2.pos).dot r.dir := by
    simp only [geo]; ring
  rw [e]
  change _ ↔ t = -(triNormal v0.pos v1.pos v2.pos).dot (r.start.sub v0.pos)
    / (triNormal v0.pos v1.pos v2.pos).dot r.dir
  rw [eq_div_iff hd]
  constructor <;> intro h <;> linarith

/-- For a point of the plane, the computed numbers are its barycentric coordinates. -/
theorem Face.bary_of_plane (v0 v1 v2 : Vertex ℝ) (r : Ray ℝ) (t : ℝ)
    (hn : (triNormal v0.pos v1.pos v2.pos).len2 ≠ 0)
    (hp : (triNormal v0.pos v1.pos v2.pos).dot ((r.at t).sub v0.pos) = 0) :
    ∃ l0 l1 l2, Face.bary v0 v1 v2 r t = (l0, l1, l2) ∧ l0 + l1 + l2 = 1 ∧
      r.at t = combine l0 l1 l2 v0.pos v1.pos v2.pos := by
  obtain ⟨p, hpdef⟩ : ∃ p, p = (r.at t).sub v0.pos := ⟨_, rfl⟩
  have hat : r.at t = p.add v0.pos := by
    rw [hpdef]; simp only [geo]; refine ⟨?_, ?_, ?_⟩ <;> ring
  have hsp : (r.start.sub v0.pos).madd t r.dir = p := by
    rw [hpdef]; simp only [geo]; refine ⟨?_, ?_, ?_⟩ <;> ring
  obtain ⟨a, ha⟩ : ∃ a, a = v1.pos.sub v0.pos := ⟨_, rfl⟩
  obtain ⟨b, hb⟩ : ∃ b, b = v2.pos.sub v0.pos := ⟨_, rfl⟩
  have h1 : v1.pos = a.add v0.pos := by rw [ha]; simp only [geo]; refine ⟨?_, ?_, ?_⟩ <;> ring
  have h2 : v2.pos = b.add v0.pos := by rw [hb]; simp only [geo]; refine ⟨?_, ?_, ?_⟩ <;> ring
  have hbary : Face.bary v0 v1 v2 r t =
      ((a.cross b).dot ((b.sub a).cross (p.sub a)) / (a.cross b).len2,
        1 - (a.cross b).dot ((b.sub a).cross (p.sub a)) / (a.cross b).len2
          - (a.cross b).dot (a.cross p) / (a.cross b).len2,
        (a.cross b).dot (a.cross p) / (a.cross b).len2) := by
    simp only [Face.bary, hsp, ← ha, ← hb, lit_real]
    push_cast
    rfl
  refine ⟨_, _, _, hbary, by ring, ?_⟩
  have hnn : triNormal v0.pos v1.pos v2.pos = a.cross b := by rw [triNormal, ← ha, ← hb]
  rw [hnn] at hn hp
  rw [← hpdef] at hp
  rw [hat, h1, h2]
  obtain ⟨k, hk⟩ : ∃ k, k = (a.cross b).len2 := ⟨_, rfl⟩
  rw [← hk] at hn ⊢
  generalize v0.pos = o
  -- p = l1 a + l2 b
  have hx : k * p.x = (k - (a.cross b).dot ((b.sub a).cross (p.sub a)) - (a.cross b).dot (a.cross p)) * a.x
      + (a.cross b).dot (a.cross p) * b.x := by
    rw [hk]; simp only [geo] at hp ⊢; linear_combination (a.y * b.z - a.z * b.y) * hp
  have hy : k * p.y = (k - (a.cross b).dot ((b.sub a).cross (p.sub a)) - (a.cross b).dot (a.cross p)) * a.y
      + (a.cross b).dot (a.cross p) * b.y := by
    rw [hk]; simp only [geo] at hp ⊢; linear_combination (a.z * b.x - a.x * b.z) * hp
  have hz : k * p.z = (k - (a.cross b).dot ((b.sub a).cross (p.sub a)) - (a.cross b).dot (a.cross p)) * a.z
      + (a.cross b).dot (a.cross p) * b.z := by
    rw [hk]; simp only [geo] at hp ⊢; linear_combination (a.x * b.y - a.y * b.x) * hp
  generalize (a.cross b).dot ((b.sub a).cross (p.sub a)) = A at *
  generalize (a.cross b).dot (a.cross p) = C at *
  simp only [combine, Vec.add, Vec.mul, Vec.ext_iff]
  refine ⟨?_, ?_, ?_⟩
  · field_simp; linear_combination hx
  · field_simp; linear_combination hy
  · field_simp; linear_combination hz

/-- Barycentric coordinates are unique. -/
private theorem weights_unique (a b c : Vec ℝ) (hn : (triNormal a b c).len2 ≠ 0) (l0 l1 l2 m0 m1 m2 : ℝ)
    (hl : l0 + l1 + l2 = 1) (hm : m0 + m1 + m2 = 1) (h : combine l0 l1 l2 a b c = combine m0 m1 m2 a b c) :
    l0 = m0 ∧ l1 = m1 ∧ l2 = m2 := by
  obtain ⟨u, hu⟩ : ∃ u, u = b.sub a := ⟨_, rfl⟩
  obtain ⟨v, hv⟩ : ∃ v, v = c.sub a := ⟨_, rfl⟩
  have hb : b = u.add a := by rw [hu]; simp only [geo]; refine ⟨?_, ?_, ?_⟩ <;> ring
  have hc : c = v.add a := by rw [hv]; simp only [geo]; refine ⟨?_, ?_, ?_⟩ <;> ring
  have hn' : (u.cross v).len2 ≠ 0 := by rw [hu, hv]; exact hn
  have e0 : l0 = 1 - l1 - l2 := by linarith
  have e0' : m0 = 1 - m1 - m2 := by linarith
  subst e0 e0' hb hc
  simp only [combine, Vec.add, Vec.mul, Vec.ext_iff] at h
  obtain ⟨hx, hy, hz⟩ := h
  have gx : (l1 - m1) * u.x + (l2 - m2) * v.x = 0 := by linarith
  have gy : (l1 - m1) * u.y + (l2 - m2) * v.y = 0 := by linarith
  have gz : (l1 - m1) * u.z + (l2 - m2) * v.z = 0 := by linarith
  have k1 : (l1 - m1) * (u.cross v).len2 = 0 := by
    simp only [geo]
    linear_combination
      ((u.x * v.y - u.y * v.x) * v.y + (u.x * v.z - u.z * v.x) * v.z) * gx
      + ((u.y * v.z - u.z * v.y) * v.z - (u.x * v.y - u.y * v.x) * v.x) * gy
      + (-(u.x * v.z - u.z * v.x) * v.x - (u.y * v.z - u.z * v.y) * v.y) * gz
  have k2 : (l2 - m2) * (u.cross v).len2 = 0 := by
    simp only [geo]
    linear_combination
      (-(u.x * v.y - u.y * v.x) * u.y - (u.x * v.z - u.z * v.x) * u.z) * gx
      + (-(u.y * v.z - u.z * v.y) * u.z + (u.x * v.y - u.y * v.x) * u.x) * gy
      + ((u.x * v.z - u.z * v.x) * u.x + (u.y * v.z - u.z * v.y) * u.y) * gz
  have k1' := (mul_eq_zero.1 k1).resolve_right hn'
  have k2' := (mul_eq_zero.1 k2).resolve_right hn'
  refine ⟨by linarith, by linarith, by linarith⟩

private theorem combine_plane (a b c : Vec ℝ) (l0 l1 l2 : ℝ) (hl : l0 + l1 + l2 = 1) :
    (triNormal a b c).dot ((combine l0 l1 l2 a b c).sub a) = 0 := by
  have e0 : l0 = 1 - l1 - l2 := by linarith
  subst e0
  simp only [triNormal, combine, geo]
  ring

/-- Exactly the forward crossings of the closed triangle are reported, with the interpolated normal and texture
coordinates of that point, for every non-degenerate triangle and ray that is not parallel to it. -/
theorem C24_hit (v0 v1 v2 : Vertex ℝ) (r : Ray ℝ) (hn : (triNormal v0.pos v1.pos v2.pos).len2 ≠ 0)
    (hd : (triNormal v0.pos v1.pos v2.pos).dot r.dir ≠ 0) (t l0 l1 l2 : ℝ) (hl : IsWeights l0 l1 l2) (ht : 0 < t)
    (hp : r.at t = combine l0 l1 l2 v0.pos v1.pos v2.pos) :
    (Face.hit v0 v1 v2 r : HitRecord ℝ M) = weightedRecord v0 v1 v2 t l0 l1 l2 := by
  obtain ⟨h0, h1, h2, hs⟩ := hl
  have hpl : (triNormal v0.pos v1.pos v2.pos).dot ((r.at t).sub v0.pos) = 0 := by
    rw [hp]; exact combine_plane _ _ _ _ _ _ hs
  have ht' := (Face.plane_iff v0 v1 v2 r t hd).1 hpl
  obtain ⟨m0, m1, m2, hb, hm, he⟩ := Face.bary_of_plane v0 v1 v2 r t hn hpl
  obtain ⟨rfl, rfl, rfl⟩ := weights_unique _ _ _ hn _ _ _ _ _ _ hs hm (hp ▸ he)
  simp only [Face.hit, ← ht', hb, lt_real, lit_real, Rat.cast_zero]
  rw [if_neg (by simp [ht])]
  rw [if_neg (by simp [h0, h1, h2])]
  simp only [weightedRecord, combine, HitRecord.mk.injEq, and_true, true_and, Vec.mk.injEq]
  refine ⟨by ring, by ring⟩

/-- Conversely, everything reported with a positive distance is such a crossing. -/
theorem C24_sound (v0 v1 v2 : Vertex ℝ) (r : Ray ℝ) (hn : (triNormal v0.pos v1.pos v2.pos).len2 ≠ 0)
    (hd : (triNormal v0.pos v1.pos v2.pos).dot r.dir ≠ 0) (ht : 0 < (Face.hit v0 v1 v2 r : HitRecord ℝ M).t) :
    ∃ t l0 l1 l2, IsWeights l0 l1 l2 ∧ 0 < t ∧ r.at t = combine l0 l1 l2 v0.pos v1.pos v2.pos ∧
      (Face.hit v0 v1 v2 r : HitRecord ℝ M) = weightedRecord v0 v1 v2 t l0 l1 l2 := by
  have hpl := (Face.plane_iff v0 v1 v2 r _ hd).2 rfl
  obtain ⟨m0, m1, m2, hb, hm, he⟩ := Face.bary_of_plane v0 v1 v2 r _ hn hpl
  have h : 0 < Face.planeT v0 v1 v2 r ∧ 0 ≤ m0 ∧ 0 ≤ m1 ∧ 0 ≤ m2 := by
    by_contra hc
    apply ne_of_gt ht
    simp only [Face.hit, hb, lt_real, lit_real, Rat.cast_zero, HitRecord.miss]
    split_ifs with c1 c2
    · rfl
    · rfl
    · exfalso
      simp at c1 c2
      exact hc ⟨c1, c2.1.1, c2.1.2, c2.2⟩
  exact ⟨_, m0, m1, m2, ⟨h.2.1, h.2.2.1, h.2.2.2, hm⟩, h.1, he,
    C24_hit v0 v1 v2 r hn hd _ m0 m1 m2 ⟨h.2.1, h.2.2.1, h.2.2.2, hm⟩ h.1 he⟩

/-- Rays that do not cross the triangle miss. -/
theorem C24_miss (v0 v1 v2 : Vertex ℝ) (r : Ray ℝ) (hn : (triNormal v0.pos v1.pos v2.pos).len2 ≠ 0)
    (hd : (triNormal v0.pos v1.pos v2.pos).dot r.dir ≠ 0)
    (h : ∀ t l0 l1 l2, IsWeights l0 l1 l2 → 0 < t → r.at t ≠ combine l0 l1 l2 v0.pos v1.pos v2.pos) :
    (Face.hit v0 v1 v2 r : HitRecord ℝ M) = HitRecord.miss := by
  by_cases ht : 0 < (Face.hit v0 v1 v2 r : HitRecord ℝ M).t
  · obtain ⟨t, l0, l1, l2, hl, ht, he, -⟩ := C24_sound v0 v1 v2 r hn hd ht
    exact absurd he (h _ _ _ _ hl ht)
  · revert ht
    simp only [Face.hit, lt_real, lit_real, Rat.cast_zero]
    split_ifs with c1 c2
    · intro _; rfl
    · intro _; rfl
    · intro hc
      simp at c1
      exact absurd c1 hc

/-- The triangle (0,0,0), (1,0,0), (0,0,1). -/
def groundTriangle : Vertex ℝ × Vertex ℝ × Vertex ℝ :=
  (⟨⟨0, 0, 0⟩, ⟨0, 1, 0⟩, 0, 0⟩, ⟨⟨1, 0, 0⟩, ⟨0, 1, 0⟩, 1, 0⟩, ⟨⟨0, 0, 1⟩, ⟨0, 1, 0⟩, 0, 1⟩)

/-- A slanted ray hits it. -/
example : (triNormal groundTriangle.1.pos groundTriangle.2.1.pos groundTriangle.2.2.pos).len2 ≠ 0 ∧
    (triNormal groundTriangle.1.pos groundTriangle.2.1.pos groundTriangle.2.2.pos).dot ⟨1, -4, 0⟩ ≠ 0 ∧
    (⟨⟨0, 1, 1 / 4⟩, ⟨1, -4, 0⟩⟩ : Ray ℝ).at (1 / 4) =
      combine (1 / 2) (1 / 4) (1 / 4) groundTriangle.1.pos groundTriangle.2.1.pos groundTriangle.2.2.pos := by
  simp only [groundTriangle, triNormal, combine, geo]
  norm_num

open Ext in
/-- Violation: in IEEE arithmetic a ray parallel to the triangle (at height 1 above it) is reported as a hit, at infinite
distance: the barycentric coordinates are NaN and pass the test. -/
theorem C24_violated_parallel (n0 n1 n2 : Vec Ext) :
    ∃ h : HitRecord Ext M, h = Face.hit ⟨⟨fin 0, fin 0, fin 0⟩, n0, fin 0, fin 0⟩
      ⟨⟨fin 1, fin 0, fin 0⟩, n1, fin 1, fin 0⟩ ⟨⟨fin 0, fin 0, fin 1⟩, n2, fin 0, fin 1⟩
      ⟨⟨fin 0, fin 1, fin 0⟩, ⟨fin 1, fin 0, fin 0⟩⟩ ∧ h.t = inf false ∧ (h.t >. lit 0) = true := by
  refine ⟨_, rfl, ?_⟩
  have ht : Face.planeT ⟨⟨fin 0, fin 0, fin 0⟩, n0, fin 0, fin 0⟩
      ⟨⟨fin 1, fin 0, fin 0⟩, n1, fin 1, fin 0⟩ ⟨⟨fin 0, fin 0, fin 1⟩, n2, fin 0, fin 1⟩
      (⟨⟨fin 0, fin 1, fin 0⟩, ⟨fin 1, fin 0, fin 0⟩⟩ : Ray Ext) = inf false := by
    simp only [Face.planeT, Vec.sub, Vec.cross, Vec.dot, Ext.fin]
    norm_num [num_sub_num, num_mul_num, num_add_num, neg_num, num_div_zero, sgn]
  have hb : Face.bary ⟨⟨fin 0, fin 0, fin 0⟩, n0, fin 0, fin 0⟩
      ⟨⟨fin 1, fin 0, fin 0⟩, n1, fin 1, fin 0⟩ ⟨⟨fin 0, fin 0, fin 1⟩, n2, fin 0, fin 1⟩
      (⟨⟨fin 0, fin 1, fin 0⟩, ⟨fin 1, fin 0, fin 0⟩⟩ : Ray Ext) (inf false) = (nan, nan, nan) := by
    simp only [Face.bary, Vec.sub, Vec.cross, Vec.dot, Vec.madd, Ext.fin]
    norm_num [num_sub_num, num_mul_num, num_add_num, inf_mul_num, sgn]
  simp [Face.hit, ht, hb]

end BR
