import Verif.Lemmas.Attr
import Verif.Model.Geom
import Verif.Num.Real
import Mathlib.Tactic.LinearCombination
import Mathlib.Tactic.FieldSimp
import Mathlib.Tactic.Ring
import Mathlib.Tactic.NormNum
import Mathlib.Tactic.Linarith
import Mathlib.LinearAlgebra.Matrix.Determinant.Basic

/-! Helper lemmas for the geometry model over the reals. -/

namespace BR

attribute [geo] Vec.add Vec.madd Vec.sub Vec.dot Vec.mul Vec.len2 Vec.cross Vec.zero
  Vec.ex Vec.ey Vec.ez Matrix.unit Matrix.mulCol Matrix.mul Matrix.mulVec Matrix.mulf Matrix.det
  Affine.unit Affine.point Affine.dir Affine.before Affine.after Affine.translate
  Ray.at Affine.mapBaseTo Vec.ext_iff Matrix.ext_iff Affine.ext_iff

theorem Matrix.mul_mulVec (m b : Matrix ℝ) (v : Vec ℝ) :
    (m.mul b).mulVec v = m.mulVec (b.mulVec v) := by
  simp only [geo, lit_real]; push_cast; refine ⟨?_, ?_, ?_⟩ <;> ring

theorem Matrix.inverse_mulVec (m : Matrix ℝ) (h : m.det ≠ 0) (v : Vec ℝ) :
    m.inverse.mulVec (m.mulVec v) = v := by
  obtain ⟨k, hk⟩ : ∃ k : ℝ, k = 1 / m.det := ⟨_, rfl⟩
  have hk1 : k * m.det = 1 := by rw [hk]; field_simp
  have hl : (lit 1 : ℝ) / m.det = k := by rw [hk]; simp
  simp only [Matrix.inverse, hl]
  simp only [geo] at hk1 ⊢
  refine ⟨?_, ?_, ?_⟩
  · linear_combination v.x * hk1
  · linear_combination v.y * hk1
  · linear_combination v.z * hk1

theorem Matrix.mulVec_inverse (m : Matrix ℝ) (h : m.det ≠ 0) (v : Vec ℝ) :
    m.mulVec (m.inverse.mulVec v) = v := by
  obtain ⟨k, hk⟩ : ∃ k : ℝ, k = 1 / m.det := ⟨_, rfl⟩
  have hk1 : k * m.det = 1 := by rw [hk]; field_simp
  have hl : (lit 1 : ℝ) / m.det = k := by rw [hk]; simp
  simp only [Matrix.inverse, hl]
  simp only [geo] at hk1 ⊢
  refine ⟨?_, ?_, ?_⟩
  · linear_combination v.x * hk1
  · linear_combination v.y * hk1
  · linear_combination v.z * hk1

theorem Matrix.mulVec_add (m : Matrix ℝ) (v w : Vec ℝ) :
    m.mulVec (v.add w) = (m.mulVec v).add (m.mulVec w) := by
  simp only [geo]; refine ⟨?_, ?_, ?_⟩ <;> ring

theorem Matrix.mulVec_sub (m : Matrix ℝ) (v w : Vec ℝ) :
    m.mulVec (v.sub w) = (m.mulVec v).sub (m.mulVec w) := by
  simp only [geo]; refine ⟨?_, ?_, ?_⟩ <;> ring

theorem Matrix.mulVec_mul (m : Matrix ℝ) (v : Vec ℝ) (s : ℝ) :
    m.mulVec (v.mul s) = (m.mulVec v).mul s := by
  simp only [geo]; refine ⟨?_, ?_, ?_⟩ <;> ring

theorem Matrix.det_mul (m b : Matrix ℝ) : (m.mul b).det = m.det * b.det := by
  simp only [geo, lit_real]; push_cast; ring

end BR
