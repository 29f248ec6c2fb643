import Verif.Model.Scene
import Verif.Lemmas.Geom
import Verif.Lemmas.GoM

/-!
C59: blending with weights uses exactly the weighted sum of the two materials, skipping a material of
weight zero has no effect, and two-sided materials select the side by the sign of direction dot
normal.

The materials are arbitrary; `matA.shade … ctx = .ok (ca, ctx₁)` says that shading material A gives
colour `ca` (and leaves the context `ctx₁`).
-/

namespace BR

variable {S : Type} (rng : Rng ℝ S) (s : Scene ℝ) (lf : LF ℝ S) (r : Ray ℝ) (h : HitCoords ℝ)

/-- The colour `a*x + b*y`. -/
def weightedSum (a : ℝ) (x : Color ℝ) (b : ℝ) (y : Color ℝ) : Color ℝ :=
  ⟨a * x.R + b * y.R, a * x.G + b * y.G, a * x.B + b * y.B⟩

/-- `Blend(a, A, b, B)` is the weighted sum, for any weights. -/
theorem C59_blend (a b : ℝ) (matA matB : Mat ℝ) (ca cb : Color ℝ) (ctx ctx₁ ctx₂ : Ctx ℝ S)
    (hA : matA.shade rng s lf r h ctx = .ok (ca, ctx₁))
    (hB : matB.shade rng s lf r h ctx₁ = .ok (cb, ctx₂)) :
    (Mat.blend a matA b matB).shade rng s lf r h ctx = .ok (weightedSum a ca b cb, ctx₂) := by
  simp only [Mat.shade, hA, ok_bind, hB]
  rfl

/-- `BlendMap` with a key strictly between 0 and 1 is the sum of the materials weighted with the key
and its complement. -/
theorem C59_blendMap (tex : Tex ℝ) (matA matB : Mat ℝ) (col ca cb : Color ℝ) (ctx ctx₁ ctx₂ : Ctx ℝ S)
    (ht : tex h.loc = .ok col) (h0 : 0 < col.R) (h1 : col.R < 1)
    (hA : matA.shade rng s lf r h ctx = .ok (ca, ctx₁))
    (hB : matB.shade rng s lf r h ctx₁ = .ok (cb, ctx₂)) :
    (Mat.blendMap tex matA matB).shade rng s lf r h ctx =
      .ok (weightedSum col.R ca (1 - col.R) cb, ctx₂) := by
  have e1 : (col.R >. lit 0) = true := by simp [h0]
  have e2 : (lit 1 - col.R >. lit 0) = true := by simp [h1]
  simp only [Mat.shade, ht, ok_bind, whenPos, e1, e2, if_true, hA, hB]
  simp [weightedSum, Color.mul, Color.madd, pure_ok]

/-- Weight zero for the first material: it is skipped, and the colour is the weighted sum whatever
colour it would have given. -/
theorem C59_skip_first (tex : Tex ℝ) (matA matB : Mat ℝ) (col cb : Color ℝ) (ctx ctx₂ : Ctx ℝ S)
    (ht : tex h.loc = .ok col) (h0 : col.R = 0)
    (hB : matB.shade rng s lf r h ctx = .ok (cb, ctx₂)) :
    ∃ out, (Mat.blendMap tex matA matB).shade rng s lf r h ctx = .ok (out, ctx₂) ∧
      ∀ ca, out = weightedSum col.R ca (1 - col.R) cb := by
  have e1 : (col.R >. lit 0) = false := by simp [h0]
  have e2 : (lit 1 - col.R >. lit 0) = true := by simp [h0]
  refine ⟨(Color.black.mul col.R).madd (lit 1 - col.R) cb, ?_, fun ca => ?_⟩
  · simp only [Mat.shade, ht, ok_bind, whenPos, e1, e2, if_true, Bool.false_eq_true, if_false, hB]
    rfl
  · simp [weightedSum, Color.mul, Color.madd, Color.black, h0]

/-- Weight zero for the second material, likewise. -/
theorem C59_skip_second (tex : Tex ℝ) (matA matB : Mat ℝ) (col ca : Color ℝ) (ctx ctx₁ : Ctx ℝ S)
    (ht : tex h.loc = .ok col) (h1 : col.R = 1)
    (hA : matA.shade rng s lf r h ctx = .ok (ca, ctx₁)) :
    ∃ out, (Mat.blendMap tex matA matB).shade rng s lf r h ctx = .ok (out, ctx₁) ∧
      ∀ cb, out = weightedSum col.R ca (1 - col.R) cb := by
  have e1 : (col.R >. lit 0) = true := by simp [h1]
  have e2 : (lit 1 - col.R >. lit 0) = false := by simp [h1]
  refine ⟨(ca.mul col.R).madd (lit 1 - col.R) Color.black, ?_, fun cb => ?_⟩
  · simp only [Mat.shade, ht, ok_bind, whenPos, e1, e2, if_true, Bool.false_eq_true, if_false, hA]
    rfl
  · simp [weightedSum, Color.mul, Color.madd, Color.black, h1]

/-- A two-sided material shows its front exactly when the ray goes along with the normal, and its back
otherwise. -/
theorem C59_two_sided (front back : Mat ℝ) (ctx : Ctx ℝ S) :
    (0 < r.dir.dot h.normal →
      (Mat.twoSided front back).shade rng s lf r h ctx = front.shade rng s lf r h ctx) ∧
    (r.dir.dot h.normal ≤ 0 →
      (Mat.twoSided front back).shade rng s lf r h ctx = back.shade rng s lf r h ctx) := by
  constructor
  · intro hd
    have e : (r.dir.dot h.normal >. lit 0) = true := by simp [hd]
    simp only [Mat.shade, e, if_true]
  · intro hd
    have e : (r.dir.dot h.normal >. lit 0) = false := by simp [hd]
    simp only [Mat.shade, e, Bool.false_eq_true, if_false]

/-! ## Non-vacuity -/

/-- Two flat materials, half red and half blue. -/
example (ctx : Ctx ℝ S) :
    (Mat.blend (1 / 2) (.flat (⟨1, 0, 0⟩ : Color ℝ).tex) (1 / 2) (.flat (⟨0, 0, 1⟩ : Color ℝ).tex)).shade
      rng s lf r h ctx = .ok (⟨1 / 2, 0, 1 / 2⟩, ctx) := by
  rw [C59_blend rng s lf r h (1 / 2) (1 / 2) _ _ ⟨1, 0, 0⟩ ⟨0, 0, 1⟩ ctx ctx ctx
    (by simp only [Mat.shade, Color.tex, ok_bind]; rfl) (by simp only [Mat.shade, Color.tex, ok_bind]; rfl)]
  norm_num [weightedSum]

/-! ## Violation: keys outside [0,1] -/

/-- With key 2 the weights are 2 and −1, but the material of negative weight is left out. -/
theorem C59_violated_weight (ctx : Ctx ℝ S) :
    ∃ (tex : Tex ℝ) (matA matB : Mat ℝ) (key : Color ℝ) (ca cb out : Color ℝ),
      tex h.loc = .ok key ∧ matA.shade rng s lf r h ctx = .ok (ca, ctx) ∧
      matB.shade rng s lf r h ctx = .ok (cb, ctx) ∧
      (Mat.blendMap tex matA matB).shade rng s lf r h ctx = .ok (out, ctx) ∧
      out ≠ weightedSum key.R ca (1 - key.R) cb := by
  refine ⟨(⟨2, 2, 2⟩ : Color ℝ).tex, .flat (⟨1, 1, 1⟩ : Color ℝ).tex, .flat (⟨1, 1, 1⟩ : Color ℝ).tex,
    ⟨2, 2, 2⟩, ⟨1, 1, 1⟩, ⟨1, 1, 1⟩, ⟨2, 2, 2⟩, rfl, ?_, ?_, ?_, ?_⟩
  · simp only [Mat.shade, Color.tex, ok_bind]; rfl
  · simp only [Mat.shade, Color.tex, ok_bind]; rfl
  · simp only [Mat.shade, Color.tex, ok_bind, whenPos]
    norm_num [ok_bind, Color.mul, Color.madd, Color.black, pure_ok]
  · norm_num [weightedSum]

end BR
