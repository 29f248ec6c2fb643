import Verif.Model.Scene
import Verif.Spec.Optics
import Verif.Lemmas.Geom
import Verif.Lemmas.GoM

/-!
C44: the reflected direction has the length of the incoming one, makes the same angle with the normal
on the other side, and reflecting twice gives back the incoming direction.
-/

namespace BR

/-- Reflection in a unit normal is the mirror image. -/
theorem C44_mirror (v n : Vec ℝ) (hn : n.len2 = 1) : IsMirror v n (reflect v n) := by
  have h : n.x * n.x + n.y * n.y + n.z * n.z = 1 := hn
  have hd : (reflect v n).dot n = -v.dot n := by
    simp only [reflect, geo, lit_real]; push_cast
    linear_combination (-2) * (v.x * n.x + v.y * n.y + v.z * n.z) * h
  refine ⟨hd, ?_⟩
  rw [hd]
  simp only [reflect, geo, lit_real]; push_cast
  refine ⟨?_, ?_, ?_⟩ <;> ring

/-- The mirror image is unique. -/
theorem C44_unique (v n w : Vec ℝ) (hw : IsMirror v n w) : w = reflect v n := by
  obtain ⟨h1, h2⟩ := hw
  rw [h1] at h2
  simp only [reflect, geo, lit_real] at h2 ⊢; push_cast
  obtain ⟨a, b, c⟩ := h2
  refine ⟨?_, ?_, ?_⟩
  · linear_combination a
  · linear_combination b
  · linear_combination c

/-- The length is kept. -/
theorem C44_length (v n : Vec ℝ) (hn : n.len2 = 1) : (reflect v n).len = v.len := by
  have h : n.x * n.x + n.y * n.y + n.z * n.z = 1 := hn
  unfold Vec.len
  congr 1
  simp only [reflect, geo, lit_real]; push_cast
  linear_combination 4 * (v.x * n.x + v.y * n.y + v.z * n.z) ^ 2 * h

/-- Reflecting twice gives back the direction. -/
theorem C44_twice (v n : Vec ℝ) (hn : n.len2 = 1) : reflect (reflect v n) n = v := by
  have h : n.x * n.x + n.y * n.y + n.z * n.z = 1 := hn
  simp only [reflect, geo, lit_real]; push_cast
  refine ⟨?_, ?_, ?_⟩
  · linear_combination 4 * (v.x * n.x + v.y * n.y + v.z * n.z) * n.x * h
  · linear_combination 4 * (v.x * n.x + v.y * n.y + v.z * n.z) * n.y * h
  · linear_combination 4 * (v.x * n.x + v.y * n.y + v.z * n.z) * n.z * h

/-- It does not matter which way the normal points. -/
theorem C44_two_sided (v n : Vec ℝ) : reflect v (n.mul (-1)) = reflect v n := by
  simp only [reflect, geo, lit_real]; push_cast
  refine ⟨?_, ?_, ?_⟩ <;> ring

/-- A reflective surface shows the light field along the mirror image of the ray's direction, as seen
from the hit point (moved back by `tiny` along the ray), times its colour. -/
theorem C44_reflective {S : Type} (rng : Rng ℝ S) (s : Scene ℝ) (lf : LF ℝ S) (c : Color ℝ) (r : Ray ℝ)
    (h : HitCoords ℝ) (hn : h.normal.len2 = 1) (ctx ctx' : Ctx ℝ S) (col : Color ℝ)
    (he : (Mat.reflective c).shade rng s lf r h ctx = .ok (col, ctx')) :
    ∃ w seen ctx₁ ctx₂, IsMirror r.dir h.normal w ∧
      lf .direct ⟨r.at (h.t - 1 / (1204 * 1024)), w⟩ ctx₁ = .ok (seen, ctx₂) ∧
      col = ⟨seen.R * c.R, seen.G * c.G, seen.B * c.B⟩ := by
  simp only [Mat.shade, withRay] at he
  obtain ⟨⟨c1, k1⟩, e1, e2⟩ := bind_eq_ok.1 he
  obtain ⟨⟨c2, k2⟩, e3, e4⟩ := bind_eq_ok.1 e1
  have h4 := Prod.mk.inj (Except.ok.inj e4)
  have h2 := Prod.mk.inj (Except.ok.inj e2)
  refine ⟨_, c2, ctx.takeRay.2, k2, C44_mirror r.dir h.normal hn, ?_, ?_⟩
  · have : (tiny : ℝ) = 1 / (1204 * 1024) := by simp only [tiny, lit_real]; norm_num
    rw [← this]; exact e3
  · rw [← h2.1, ← h4.1]; rfl

/-- A ray falling at 45° on a horizontal mirror. -/
example : (⟨0, 1, 0⟩ : Vec ℝ).len2 = 1 ∧ reflect (⟨1, -1, 0⟩ : Vec ℝ) ⟨0, 1, 0⟩ = ⟨1, 1, 0⟩ := by
  constructor
  · norm_num [Vec.len2]
  · simp only [reflect, geo, lit_real]; norm_num

end BR
