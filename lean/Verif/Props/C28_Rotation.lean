import Verif.Props.C27_Affine
import Verif.Lemmas.Rotation

/-!
# C28 Rotations are rigid (exact arithmetic)
-/

namespace BR

/-- The rotation matrix is Rodrigues' rotation about the normalised axis. -/
theorem C28_rodrigues (axis : Vec ℝ) (θ : ℝ) (v : Vec ℝ) :
    (Affine.rotationMatrix axis θ).mulVec v = rodrigues axis.normalized θ v := by
  simp only [Affine.rotationMatrix, goSin_real, goCos_real, rodrigues, geo, lit_real]
  push_cast
  refine ⟨?_, ?_, ?_⟩ <;> ring

/-- Rotations preserve scalar products, hence lengths and angles. -/
theorem C28_dot (o axis : Vec ℝ) (h : axis ≠ Vec.zero) (θ : ℝ) (v w : Vec ℝ) :
    ((Affine.rotate o axis θ).dir v).dot ((Affine.rotate o axis θ).dir w) = v.dot w := by
  obtain ⟨_, _, _, hu⟩ := Vec.normalized_spec h
  have : ∀ v, (Affine.rotate o axis θ).dir v = rodrigues axis.normalized θ v := by
    intro v
    rw [← C28_rodrigues]
    simp only [Affine.rotate, Affine.withOrigin, Affine.composeLR, List.foldl, C27_before_dir]
    simp only [geo, lit_real]; push_cast; refine ⟨?_, ?_, ?_⟩ <;> ring
  rw [this, this, rodrigues_dot _ hu]

/-- Rotating about `o` turns displacements from `o` by Rodrigues' formula: `o` is fixed and the
rotation is the same at every distance. -/
theorem C28_point (o axis : Vec ℝ) (θ : ℝ) (p : Vec ℝ) :
    (Affine.rotate o axis θ).point p = (rodrigues axis.normalized θ (p.sub o)).add o := by
  rw [Affine.rotate, C27_withOrigin, Affine.point, C28_rodrigues]
  simp only [geo, lit_real]; push_cast; refine ⟨?_, ?_, ?_⟩ <;> ring

/-- Rotations preserve orientation: the determinant is 1. -/
theorem C28_det (axis : Vec ℝ) (h : axis ≠ Vec.zero) (θ : ℝ) :
    (Affine.rotationMatrix axis θ).det = 1 := by
  obtain ⟨_, _, _, hu⟩ := Vec.normalized_spec h
  have hcs := Real.sin_sq_add_cos_sq θ
  simp only [Affine.rotationMatrix, goSin_real, goCos_real, geo, lit_real] at *
  push_cast
  generalize Real.sin θ = s at *
  generalize Real.cos θ = c at *
  generalize axis.normalized = u at *
  have hs : s ^ 2 = 1 - c ^ 2 := by linarith
  have hz : u.z ^ 2 = 1 - u.x ^ 2 - u.y ^ 2 := by linarith
  have hz4 : u.z ^ 4 = (1 - u.x ^ 2 - u.y ^ 2) ^ 2 := by rw [← hz]; ring
  ring_nf
  simp only [hs, hz, hz4]
  ring

/-- The axis is fixed. -/
theorem C28_axis (axis : Vec ℝ) (h : axis ≠ Vec.zero) (θ : ℝ) :
    (Affine.rotationMatrix axis θ).mulVec axis = axis := by
  obtain ⟨k, hk, hm, hu⟩ := Vec.normalized_spec h
  rw [C28_rodrigues, hm]
  rw [hm] at hu
  simp only [rodrigues, geo] at *
  generalize Real.sin θ = s at *
  generalize Real.cos θ = c at *
  refine ⟨?_, ?_, ?_⟩
  · linear_combination (1 - c) * axis.x * hu
  · linear_combination (1 - c) * axis.y * hu
  · linear_combination (1 - c) * axis.z * hu

/-- Rotations about one axis add their angles. -/
theorem C28_add (axis : Vec ℝ) (h : axis ≠ Vec.zero) (a b : ℝ) (v : Vec ℝ) :
    (Affine.rotationMatrix axis a).mulVec ((Affine.rotationMatrix axis b).mulVec v)
      = (Affine.rotationMatrix axis (a + b)).mulVec v := by
  obtain ⟨_, _, _, hu⟩ := Vec.normalized_spec h
  rw [C28_rodrigues, C28_rodrigues, C28_rodrigues]
  simp only [rodrigues, geo, Real.cos_add, Real.sin_add] at *
  generalize Real.sin a = s at *
  generalize Real.cos a = c at *
  generalize Real.sin b = t at *
  generalize Real.cos b = d at *
  generalize axis.normalized = u at *
  refine ⟨?_, ?_, ?_⟩
  · linear_combination
      ((1 - c) * (1 - d) * u.x * (u.x * v.x + u.y * v.y + u.z * v.z) - s * t * v.x) * hu
  · linear_combination
      ((1 - c) * (1 - d) * u.y * (u.x * v.x + u.y * v.y + u.z * v.z) - s * t * v.y) * hu
  · linear_combination
      ((1 - c) * (1 - d) * u.z * (u.x * v.x + u.y * v.y + u.z * v.z) - s * t * v.z) * hu

/-- `YawPitchRoll` rolls first, then pitches, then yaws. -/
theorem C28_yawPitchRoll (y p r : ℝ) (q : Vec ℝ) :
    (Affine.yawPitchRoll y p r).point q
      = (Affine.yaw y).point ((Affine.pitch p).point ((Affine.roll r).point q)) := by
  simp only [Affine.yawPitchRoll, C27_after_point]

/-- Documented headings: north is `-z`, west is `-x`, the zenith is `+y`. A yaw of a quarter turn
looks west, of minus a quarter turn east; a pitch of a quarter turn looks at the zenith. -/
theorem C28_headings :
    (Affine.yaw (Real.pi / 2)).dir ⟨0, 0, -1⟩ = ⟨-1, 0, 0⟩ ∧
    (Affine.yaw (-(Real.pi / 2))).dir ⟨0, 0, -1⟩ = ⟨1, 0, 0⟩ ∧
    (Affine.pitch (Real.pi / 2)).dir ⟨0, 0, -1⟩ = ⟨0, 1, 0⟩ := by
  have hd : ∀ axis θ v, (Affine.rotate Vec.zero axis θ).dir v = rodrigues axis.normalized θ v := by
    intro axis θ v
    rw [← C28_rodrigues]
    simp only [Affine.rotate, Affine.withOrigin, Affine.composeLR, List.foldl, C27_before_dir]
    simp only [geo, lit_real]; push_cast; refine ⟨?_, ?_, ?_⟩ <;> ring
  refine ⟨?_, ?_, ?_⟩ <;>
  · simp only [Affine.yaw, Affine.pitch, hd, normalized_axes]
    simp [rodrigues, geo]

/-- Non-vacuity: an oblique axis. -/
example : (⟨1, 2, 2⟩ : Vec ℝ) ≠ Vec.zero := by simp [geo]

end BR
