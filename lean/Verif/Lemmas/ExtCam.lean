import Verif.Spec.Picture
import Verif.Props.C31_Placement
import Verif.Props.C47_Cameras
import Verif.Lemmas.ExtNormals
import Verif.Model.Sampler

/-! Cameras and pixel coordinates in extended numbers. -/

namespace BR

set_option linter.unusedSectionVars false

variable {S : Type}

theorem Ext.Is.of_eq {a : Ext} {x y : ℝ} (h : a.Is x) (e : x = y) : a.Is y := e ▸ h

theorem Vec.Is.of_eq {a : Vec Ext} {x y : Vec ℝ} (h : a.Is x) (e : x = y) : a.Is y := e ▸ h

theorem ofInt_is (n : Int) : (ofInt n : Ext).Is n := ⟨_, rfl⟩

/-- `IndexToCam` in extended numbers, for the centre of a pixel. -/
theorem indexToCam_is {w h : Nat} {i j : Nat} (hi : i < w) (hj : j < h) :
    ∃ u v : Ext, indexToCam (w : Int) (h : Int) (ofInt i : Ext) (ofInt j) = .ok (u, v) ∧
      u.Is ((i + 1 / 2) / w) ∧ v.Is (1 / 2 + (h / 2 - (j + 1 / 2)) / w) := by
  have hw : (0 : ℝ) < w := by exact_mod_cast lt_of_le_of_lt (Nat.zero_le _) hi
  have hh : (0 : ℝ) < h := by exact_mod_cast lt_of_le_of_lt (Nat.zero_le _) hj
  have hi' : (i : ℝ) + 1 ≤ w := by exact_mod_cast hi
  have hj' : (j : ℝ) + 1 ≤ h := by exact_mod_cast hj
  have hi0 : (0 : ℝ) ≤ i := Nat.cast_nonneg _
  have hj0 : (0 : ℝ) ≤ j := Nat.cast_nonneg _
  have W := ofInt_is (w : Int)
  have H := ofInt_is (h : Int)
  have X := ofInt_is (i : Int)
  have Y := ofInt_is (j : Int)
  have half := Ext.Is.lit (1 / 2)
  have mhalf := Ext.Is.lit (-1 / 2)
  unfold indexToCam
  dsimp only
  rw [X.lt mhalf, Y.lt mhalf, (W.sub half).lt X, (H.sub half).lt Y]
  rw [if_neg]
  · refine ⟨_, _, rfl, ?_, ?_⟩
    · have hne : (((w : Int) : ℝ) - ((1 / 2 : ℚ) : ℝ)) - ((-1 / 2 : ℚ) : ℝ) ≠ 0 := by push_cast; linarith
      have := (Ext.Is.lit 0).add ((((Ext.Is.lit 1).sub (Ext.Is.lit 0)).mul (X.sub mhalf)).div ((W.sub half).sub mhalf) hne)
      refine Ext.Is.of_eq this ?_
      push_cast
      have : (w : ℝ) - 1 / 2 - (-1) / 2 = w := by ring
      rw [this]
      field_simp
      ring
    · have hne : (((h : Int) : ℝ) - ((1 / 2 : ℚ) : ℝ)) - ((-1 / 2 : ℚ) : ℝ) ≠ 0 := by push_cast; linarith
      have hwn : ((w : Int) : ℝ) ≠ 0 := by push_cast; exact hw.ne'
      have top := half.add (half.mul (H.div W hwn))
      have bot := half.sub (half.mul (H.div W hwn))
      have := top.add (((bot.sub top).mul (Y.sub mhalf)).div ((H.sub half).sub mhalf) hne)
      refine Ext.Is.of_eq this ?_
      push_cast
      have : (h : ℝ) - 1 / 2 - (-1) / 2 = h := by ring
      rw [this]
      field_simp
      ring
  · simp only [Bool.or_eq_true, decide_eq_true_eq, not_or, not_lt]
    push_cast
    refine ⟨⟨⟨?_, ?_⟩, ?_⟩, ?_⟩ <;> linarith

theorem ypr_is {y p r : Ext} {Y P R : ℝ} (hy : y.Is Y) (hp : p.Is P) (hr : r.Is R) :
    (Affine.yawPitchRoll y p r).Is (Affine.yawPitchRoll Y P R) := by
  have z : (Vec.zero : Vec Ext).Is Vec.zero := ⟨Ext.Is.lit 0, Ext.Is.lit 0, Ext.Is.lit 0⟩
  have rot : ∀ {axis : Vec Ext} {A : Vec ℝ}, axis.Is A → A ≠ Vec.zero → ∀ {a : Ext} {x : ℝ}, a.Is x →
      (Affine.rotate Vec.zero axis a).Is (Affine.rotate Vec.zero A x) := fun ha hA _ _ hx =>
    Affine.Is.withOrigin ⟨rotation_is ha hA hx, z⟩ z
  have ex : (Vec.ex : Vec Ext).Is Vec.ex := ⟨Ext.Is.lit 1, Ext.Is.lit 0, Ext.Is.lit 0⟩
  have ey : (Vec.ey : Vec Ext).Is Vec.ey := ⟨Ext.Is.lit 0, Ext.Is.lit 1, Ext.Is.lit 0⟩
  have ez : (Vec.ez : Vec Ext).Is Vec.ez := ⟨Ext.Is.lit 0, Ext.Is.lit 0, Ext.Is.lit 1⟩
  have a1 := rot ey (by simp [geo]) hy
  have a2 := rot ex (by simp [geo]) hp
  have a3 := rot ez (by simp [geo]) hr
  exact a3.before (a2.before a1)

theorem turned_ypr (Y P R : ℝ) (v : Vec ℝ) : (Affine.yawPitchRoll Y P R).A.mulVec v = turned Y P R v := by
  have key : ∀ (axis : Vec ℝ) (θ : ℝ) (w : Vec ℝ), (Affine.rotate Vec.zero axis θ).A.mulVec w =
      rodrigues axis.normalized θ w := by
    intro axis θ w
    rw [← C28_rodrigues]
    simp only [Affine.rotate, Affine.withOrigin, Affine.composeLR, List.foldl, Affine.before, Matrix.mul_mulVec]
    simp only [geo, lit_real]; push_cast; refine ⟨?_, ?_, ?_⟩ <;> ring
  obtain ⟨nx, ny, nz⟩ := normalized_axes
  simp only [Affine.yawPitchRoll, Affine.after, Affine.before, Affine.yaw, Affine.pitch, Affine.roll, Matrix.mul_mulVec,
    key, nx, ny, nz, turned]
  simp [Vec.ex, Vec.ey, Vec.ez]

theorem unitVec_scale {v : Vec ℝ} {k : ℝ} (hk : 0 < k) : unitVec (v.mul k) = unitVec v := by
  have e : (v.mul k).dot (v.mul k) = k ^ 2 * v.dot v := by simp only [geo]; ring
  simp only [unitVec, e, Real.sqrt_mul (sq_nonneg k), Real.sqrt_sq hk.le]
  generalize Real.sqrt (v.dot v) = s
  rcases eq_or_ne s 0 with rfl | h
  · simp [geo]
  · simp only [geo]
    refine ⟨?_, ?_, ?_⟩ <;> field_simp

/-- The line of sight for image coordinates. -/
theorem projective_sees {fov y p r : Ext} {eye : Vec Ext} {V : View} (hf : fov.Is V.fov) (hy : y.Is V.yaw)
    (hp : p.Is V.pitch) (hr : r.Is V.roll) (he : eye.Is V.eye) (h0 : 0 < V.fov) (h1 : V.fov < Real.pi) :
    ∃ c, Cam.projective fov = .ok c ∧ ∀ (u v : Ext) (a b : ℝ), u.Is a → v.Is b →
      ∃ q : Ray Ext, (∀ (rng : Rng Ext S) (ctx : Ctx Ext S),
          ((c.yawPitchRoll y p r).translate eye).rayFrom rng ctx u v = (q, ctx)) ∧
        q.Is ⟨V.eye, turned V.yaw V.pitch V.roll (unitVec ⟨2 * Real.tan (V.fov / 2) * (a - 1 / 2),
          2 * Real.tan (V.fov / 2) * (b - 1 / 2), -1⟩)⟩ := by
  have hpi : (GoFloat.pi : Ext).Is Real.pi := ⟨_, rfl⟩
  have ht : 0 < Real.tan (V.fov / 2) := Real.tan_pos_of_pos_of_lt_pi_div_two (by linarith) (by linarith)
  have htan : (GoFloat.tan (fov / lit 2)).Is (Real.tan (V.fov / 2)) := by
    have h2 : (lit 2 : Ext).Is 2 := by simpa using Ext.Is.lit 2
    obtain ⟨s, e⟩ := hf.div h2 two_ne_zero
    rw [e]; exact ⟨_, rfl⟩
  have hfl : (lit (1 / 2) / GoFloat.tan (fov / lit 2)).Is (((1 / 2 : ℚ) : ℝ) / Real.tan (V.fov / 2)) :=
    (Ext.Is.lit _).div htan ht.ne'
  have ef : Cam.fovToFocalLen fov = .ok (lit (1 / 2) / GoFloat.tan (fov / lit 2)) := by
    unfold Cam.fovToFocalLen
    rw [hf.le (Ext.Is.lit 0), hpi.le hf]
    simp only [Rat.cast_zero, not_le.2 h0, not_le.2 h1, decide_false, Bool.or_self, Bool.false_eq_true, if_false]
  have z : (lit 0 : Ext).Is 0 := by simpa using Ext.Is.lit 0
  have one : (lit 1 : Ext).Is 1 := by simpa using Ext.Is.lit 1
  have hm : (Affine.yawPitchRoll (lit 180 * Cam.deg : Ext) (lit 0) (lit 0)).A.Is (Affine.yawPitchRoll Real.pi 0 0).A := by
    have h180 : (lit 180 : Ext).Is 180 := by simpa using Ext.Is.lit 180
    have e : (lit 180 * Cam.deg : Ext).Is Real.pi := by
      have := h180.mul (hpi.div h180 (by norm_num))
      exact Ext.Is.of_eq this (by ring)
    exact (ypr_is e z z).1
  refine ⟨_, by unfold Cam.projective Cam.projectiveAperture; rw [ef]; rfl, ?_⟩
  intro u v a b hu hv
  have hz : ((lit 0 : Ext) <. lit 0) = false := by rw [z.lt z]; simp
  have hz1 : ((lit 1 : Ext) ==. lit 0) = false := by rw [one.eq z]; simp
  have hz2 : ((lit 0 : Ext) ==. lit 0) = true := by rw [z.eq z]; simp
  simp only [Cam.translate, Cam.yawPitchRoll, Cam.transform, BaseCam.transform, Cam.rayFrom, BaseCam.rayFrom, hz, hz1,
    Bool.and_false, Bool.false_eq_true, if_false, BaseCam.projectiveRay]
  refine ⟨_, fun _ _ => rfl, ?_, ?_⟩
  · -- the start
    have zero : (⟨lit 0, lit 0, lit 0⟩ : Vec Ext).Is ⟨0, 0, 0⟩ := ⟨z, z, z⟩
    have M := Affine.Is.unit.1.mul ((ypr_is hy hp hr).1.mul hm)
    have := (M.mulVec zero).add (he.add (zero.add zero))
    exact Vec.Is.of_eq this (by simp [geo])
  · have half : (lit (1 / 2) : Ext).Is (1 / 2) := by simpa using Ext.Is.lit (1 / 2)
    have zero : (⟨lit 0, lit 0, lit 0⟩ : Vec Ext).Is ⟨0, 0, 0⟩ := ⟨z, z, z⟩
    have st : (((⟨-(u - lit (1 / 2)), v - lit (1 / 2), lit (1 / 2) / GoFloat.tan (fov / lit 2)⟩ : Vec Ext).mul
        (lit 1)).sub ⟨lit 0, lit 0, lit 0⟩).Is
        (((⟨-(a - 1 / 2), b - 1 / 2, ((1 / 2 : ℚ) : ℝ) / Real.tan (V.fov / 2)⟩ : Vec ℝ).mul 1).sub ⟨0, 0, 0⟩) :=
      (Vec.Is.mul ⟨(hu.sub half).neg, hv.sub half, hfl⟩ one).sub zero
    have hne : ((⟨-(a - 1 / 2), b - 1 / 2, ((1 / 2 : ℚ) : ℝ) / Real.tan (V.fov / 2)⟩ : Vec ℝ).mul 1).sub ⟨0, 0, 0⟩ ≠
        ⟨0, 0, 0⟩ := by
      intro h
      have := congrArg Vec.z h
      simp only [geo] at this
      have h2 : 0 < ((1 / 2 : ℚ) : ℝ) / Real.tan (V.fov / 2) := by push_cast; positivity
      linarith
    have M := Affine.Is.unit.1.mul ((ypr_is hy hp hr).1.mul hm)
    have := M.mulVec (st.normalized hne)
    refine Vec.Is.of_eq this ?_
    symm
    rw [Matrix.mul_mulVec, Matrix.mul_mulVec, half_turn, turned_ypr]
    have eu : ∀ x : Vec ℝ, (Affine.unit : Affine ℝ).A.mulVec x = x := by
      intro x; simp [Affine.unit, geo]
    rw [eu]
    refine congrArg (turned V.yaw V.pitch V.roll) ?_
    have e : (⟨2 * Real.tan (V.fov / 2) * (a - 1 / 2), 2 * Real.tan (V.fov / 2) * (b - 1 / 2), -1⟩ : Vec ℝ) =
        (⟨a - 1 / 2, b - 1 / 2, -(1 / 2 / Real.tan (V.fov / 2))⟩ : Vec ℝ).mul (2 * Real.tan (V.fov / 2)) := by
      simp only [geo]
      exact ⟨trivial, trivial, by field_simp⟩
    rw [e, unitVec_scale (by positivity)]
    push_cast
    have d : ((((⟨-(a - 1 / 2), b - 1 / 2, 1 / 2 / Real.tan (V.fov / 2)⟩ : Vec ℝ).mul 1).sub ⟨0, 0, 0⟩).dot
        (((⟨-(a - 1 / 2), b - 1 / 2, 1 / 2 / Real.tan (V.fov / 2)⟩ : Vec ℝ).mul 1).sub ⟨0, 0, 0⟩)) =
        (⟨a - 1 / 2, b - 1 / 2, -(1 / 2 / Real.tan (V.fov / 2))⟩ : Vec ℝ).dot
          ⟨a - 1 / 2, b - 1 / 2, -(1 / 2 / Real.tan (V.fov / 2))⟩ := by simp only [geo]; ring
    simp only [unitVec, d]
    generalize 1 / Real.sqrt _ = k
    simp only [geo]
    refine ⟨?_, ?_, ?_⟩ <;> ring

end BR
