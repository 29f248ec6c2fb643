import Verif.Model.Camera
import Verif.Props.C28_Rotation
import Verif.Lemmas.GoM
import Mathlib.Analysis.SpecialFunctions.Complex.Arg
import Mathlib.Analysis.SpecialFunctions.Trigonometric.Inverse

/-! C47: cameras, in exact arithmetic. -/

namespace BR

variable {S : Type}

/-- The cameras that users can make: the four constructors followed by any moves and turns. -/
inductive Cam.Made : Cam ℝ → Prop
  | projective (fov aperture focusDist : ℝ) (c : Cam ℝ) (h : Cam.projectiveAperture fov aperture focusDist = .ok c) :
      Cam.Made c
  | isometric (dir : Int) (size : ℝ) (c : Cam ℝ) (h : Cam.isometric dir size = .ok c) : Cam.Made c
  | environmentMap : Cam.Made Cam.environmentMap
  | translate (c : Cam ℝ) (delta : Vec ℝ) (h : Cam.Made c) : Cam.Made (c.translate delta)
  | yawPitchRoll (c : Cam ℝ) (yaw pitch roll : ℝ) (h : Cam.Made c) : Cam.Made (c.yawPitchRoll yaw pitch roll)

/-- The matrix keeps scalar products. -/
def Orth (m : Matrix ℝ) : Prop := ∀ v w, (m.mulVec v).dot (m.mulVec w) = v.dot w

private theorem orth_unit : Orth .unit := by
  intro v w; simp only [geo, lit_real]; push_cast; ring

private theorem orth_mul {a b : Matrix ℝ} (ha : Orth a) (hb : Orth b) : Orth (a.mul b) := by
  intro v w; rw [Matrix.mul_mulVec, Matrix.mul_mulVec, ha, hb]

private theorem orth_rotate (o axis : Vec ℝ) (h : axis ≠ Vec.zero) (θ : ℝ) : Orth (Affine.rotate o axis θ).A :=
  fun v w => C28_dot o axis h θ v w

theorem orth_ypr (y p r : ℝ) : Orth (Affine.yawPitchRoll y p r).A := by
  have hx : (Vec.ex : Vec ℝ) ≠ Vec.zero := by simp [geo]
  have hy : (Vec.ey : Vec ℝ) ≠ Vec.zero := by simp [geo]
  have hz : (Vec.ez : Vec ℝ) ≠ Vec.zero := by simp [geo]
  exact orth_mul (orth_mul (orth_rotate _ _ hy _) (orth_rotate _ _ hx _)) (orth_rotate _ _ hz _)

private theorem focalLen_pos {fov f : ℝ} (h : Cam.fovToFocalLen fov = .ok f) :
    0 < fov ∧ fov < Real.pi ∧ 0 < f ∧ f = 1 / 2 / Real.tan (fov / 2) := by
  unfold Cam.fovToFocalLen at h
  simp only [le_real, lit_real, Rat.cast_zero, pi_real, tan_real] at h
  split_ifs at h with hc
  simp only [Bool.or_eq_true, decide_eq_true_eq, not_or, not_le] at hc
  have e := (Except.ok.inj h).symm
  push_cast at e
  refine ⟨hc.1, hc.2, ?_, e⟩
  rw [e]
  have := Real.tan_pos_of_pos_of_lt_pi_div_two (x := fov / 2) (by linarith) (by linarith [hc.2])
  positivity

private theorem projective_ok {fov a d : ℝ} {c : Cam ℝ} (h : Cam.projectiveAperture fov a d = .ok c) :
    ∃ f, Cam.fovToFocalLen fov = .ok f ∧ c = ⟨.projective f (if a = 0 ∧ d = 0 then 1 else d) a, ⟨0, 0, 0⟩,
      (Affine.yawPitchRoll Real.pi 0 0).A⟩ := by
  unfold Cam.projectiveAperture at h
  obtain ⟨f, ef, h⟩ := bind_eq_ok.1 h
  refine ⟨f, ef, ?_⟩
  have := (Except.ok.inj h).symm
  rw [this]
  have e1 : (lit 180 : ℝ) * Cam.deg = Real.pi := by
    unfold Cam.deg; simp only [lit_real, pi_real]; push_cast; ring
  simp only [BaseCam.transform, eq_real, lit_real, Rat.cast_zero, Rat.cast_one, Bool.and_eq_true, decide_eq_true_eq]
  rw [lit_real] at e1
  rw [e1]

private theorem norm_unit {a : Vec ℝ} (h : a.z ≠ 0) : a.normalized.dot a.normalized = 1 := by
  obtain ⟨_, _, _, e⟩ := Vec.normalized_spec (a := a) (fun h0 => h (by rw [h0]; simp [Vec.zero]))
  exact e

private theorem projectiveRay_unit {f d : ℝ} (hf : f ≠ 0) (s : Vec ℝ) (hs : s.z = 0) (u v : ℝ) :
    (BaseCam.projectiveRay f d s u v).dir.dot (BaseCam.projectiveRay f d s u v).dir = 1 := by
  unfold BaseCam.projectiveRay
  dsimp only
  apply norm_unit
  simp only [eq_real, lit_real, Rat.cast_zero, decide_eq_true_eq]
  split_ifs with h <;> simp only [geo, hs, sub_zero]
  · exact hf
  · exact mul_ne_zero h hf

/-- What a made camera consists of. -/
private theorem made_spec {c : Cam ℝ} (h : Cam.Made c) : Orth c.matrix ∧
    ∀ f d a, c.orig = .projective f d a → f ≠ 0 := by
  induction h with
  | projective fov a d c h =>
    obtain ⟨f, ef, rfl⟩ := projective_ok h
    refine ⟨orth_ypr _ _ _, fun f' d' a' e => ?_⟩
    injection e with e1
    rw [← e1]
    exact (focalLen_pos ef).2.2.1.ne'
  | isometric dir size c h =>
    unfold Cam.isometric at h
    dsimp only at h
    split_ifs at h <;> rw [← Except.ok.inj h] <;>
      exact ⟨orth_ypr _ _ _, fun _ _ _ e => by simp [BaseCam.transform] at e⟩
  | environmentMap => exact ⟨orth_unit, fun _ _ _ e => by simp [BaseCam.transform, Cam.environmentMap] at e⟩
  | translate c d h ih => exact ⟨orth_mul orth_unit ih.1, ih.2⟩
  | yawPitchRoll c y p r h ih => exact ⟨orth_mul (orth_ypr _ _ _) ih.1, ih.2⟩

/-- **C47 (unit directions).** Every ray of every camera, however moved and turned, has a direction of length 1, for
all image coordinates and all lens samples. -/
theorem C47_unit (c : Cam ℝ) (h : Cam.Made c) (rng : Rng ℝ S) (ctx : Ctx ℝ S) (u v : ℝ) :
    (c.rayFrom rng ctx u v).1.dir.dot (c.rayFrom rng ctx u v).1.dir = 1 := by
  obtain ⟨ho, hf⟩ := made_spec h
  unfold Cam.rayFrom
  dsimp only
  rw [ho]
  cases e : c.orig with
  | projective f d a =>
    have hf0 := hf f d a e
    unfold BaseCam.rayFrom
    dsimp only
    split_ifs
    · exact projectiveRay_unit hf0 _ (by simp [BaseCam.lensPoint]) _ _
    · exact projectiveRay_unit hf0 _ (by simp) _ _
  | isometric s => simp [BaseCam.rayFrom, geo]
  | envMap =>
    simp only [BaseCam.rayFrom, geo, sin_real, cos_real]
    have h1 := Real.sin_sq_add_cos_sq (-u * lit 2 * GoFloat.pi)
    have h2 := Real.sin_sq_add_cos_sq ((v - lit (1 / 2)) * GoFloat.pi)
    generalize Real.sin (-u * lit 2 * GoFloat.pi) = s at *
    generalize Real.cos (-u * lit 2 * GoFloat.pi) = k at *
    generalize Real.sin ((v - lit (1 / 2)) * GoFloat.pi) = s' at *
    generalize Real.cos ((v - lit (1 / 2)) * GoFloat.pi) = k' at *
    linear_combination k' ^ 2 * h1 + h2

/-- **C47 (moves and turns are independent).** A move and a turn of a camera commute, moves add up, the ray of a moved
camera is the ray moved, and the ray of a turned camera is the ray turned about the position of the camera. -/
theorem C47_independent (c : Cam ℝ) (d e : Vec ℝ) (y p r : ℝ) (rng : Rng ℝ S) (ctx : Ctx ℝ S) (u v : ℝ) :
    (c.translate d).yawPitchRoll y p r = (c.yawPitchRoll y p r).translate d ∧
    (c.translate d).translate e = c.translate (d.add e) ∧
    ((c.translate d).rayFrom rng ctx u v).1 =
      ⟨(c.rayFrom rng ctx u v).1.start.add d, (c.rayFrom rng ctx u v).1.dir⟩ ∧
    ((c.yawPitchRoll y p r).rayFrom rng ctx u v).1 =
      ⟨((Affine.yawPitchRoll y p r).dir ((c.rayFrom rng ctx u v).1.start.sub c.pos)).add c.pos,
        (Affine.yawPitchRoll y p r).dir (c.rayFrom rng ctx u v).1.dir⟩ := by
  refine ⟨?_, ?_, ?_, ?_⟩
  · simp only [Cam.translate, Cam.yawPitchRoll, Cam.transform, Cam.mk.injEq, true_and]
    generalize (Affine.yawPitchRoll y p r).A = m
    constructor
    · simp only [geo, lit_real]; push_cast; refine ⟨?_, ?_, ?_⟩ <;> ring
    · simp only [geo, lit_real]; push_cast; refine ⟨⟨?_, ?_, ?_⟩, ⟨?_, ?_, ?_⟩, ⟨?_, ?_, ?_⟩⟩ <;> ring
  · simp only [Cam.translate, Cam.transform, Cam.mk.injEq, true_and]
    constructor
    · simp only [geo]; refine ⟨?_, ?_, ?_⟩ <;> ring
    · simp only [geo, lit_real]; push_cast; refine ⟨⟨?_, ?_, ?_⟩, ⟨?_, ?_, ?_⟩, ⟨?_, ?_, ?_⟩⟩ <;> ring
  · simp only [Cam.translate, Cam.transform, Cam.rayFrom, Matrix.mul_mulVec, Ray.ext_iff]
    generalize (c.orig.rayFrom rng ctx u v).1 = q
    constructor <;> simp only [geo, lit_real] <;> push_cast <;> refine ⟨?_, ?_, ?_⟩ <;> ring
  · simp only [Cam.yawPitchRoll, Cam.transform, Cam.rayFrom, Matrix.mul_mulVec, Affine.dir, Ray.mk.injEq]
    generalize (c.orig.rayFrom rng ctx u v).1 = q
    generalize (Affine.yawPitchRoll y p r).A = m
    refine ⟨?_, trivial⟩
    simp only [geo, lit_real]; push_cast; refine ⟨?_, ?_, ?_⟩ <;> ring

/-- Half a turn about the vertical axis. -/
theorem half_turn (v : Vec ℝ) : (Affine.yawPitchRoll Real.pi 0 0).A.mulVec v = ⟨-v.x, v.y, -v.z⟩ := by
  have key : ∀ (axis : Vec ℝ) (θ : ℝ) (w : Vec ℝ), (Affine.rotate Vec.zero axis θ).A.mulVec w =
      rodrigues axis.normalized θ w := by
    intro axis θ w
    rw [← C28_rodrigues]
    simp only [Affine.rotate, Affine.withOrigin, Affine.composeLR, List.foldl, Affine.before, Matrix.mul_mulVec]
    simp only [geo, lit_real]; push_cast; refine ⟨?_, ?_, ?_⟩ <;> ring
  obtain ⟨nx, ny, nz⟩ := normalized_axes
  simp only [Affine.yawPitchRoll, Affine.after, Affine.before, Affine.yaw, Affine.pitch, Affine.roll, Matrix.mul_mulVec,
    key, nx, ny, nz]
  simp only [rodrigues, geo, Real.cos_pi, Real.sin_pi, Real.cos_zero, Real.sin_zero, lit_real]
  push_cast
  refine ⟨?_, ?_, ?_⟩ <;> ring

/-- **C47 (field of view and handedness).** The pinhole camera of horizontal field of view `fov` is at the origin; its
centre looks along -Z; the right and left edges of the picture look half a field of view to the right (+X) and to the
left; and every ray goes, from the origin, through the point of the picture plane at distance 1 whose coordinates are
proportional to the image coordinates, with +X to the right and +Y up. -/
theorem C47_projective (fov : ℝ) (h0 : 0 < fov) (h1 : fov < Real.pi) (rng : Rng ℝ S) (ctx : Ctx ℝ S) :
    ∃ c, Cam.projective fov = .ok c ∧
      (c.rayFrom rng ctx (1 / 2) (1 / 2)).1 = ⟨⟨0, 0, 0⟩, ⟨0, 0, -1⟩⟩ ∧
      (c.rayFrom rng ctx 1 (1 / 2)).1 = ⟨⟨0, 0, 0⟩, ⟨Real.sin (fov / 2), 0, -Real.cos (fov / 2)⟩⟩ ∧
      (c.rayFrom rng ctx 0 (1 / 2)).1 = ⟨⟨0, 0, 0⟩, ⟨-Real.sin (fov / 2), 0, -Real.cos (fov / 2)⟩⟩ ∧
      ∀ u v, (c.rayFrom rng ctx u v).1.start = ⟨0, 0, 0⟩ ∧ ∃ k : ℝ, 0 < k ∧
        (c.rayFrom rng ctx u v).1.dir.mul k =
          ⟨2 * Real.tan (fov / 2) * (u - 1 / 2), 2 * Real.tan (fov / 2) * (v - 1 / 2), -1⟩ := by
  have hc : 0 < Real.cos (fov / 2) := Real.cos_pos_of_mem_Ioo ⟨by linarith, by linarith⟩
  have hs : 0 < Real.sin (fov / 2) := Real.sin_pos_of_pos_of_lt_pi (by linarith) (by linarith)
  have ht : 0 < Real.tan (fov / 2) := Real.tan_pos_of_pos_of_lt_pi_div_two (by linarith) (by linarith)
  have htan : Real.tan (fov / 2) = Real.sin (fov / 2) / Real.cos (fov / 2) := Real.tan_eq_sin_div_cos _
  have ef : Cam.fovToFocalLen fov = .ok (1 / 2 / Real.tan (fov / 2)) := by
    unfold Cam.fovToFocalLen
    simp only [le_real, lit_real, Rat.cast_zero, pi_real, tan_real, not_le.2 h0, not_le.2 h1, decide_false, Bool.or_self,
      Bool.false_eq_true, if_false]
    push_cast; rfl
  obtain ⟨c, hcam⟩ : ∃ c, Cam.projective fov = .ok c := by
    unfold Cam.projective Cam.projectiveAperture
    rw [ef]
    exact ⟨_, rfl⟩
  obtain ⟨f, ef', rfl⟩ := projective_ok hcam
  have hfe : f = 1 / 2 / Real.tan (fov / 2) := by rw [ef] at ef'; exact (Except.ok.inj ef').symm
  have hf : 0 < f := by rw [hfe]; positivity
  refine ⟨_, hcam, ?_⟩
  have ray : ∀ u v, ((⟨.projective f (if (lit 0 : ℝ) = 0 ∧ (lit 1 : ℝ) = 0 then 1 else lit 1) (lit 0), ⟨0, 0, 0⟩,
      (Affine.yawPitchRoll Real.pi 0 0).A⟩ : Cam ℝ).rayFrom rng ctx u v).1 =
      ⟨⟨0, 0, 0⟩, (⟨u - 1 / 2, v - 1 / 2, -f⟩ : Vec ℝ).normalized⟩ := by
    intro u v
    simp only [Cam.rayFrom, BaseCam.rayFrom, BaseCam.projectiveRay, half_turn, lt_real, lit_real, eq_real, lt_irrefl,
      decide_false, Bool.false_eq_true, if_false, Rat.cast_zero, Rat.cast_one, one_ne_zero, and_false]
    rw [Ray.mk.injEq]
    constructor
    · simp [geo]
    · simp only [Vec.normalized, geo, lit_real, sqrt_real]
      push_cast
      have e : (1 * -(u - 1 / 2) - 0) * (1 * -(u - 1 / 2) - 0) + (1 * (v - 1 / 2) - 0) * (1 * (v - 1 / 2) - 0) +
          (1 * f - 0) * (1 * f - 0) = (u - 1 / 2) * (u - 1 / 2) + (v - 1 / 2) * (v - 1 / 2) + -f * -f := by ring
      rw [e]
      refine ⟨?_, ?_, ?_⟩ <;> ring
  have nrm : ∀ (a d : Vec ℝ) (k : ℝ), 0 < k → a = d.mul k → d.dot d = 1 → a.normalized = d := by
    intro a d k hk e hd
    have e2 : a.x * a.x + a.y * a.y + a.z * a.z = k ^ 2 := by
      rw [e]; simp only [geo] at hd ⊢; linear_combination k ^ 2 * hd
    simp only [Vec.normalized, sqrt_real, e2, Real.sqrt_sq hk.le]
    rw [e]
    simp only [geo, lit_real]
    push_cast
    refine ⟨?_, ?_, ?_⟩ <;> field_simp
  have hcs := Real.sin_sq_add_cos_sq (fov / 2)
  have hfs : f = Real.cos (fov / 2) / (2 * Real.sin (fov / 2)) := by rw [hfe, htan]; field_simp
  refine ⟨?_, ?_, ?_, ?_⟩
  · rw [ray, nrm _ ⟨0, 0, -1⟩ f hf (by simp [geo]) (by simp [geo])]
  · rw [ray, nrm _ ⟨Real.sin (fov / 2), 0, -Real.cos (fov / 2)⟩ (1 / (2 * Real.sin (fov / 2))) (by positivity) ?_ ?_]
    · rw [hfs]; simp only [geo]; refine ⟨?_, ?_, ?_⟩ <;> field_simp <;> norm_num
    · simp only [geo]; linarith
  · rw [ray, nrm _ ⟨-Real.sin (fov / 2), 0, -Real.cos (fov / 2)⟩ (1 / (2 * Real.sin (fov / 2))) (by positivity) ?_ ?_]
    · rw [hfs]; simp only [geo]; refine ⟨?_, ?_, ?_⟩ <;> field_simp <;> norm_num
    · simp only [geo]; linarith
  · intro u v
    rw [ray]
    refine ⟨rfl, ?_⟩
    obtain ⟨s, hs0, es, -⟩ := Vec.normalized_spec (a := (⟨u - 1 / 2, v - 1 / 2, -f⟩ : Vec ℝ))
      (fun h => by have := congrArg Vec.z h; simp [Vec.zero] at this; linarith)
    refine ⟨1 / (s * f), by positivity, ?_⟩
    dsimp only
    rw [es]
    have : 2 * Real.tan (fov / 2) = 1 / f := by rw [hfe]; field_simp
    rw [this]
    simp only [geo]
    refine ⟨?_, ?_, ?_⟩ <;> field_simp

/-- **C47 (invalid fields of view).** Fields of view that are not strictly between 0 and π are refused. -/
theorem C47_invalid (fov a d : ℝ) (h : fov ≤ 0 ∨ Real.pi ≤ fov) :
    Cam.projectiveAperture fov a d = .error (.msg "camera: invalid field-of-view") := by
  have ef : Cam.fovToFocalLen fov = .error (.msg "camera: invalid field-of-view") := by
    unfold Cam.fovToFocalLen
    rw [if_pos]
    rcases h with h | h <;> simp [h]
  unfold Cam.projectiveAperture
  rw [ef]
  rfl

/-- The ray of a camera with a lens: it starts on the lens and passes, at some positive distance, through the point
of the picture plane scaled by the focus distance. -/
private theorem lens_ray {f d : ℝ} (hf : 0 < f) (hd : 0 < d) (s : Vec ℝ) (hs : s.z = 0) (u v : ℝ) :
    ∃ t : ℝ, 0 < t ∧ (BaseCam.projectiveRay f d s u v).at t = ⟨-(u - 1 / 2) * d, (v - 1 / 2) * d, f * d⟩ := by
  unfold BaseCam.projectiveRay
  simp only [eq_real, lit_real, Rat.cast_zero, hd.ne', decide_false, Bool.false_eq_true, if_false]
  push_cast
  set e : Vec ℝ := (⟨-(u - 1 / 2), v - 1 / 2, f⟩ : Vec ℝ).mul d with he
  have hne : e.sub s ≠ Vec.zero := fun h => by
    have h2 := congrArg Vec.z h
    simp only [he, geo, hs, sub_zero, lit_real, Rat.cast_zero] at h2
    exact (mul_pos hd hf).ne' h2
  obtain ⟨k, hk, ek, -⟩ := Vec.normalized_spec hne
  refine ⟨1 / k, by positivity, ?_⟩
  rw [ek]
  simp only [geo]
  refine ⟨?_, ?_, ?_⟩ <;> field_simp <;> simp [he, geo] <;> ring

/-- **C47 (focus, partial).** With a lens of radius `aperture > 0`, all rays for one pixel start within the lens and pass
through one point, whatever the lens sample. The point is at depth `focusDist · focalLen`, where
`focalLen = 1 / (2 tan (fov/2))`. Missing: that this depth is the documented `focusDist`; it is only when
`focalLen = 1` (`C47_violated_focus`). -/
theorem C47_focus_partial (fov a d : ℝ) (ha : 0 < a) (hd : 0 < d) (c : Cam ℝ) (h : Cam.projectiveAperture fov a d = .ok c)
    (u v : ℝ) : ∃ P : Vec ℝ, P.z = -(d * (1 / 2 / Real.tan (fov / 2))) ∧
      ∀ (rng : Rng ℝ S) (ctx : Ctx ℝ S), (rng.next2 ctx.seq3).1.2 ∈ Set.Icc (0 : ℝ) 1 →
        (c.rayFrom rng ctx u v).1.start.z = 0 ∧
        (c.rayFrom rng ctx u v).1.start.x ^ 2 + (c.rayFrom rng ctx u v).1.start.y ^ 2 ≤ a ^ 2 ∧
        ∃ t : ℝ, 0 < t ∧ (c.rayFrom rng ctx u v).1.at t = P := by
  obtain ⟨f, ef, rfl⟩ := projective_ok h
  obtain ⟨-, -, hf, hfe⟩ := focalLen_pos ef
  rw [if_neg (fun h => ha.ne' h.1)]
  refine ⟨⟨(u - 1 / 2) * d, (v - 1 / 2) * d, -(d * f)⟩, by rw [hfe], fun rng ctx hs => ?_⟩
  simp only [Cam.rayFrom, BaseCam.rayFrom, lt_real, lit_real, Rat.cast_zero, ha, decide_true, if_true, half_turn,
    Ctx.generateLens]
  generalize (rng.next2 ctx.seq3).1 = q at *
  obtain ⟨t, ht, et⟩ := lens_ray hf hd (BaseCam.lensPoint a q) (by simp [BaseCam.lensPoint]) u v
  have est : (BaseCam.projectiveRay f d (BaseCam.lensPoint a q) u v).start = BaseCam.lensPoint a q := rfl
  refine ⟨?_, ?_, t, ht, ?_⟩
  · rw [est]; simp [BaseCam.lensPoint, geo]
  · rw [est]
    simp only [BaseCam.lensPoint, uniformDisk, geo, lit_real, Rat.cast_zero, sqrt_real, cos_real, sin_real, zero_add,
      add_zero]
    have h1 := Real.sin_sq_add_cos_sq (((2 : ℚ) : ℝ) * GoFloat.pi * q.1)
    have h2 := Real.sq_sqrt hs.1
    generalize Real.sin (((2 : ℚ) : ℝ) * GoFloat.pi * q.1) = sn at *
    generalize Real.cos (((2 : ℚ) : ℝ) * GoFloat.pi * q.1) = cn at *
    generalize Real.sqrt q.2 = w at *
    have e : (-(w * cn * a)) ^ 2 + (w * sn * a) ^ 2 = w ^ 2 * a ^ 2 := by linear_combination w ^ 2 * a ^ 2 * h1
    rw [e, h2]
    nlinarith [hs.2, sq_nonneg a]
  · generalize BaseCam.projectiveRay f d (BaseCam.lensPoint a q) u v = r at *
    simp only [geo] at et ⊢
    obtain ⟨e1, e2, e3⟩ := et
    refine ⟨?_, ?_, ?_⟩ <;> linarith

/-- **C47 violated (focus distance).** With a field of view of a right angle and focus distance 2, the rays of two lens
samples for the centre of the picture do not meet at distance 2 in front of the camera: they meet at distance 1 and have
separated again. -/
theorem C47_violated_focus : ∃ (c : Cam ℝ) (rng : Rng ℝ Bool) (c1 c2 : Ctx ℝ Bool),
    Cam.projectiveAperture (Real.pi / 2) 1 2 = .ok c ∧
    ∀ t1 t2 : ℝ, ((c.rayFrom rng c1 (1 / 2) (1 / 2)).1.at t1).z = -2 → ((c.rayFrom rng c2 (1 / 2) (1 / 2)).1.at t2).z = -2 →
      (c.rayFrom rng c1 (1 / 2) (1 / 2)).1.at t1 ≠ (c.rayFrom rng c2 (1 / 2) (1 / 2)).1.at t2 := by
  have ef : Cam.fovToFocalLen (Real.pi / 2) = .ok (1 / 2) := by
    have e4 : Real.pi / 2 / 2 = Real.pi / 4 := by ring
    have hp := Real.pi_pos
    have n1 : ¬ Real.pi / 2 ≤ 0 := by linarith
    have n2 : ¬ Real.pi ≤ Real.pi / 2 := by linarith
    unfold Cam.fovToFocalLen
    simp only [le_real, lit_real, Rat.cast_zero, pi_real, tan_real, n1, n2, decide_false, Bool.or_self,
      Bool.false_eq_true, if_false]
    push_cast
    rw [e4, Real.tan_pi_div_four, div_one]
  obtain ⟨c, hcam⟩ : ∃ c, Cam.projectiveAperture (Real.pi / 2) 1 2 = .ok c := by
    unfold Cam.projectiveAperture
    rw [ef]
    exact ⟨_, rfl⟩
  -- the sample is the centre of the lens or a point on its edge
  refine ⟨c, ⟨fun b => ((0, if b then 1 else 0), b)⟩, Ctx.new [] true, Ctx.new [] false, hcam, ?_⟩
  obtain ⟨f, ef', rfl⟩ := projective_ok hcam
  have hf : f = 1 / 2 := by rw [ef] at ef'; exact (Except.ok.inj ef').symm
  subst hf
  have l1 : BaseCam.lensPoint (1 : ℝ) (0, 1) = ⟨1, 0, 0⟩ := by
    simp [BaseCam.lensPoint, uniformDisk]
  have l0 : BaseCam.lensPoint (1 : ℝ) (0, 0) = ⟨0, 0, 0⟩ := by
    simp [BaseCam.lensPoint, uniformDisk]
  intro t1 t2 h1 h2 h
  simp only [Cam.rayFrom, BaseCam.rayFrom, lt_real, lit_real, Rat.cast_zero, zero_lt_one, decide_true, if_true, half_turn,
    Ctx.generateLens, Ctx.new, one_ne_zero, false_and, if_false, Bool.false_eq_true, l1, l0] at h1 h2 h
  simp only [BaseCam.projectiveRay, eq_real, lit_real, Rat.cast_zero, OfNat.ofNat_ne_zero, decide_false,
    Bool.false_eq_true, if_false] at h1 h2 h
  push_cast at h1 h2 h
  have hx := congrArg Vec.x h
  set e1 : Vec ℝ := ((⟨-(1 / 2 - 1 / 2), 1 / 2 - 1 / 2, 1 / 2⟩ : Vec ℝ).mul 2).sub ⟨1, 0, 0⟩ with he1
  set e0 : Vec ℝ := ((⟨-(1 / 2 - 1 / 2), 1 / 2 - 1 / 2, 1 / 2⟩ : Vec ℝ).mul 2).sub ⟨0, 0, 0⟩ with he0
  have ee1 : e1 = ⟨-1, 0, 1⟩ := by rw [he1]; simp [geo]
  have ee0 : e0 = ⟨0, 0, 1⟩ := by rw [he0]; simp [geo]
  obtain ⟨k1, hk1, n1, -⟩ := Vec.normalized_spec (a := e1) (by rw [ee1]; simp [geo])
  obtain ⟨k0, hk0, n0, -⟩ := Vec.normalized_spec (a := e0) (by rw [ee0]; simp [geo])
  rw [n1] at h1 hx
  rw [n0] at h2 hx
  rw [ee1] at h1 hx
  rw [ee0] at h2 hx
  simp only [geo] at h1 h2 hx
  linarith

/-- **C47 (environment camera).** The directions of the environment camera: the centre looks along -Z, the elevation
above the horizon is `(v - 1/2)·π`, and every direction is seen by some pixel. -/
theorem C47_environment (rng : Rng ℝ S) (ctx : Ctx ℝ S) :
    ((Cam.environmentMap : Cam ℝ).rayFrom rng ctx (1 / 2) (1 / 2)).1 = ⟨⟨0, 0, 0⟩, ⟨0, 0, -1⟩⟩ ∧
    (∀ u v : ℝ, ((Cam.environmentMap : Cam ℝ).rayFrom rng ctx u v).1.dir.y = Real.sin ((v - 1 / 2) * Real.pi)) ∧
    (∀ v : ℝ, 0 < v → v < 1 → 0 < ((Cam.environmentMap : Cam ℝ).rayFrom rng ctx (3 / 4) v).1.dir.x) ∧
    ∀ d : Vec ℝ, d.dot d = 1 → ∃ u v : ℝ, 0 ≤ u ∧ u ≤ 1 ∧ 0 ≤ v ∧ v ≤ 1 ∧
      ((Cam.environmentMap : Cam ℝ).rayFrom rng ctx u v).1 = ⟨⟨0, 0, 0⟩, d⟩ := by
  have ray : ∀ u v : ℝ, ((Cam.environmentMap : Cam ℝ).rayFrom rng ctx u v).1 = ⟨⟨0, 0, 0⟩,
      ⟨-(Real.sin (u * 2 * Real.pi) * Real.cos ((v - 1 / 2) * Real.pi)), Real.sin ((v - 1 / 2) * Real.pi),
        Real.cos (u * 2 * Real.pi) * Real.cos ((v - 1 / 2) * Real.pi)⟩⟩ := by
    intro u v
    have e : -u * 2 * Real.pi = -(u * 2 * Real.pi) := by ring
    simp only [Cam.rayFrom, Cam.environmentMap, BaseCam.transform, BaseCam.rayFrom, geo, lit_real, sin_real, cos_real,
      pi_real, Ray.ext_iff]
    push_cast
    rw [e, Real.sin_neg, Real.cos_neg]
    refine ⟨⟨?_, ?_, ?_⟩, ?_, ?_, ?_⟩ <;> ring
  have hp := Real.pi_pos
  refine ⟨?_, ?_, ?_, ?_⟩
  · rw [ray]; norm_num
  · intro u v; rw [ray]
  · intro v v0 v1
    rw [ray]
    have e : (3 / 4 : ℝ) * 2 * Real.pi = Real.pi / 2 + Real.pi := by ring
    rw [e, Real.sin_add_pi, Real.sin_pi_div_two]
    have : 0 < Real.cos ((v - 1 / 2) * Real.pi) := Real.cos_pos_of_mem_Ioo ⟨by nlinarith, by nlinarith⟩
    dsimp only
    linarith
  · intro d hd
    simp only [geo] at hd
    -- the azimuth, measured from -z
    set φ := Complex.arg ⟨-d.z, d.x⟩ with hφ
    set ρ := Real.sqrt (1 - d.y ^ 2) with hρ
    have hy1 : d.y ^ 2 ≤ 1 := by nlinarith [mul_self_nonneg d.x, mul_self_nonneg d.z]
    have hyl : -1 ≤ d.y := by nlinarith
    have hyu : d.y ≤ 1 := by nlinarith
    have hn : ‖(⟨-d.z, d.x⟩ : ℂ)‖ = ρ := by
      rw [Complex.norm_def, Complex.normSq_mk, hρ]
      congr 1
      linarith [sq d.y]
    have c1 : ρ * Real.cos φ = -d.z := by
      have := Complex.norm_mul_cos_arg (⟨-d.z, d.x⟩ : ℂ)
      rw [hn] at this
      exact this
    have c2 : ρ * Real.sin φ = d.x := by
      have := Complex.norm_mul_sin_arg (⟨-d.z, d.x⟩ : ℂ)
      rw [hn] at this
      exact this
    have a1 : -Real.pi < φ := Complex.neg_pi_lt_arg _
    have a2 : φ ≤ Real.pi := Complex.arg_le_pi _
    refine ⟨1 / 2 + φ / (2 * Real.pi), 1 / 2 + Real.arcsin d.y / Real.pi, ?_, ?_, ?_, ?_, ?_⟩
    · have : -(1 / 2) ≤ φ / (2 * Real.pi) := by rw [le_div_iff₀ (by positivity)]; linarith
      linarith
    · have : φ / (2 * Real.pi) ≤ 1 / 2 := by rw [div_le_iff₀ (by positivity)]; linarith
      linarith
    · have : -(1 / 2) ≤ Real.arcsin d.y / Real.pi := by
        rw [le_div_iff₀ hp]; linarith [Real.neg_pi_div_two_le_arcsin d.y]
      linarith
    · have : Real.arcsin d.y / Real.pi ≤ 1 / 2 := by
        rw [div_le_iff₀ hp]; linarith [Real.arcsin_le_pi_div_two d.y]
      linarith
    · rw [ray]
      have e1 : (1 / 2 + φ / (2 * Real.pi)) * 2 * Real.pi = φ + Real.pi := by field_simp; ring
      have e2 : (1 / 2 + Real.arcsin d.y / Real.pi - 1 / 2) * Real.pi = Real.arcsin d.y := by field_simp; ring
      rw [e1, e2, Real.sin_add_pi, Real.cos_add_pi, Real.sin_arcsin hyl hyu, Real.cos_arcsin]
      rw [← hρ]
      simp only [Ray.mk.injEq, Vec.ext_iff, true_and]
      constructor <;> nlinarith

/-- **C47 (isometric cameras).** For the view along axis 0, 1 or 2 all rays are parallel, they look along the negative
axis from far out on the positive side, and neighbouring rays are as far apart as the coordinates say: sizes are
conserved. Other axis numbers are refused. -/
theorem C47_isometric (rng : Rng ℝ S) (ctx : Ctx ℝ S) (size : ℝ) (dir : Int) :
    (dir ≠ 0 ∧ dir ≠ 1 ∧ dir ≠ 2 → ∃ e, Cam.isometric dir size = .error e) ∧
    (∀ c : Cam ℝ, Cam.isometric dir size = .ok c → ∃ right up : Vec ℝ,
      right.dot right = 1 ∧ up.dot up = 1 ∧ right.dot up = 0 ∧
      ∀ u v, (c.rayFrom rng ctx u v).1 =
        ⟨((if dir = 0 then Vec.ex else if dir = 1 then Vec.ey else Vec.ez : Vec ℝ).mul 4096).add
          ((right.mul ((u - 1 / 2) * size)).add (up.mul ((v - 1 / 2) * size))),
         (if dir = 0 then Vec.ex else if dir = 1 then Vec.ey else Vec.ez : Vec ℝ).mul (-1)⟩) := by
  have key : ∀ (axis : Vec ℝ) (θ : ℝ) (w : Vec ℝ), (Affine.rotate Vec.zero axis θ).A.mulVec w =
      rodrigues axis.normalized θ w := by
    intro axis θ w
    rw [← C28_rodrigues]
    simp only [Affine.rotate, Affine.withOrigin, Affine.composeLR, List.foldl, Affine.before, Matrix.mul_mulVec]
    simp only [geo, lit_real]; push_cast; refine ⟨?_, ?_, ?_⟩ <;> ring
  obtain ⟨nx, ny, nz⟩ := normalized_axes
  have mv : ∀ (y p r : ℝ) (w : Vec ℝ), (Affine.yawPitchRoll y p r).A.mulVec w =
      rodrigues Vec.ey y (rodrigues Vec.ex p (rodrigues Vec.ez r w)) := by
    intro y p r w
    simp only [Affine.yawPitchRoll, Affine.after, Affine.before, Affine.yaw, Affine.pitch, Affine.roll, Matrix.mul_mulVec,
      key, nx, ny, nz]
  have e90 : (lit 90 : ℝ) * Cam.deg = Real.pi / 2 := by
    unfold Cam.deg; simp only [lit_real, pi_real]; push_cast; ring
  have em90 : (lit (-90) : ℝ) * Cam.deg = -(Real.pi / 2) := by
    unfold Cam.deg; simp only [lit_real, pi_real]; push_cast; ring
  constructor
  · rintro ⟨h0, h1, h2⟩
    exact ⟨_, by unfold Cam.isometric; dsimp only; rw [if_neg h0, if_neg h1, if_neg h2]⟩
  · intro c hc
    unfold Cam.isometric at hc
    rw [e90, em90] at hc
    dsimp only at hc
    split_ifs at hc with h0 h1 h2
    · rw [← Except.ok.inj hc]
      refine ⟨⟨0, 0, -1⟩, ⟨0, 1, 0⟩, by simp [geo], by simp [geo], by simp [geo], fun u v => ?_⟩
      rw [if_pos h0]
      simp only [Cam.rayFrom, BaseCam.transform, BaseCam.rayFrom, mv]
      simp only [rodrigues, geo, lit_real, Ray.ext_iff,
        Rat.cast_zero, Real.cos_zero, Real.sin_zero, Real.cos_pi_div_two, Real.sin_pi_div_two]
      push_cast
      refine ⟨⟨?_, ?_, ?_⟩, ?_, ?_, ?_⟩ <;> ring
    · rw [← Except.ok.inj hc]
      refine ⟨⟨1, 0, 0⟩, ⟨0, 0, -1⟩, by simp [geo], by simp [geo], by simp [geo], fun u v => ?_⟩
      rw [if_neg h0, if_pos h1]
      simp only [Cam.rayFrom, BaseCam.transform, BaseCam.rayFrom, mv]
      simp only [rodrigues, geo, lit_real,
        Ray.ext_iff, Rat.cast_zero, Real.cos_zero, Real.sin_zero, Real.cos_neg, Real.sin_neg, Real.cos_pi_div_two,
        Real.sin_pi_div_two]
      push_cast
      refine ⟨⟨?_, ?_, ?_⟩, ?_, ?_, ?_⟩ <;> ring
    · rw [← Except.ok.inj hc]
      refine ⟨⟨1, 0, 0⟩, ⟨0, 1, 0⟩, by simp [geo], by simp [geo], by simp [geo], fun u v => ?_⟩
      rw [if_neg h0, if_neg h1]
      simp only [Cam.rayFrom, BaseCam.transform, BaseCam.rayFrom, mv]
      simp only [rodrigues, geo, lit_real,
        Ray.ext_iff, Rat.cast_zero, Real.cos_zero, Real.sin_zero]
      push_cast
      refine ⟨⟨?_, ?_, ?_⟩, ?_, ?_, ?_⟩ <;> ring

/-- Non-vacuity: a camera that was moved and turned. -/
example : ∃ c, Cam.projective (Real.pi / 2) = .ok c ∧ Cam.Made ((c.translate ⟨0, 1, 5⟩).yawPitchRoll 1 2 3) := by
  obtain ⟨c, hc, -⟩ := C47_projective (S := Unit) (Real.pi / 2) (by have := Real.pi_pos; linarith)
    (by have := Real.pi_pos; linarith) ⟨fun s => ((0, 0), s)⟩ (Ctx.new [] ())
  exact ⟨c, hc, .yawPitchRoll _ _ _ _ (.translate _ _ (.projective _ _ _ _ hc))⟩

/-- **C47 (lens samples).** A camera with an aperture takes one pair of numbers from the random source for each ray, so that
the next ray gets other ones; other cameras take none. Nothing else of the context changes. -/
theorem C47_stream (c : Cam ℝ) (rng : Rng ℝ S) (ctx : Ctx ℝ S) (u v : ℝ) :
    (∀ f d a, c.orig = .projective f d a → 0 < a → ∃ s, s = (rng.next2 ctx.seq3).2 ∧
      (c.rayFrom rng ctx u v).2 = ⟨ctx.depth, ctx.seq1, ctx.seq2, s, ctx.seqL, ctx.aa, ctx.rays⟩) ∧
    ((∀ f d a, c.orig = .projective f d a → a ≤ 0) → (c.rayFrom rng ctx u v).2 = ctx) := by
  obtain ⟨orig, pos, m⟩ := c
  constructor
  · rintro f d a rfl ha
    refine ⟨_, rfl, ?_⟩
    have : (a >. (lit 0 : ℝ)) = true := by simpa using ha
    simp only [Cam.rayFrom, BaseCam.rayFrom, this, if_true, Ctx.generateLens]
  · intro h
    cases orig with
    | projective f d a =>
      have : (a >. (lit 0 : ℝ)) = false := by simpa using h f d a rfl
      simp only [Cam.rayFrom, BaseCam.rayFrom, this, Bool.false_eq_true, if_false]
    | _ => rfl

end BR
