import Verif.Model.Viewer
import Verif.Props.C47_Cameras
import Verif.Props.C56_Defaults

/-!
C71: navigation in the viewer. What the server renders for a view is the scene seen by the scene's camera, turned at
its position by the yaw and pitch of the view and then moved by the position of the view; and the keys move the
position along the directions of the image that is shown: forward is through the centre of the image, right is towards
its right border, up towards its upper border. In exact arithmetic.
-/

namespace BR

open Viewer

variable {S : Type}

/-- The view as sent to the server (the two structures model the same Go type). -/
def Viewer.View.sent (v : View ℝ) : ApiView ℝ :=
  ⟨v.width, v.height, v.camPos, v.camYaw, v.camPitch, v.debugNormals, v.debugIsometric, v.debugIsometricFOV,
    v.debugIsometricDir⟩

/-- **C71.** What the server renders for a view. -/
theorem C71_view (v : ApiView ℝ) (s s' : Spec ℝ) (c : Cam ℝ) (hc : s.camera = some c) (h : v.applyTo s = .ok s') :
    (v.width ≠ 0 → s'.width = v.width) ∧ (v.height ≠ 0 → s'.height = v.height) ∧ s'.lights = s.lights ∧
    (v.debugIsometric = false → ∃ c', s'.camera = some c' ∧ ∀ (rng : Rng ℝ S) (ctx : Ctx ℝ S) (x y : ℝ),
      (c'.rayFrom rng ctx x y).1 =
        ⟨(((Affine.yawPitchRoll v.camYaw v.camPitch 0).dir ((c.rayFrom rng ctx x y).1.start.sub c.pos)).add c.pos).add
            v.camPos, (Affine.yawPitchRoll v.camYaw v.camPitch 0).dir (c.rayFrom rng ctx x y).1.dir⟩) ∧
    (v.debugIsometric = true → v.debugIsometricFOV ≠ 0 →
      ∃ c', Cam.isometric v.debugIsometricDir v.debugIsometricFOV = .ok c' ∧ s'.camera = some c') := by
  rw [ApiView.applyTo, hc] at h
  dsimp only at h
  obtain ⟨h1, -, -, -, -, -, h7, h8, -, -, -, h12, h13⟩ := initDefaults_eq _ s' h
  dsimp only at h1 h7 h8 h12 h13
  refine ⟨?_, ?_, h1, ?_, ?_⟩
  · intro hw
    rw [h7]
    exact defaultSize_keep.1 hw
  · intro hw
    rw [h8]
    exact defaultSize_keep.2 hw
  · intro hi
    rw [hi] at h12
    refine ⟨_, h12 (by simp) _ rfl, ?_⟩
    intro rng ctx x y
    simp only [Cam.transform, Cam.rayFrom, Matrix.mul_mulVec, Affine.dir, lit_real, Rat.cast_zero, Ray.mk.injEq]
    generalize (c.orig.rayFrom rng ctx x y).1 = q
    generalize (Affine.yawPitchRoll v.camYaw v.camPitch 0).A = m
    refine ⟨?_, trivial⟩
    simp only [geo]
    refine ⟨?_, ?_, ?_⟩ <;> ring
  · intro hi hf
    rw [hi] at h13
    simp only [if_true] at h13
    exact h13 (by simp [hf])

/-- The position after pressing a key. -/
noncomputable def posAfter (s : State ℝ) (k : Key) (shift : Bool) : Vec ℝ := (handleEvent s (.key true k shift)).view.camPos

/-- **C71.** The keys move along the directions of the image. `look x y` is the direction in which the point of the
image at `x` (from left to right) and `y` (from the bottom to the top) is seen. -/
theorem C71_keys (fov : ℝ) (h0 : 0 < fov) (h1 : fov < Real.pi) (c : Cam ℝ) (hp : Cam.projective fov = .ok c)
    (d : Vec ℝ) (sp sp' : Spec ℝ) (hc : sp.camera = some (c.translate d)) (s : State ℝ)
    (hi : s.view.debugIsometric = false) (h : s.view.sent.applyTo sp = .ok sp') (rng : Rng ℝ S) (ctx : Ctx ℝ S) :
    ∃ c', sp'.camera = some c' ∧ ∃ right up : Vec ℝ,
      let look : ℝ → ℝ → Vec ℝ := fun x y => (c'.rayFrom rng ctx x y).1.dir
      let ahead := look (1 / 2) (1 / 2)
      -- the directions
      (right.dot right = 1 ∧ up.dot up = 1 ∧ right.dot up = 0 ∧ right.dot ahead = 0 ∧ up.dot ahead = 0) ∧
      (∀ x y, 1 / 2 < x → 0 < right.dot (look x y)) ∧ (∀ x y, 1 / 2 < y → 0 < up.dot (look x y)) ∧
      -- the keys
      posAfter s .up false = s.view.camPos.add (ahead.mul (5 / 100)) ∧
      posAfter s .down false = s.view.camPos.sub (ahead.mul (5 / 100)) ∧
      (∀ b, posAfter s .right b = s.view.camPos.add (right.mul (5 / 100))) ∧
      (∀ b, posAfter s .left b = s.view.camPos.sub (right.mul (5 / 100))) ∧
      (∀ b, posAfter s .space b = s.view.camPos.add (up.mul (5 / 100))) ∧
      posAfter s .up true = s.view.camPos.add (up.mul (5 / 100)) ∧
      posAfter s .down true = s.view.camPos.sub (up.mul (5 / 100)) := by
  obtain ⟨c', hc', hray⟩ := (C71_view (S := S) _ sp sp' _ hc h).2.2.2.1 hi
  refine ⟨c', hc', ?_⟩
  have ho := orth_ypr s.view.camYaw s.view.camPitch 0
  have hdir : ∀ x y, (c'.rayFrom rng ctx x y).1.dir =
      (Affine.yawPitchRoll s.view.camYaw s.view.camPitch 0).A.mulVec (c.rayFrom rng ctx x y).1.dir := by
    intro x y
    rw [hray]
    dsimp only [Affine.dir, View.sent]
    rw [(C47_independent c d d 0 0 0 rng ctx x y).2.2.1]
  obtain ⟨c0, e0, hmid, -, -, hall⟩ := C47_projective fov h0 h1 rng ctx
  rw [hp] at e0
  cases e0
  have ht : 0 < Real.tan (fov / 2) := Real.tan_pos_of_pos_of_lt_pi_div_two (by linarith) (by linarith)
  have hmove : ∀ v : Vec ℝ, (moveCam s v).view.camPos =
      s.view.camPos.add (((Affine.yawPitchRoll s.view.camYaw s.view.camPitch 0).A.mulVec v).mul (5 / 100)) := by
    intro v
    simp only [moveCam, lit_real, Rat.cast_zero]
    generalize (Affine.yawPitchRoll s.view.camYaw s.view.camPitch 0).A.mulVec v = w
    simp only [geo]
    push_cast
    refine ⟨?_, ?_, ?_⟩ <;> ring
  have hneg : ∀ v w : Vec ℝ, w = v.mul (-1) → (moveCam s w).view.camPos =
      s.view.camPos.sub (((Affine.yawPitchRoll s.view.camYaw s.view.camPitch 0).A.mulVec v).mul (5 / 100)) := by
    rintro v _ rfl
    rw [hmove, Matrix.mulVec_mul]
    generalize (Affine.yawPitchRoll s.view.camYaw s.view.camPitch 0).A.mulVec v = w
    simp only [geo]
    refine ⟨?_, ?_, ?_⟩ <;> ring
  generalize hm : (Affine.yawPitchRoll s.view.camYaw s.view.camPitch 0).A = m at *
  refine ⟨m.mulVec ⟨1, 0, 0⟩, m.mulVec ⟨0, 1, 0⟩, ?_⟩
  dsimp only
  have hq : ∀ x y, ∃ k : ℝ, 0 < k ∧ (c.rayFrom rng ctx x y).1.dir.mul k =
      ⟨2 * Real.tan (fov / 2) * (x - 1 / 2), 2 * Real.tan (fov / 2) * (y - 1 / 2), -1⟩ := fun x y => (hall x y).2
  refine ⟨⟨?_, ?_, ?_, ?_, ?_⟩, ?_, ?_, ?_, ?_, ?_, ?_, ?_, ?_, ?_⟩
  · rw [ho]; simp [geo]
  · rw [ho]; simp [geo]
  · rw [ho]; simp [geo]
  · rw [hdir, ho, hmid]; simp [geo]
  · rw [hdir, ho, hmid]; simp [geo]
  · intro x y hx
    obtain ⟨k, hk, e⟩ := hq x y
    rw [hdir, ho]
    have e1 := congrArg Vec.x e
    simp only [geo] at e1 ⊢
    have : 0 < k * (c.rayFrom rng ctx x y).1.dir.x := by
      rw [e1]
      exact mul_pos (by positivity) (by linarith)
    have := (mul_pos_iff_of_pos_left hk).1 this
    linarith
  · intro x y hx
    obtain ⟨k, hk, e⟩ := hq x y
    rw [hdir, ho]
    have e1 := congrArg Vec.y e
    simp only [geo] at e1 ⊢
    have : 0 < k * (c.rayFrom rng ctx x y).1.dir.y := by
      rw [e1]
      exact mul_pos (by positivity) (by linarith)
    have := (mul_pos_iff_of_pos_left hk).1 this
    linarith
  · rw [hdir, hmid, ← hmove]
    simp [posAfter, handleEvent, handleKey]
  · rw [hdir, hmid]
    simp only [posAfter, handleEvent, handleKey, if_true, Bool.false_eq_true, if_false]
    exact hneg _ _ (by simp [geo])
  · intro b
    rw [← hmove]
    simp [posAfter, handleEvent, handleKey]
  · intro b
    simp only [posAfter, handleEvent, handleKey, if_true]
    exact hneg _ _ (by simp [geo])
  · intro b
    rw [← hmove]
    simp [posAfter, handleEvent, handleKey]
  · rw [← hmove]
    simp [posAfter, handleEvent, handleKey]
  · simp only [posAfter, handleEvent, handleKey, if_true]
    exact hneg _ _ (by simp [geo])

/-- The hypotheses are met: the default camera, in the initial state of the viewer. -/
example (rng : Rng ℝ S) (ctx : Ctx ℝ S) : ∃ c sp', Cam.projective (Real.pi / 2) = .ok c ∧ (State.init : State ℝ).view.debugIsometric = false ∧
    (State.init : State ℝ).view.sent.applyTo ⟨[], [], [], some (c.translate ⟨0, 1, 0⟩), 1, 1, 100, 100, 0, 0, 0⟩ =
      .ok sp' := by
  have hpi := Real.pi_pos
  obtain ⟨c, hc, -⟩ := C47_projective (Real.pi / 2) (by linarith) (by linarith) rng ctx
  obtain ⟨s', hs'⟩ := C56_total
    (⟨[], [], [], some ((c.translate ⟨0, 1, 0⟩).transform (Affine.yawPitchRoll (lit 0) (lit 0) (lit 0)).A
      ⟨lit 0, lit 0, lit 0⟩), 1, 1, 32, 32, 0, lit 0, 0⟩ : Spec ℝ) (.inl (by simp))
  exact ⟨c, s', hc, rfl, hs'⟩

/-- The state after turning the wheel, with the pointer anywhere. -/
noncomputable def wheel (s : State ℝ) (button : Int) (shift : Bool) (x y : ℝ) : State ℝ :=
  handleEvent s (.mouse false false button shift x y)

/-- **C71 (wheel).** While no mouse button is held, the wheel moves the camera as the keys do: up as the up key, down as the
down key, with or without shift, to the left and to the right as those keys. In an isometric view it zooms by a factor of the
square root of two: up shows half the area, down twice the area. -/
theorem C71_wheel (s : State ℝ) (hm : s.mouseDown ≠ 1) (x y : ℝ) :
    (s.view.debugIsometric = false → ∀ b,
      (wheel s (-1) b x y).view.camPos = posAfter s .up b ∧ (wheel s (-2) b x y).view.camPos = posAfter s .down b ∧
      (wheel s (-3) b x y).view.camPos = posAfter s .left b ∧ (wheel s (-4) b x y).view.camPos = posAfter s .right b) ∧
    (s.view.debugIsometric = true → s.view.debugIsometricFOV ≠ 0 → ∀ b,
      (wheel s (-1) b x y).view.debugIsometricFOV ^ 2 = s.view.debugIsometricFOV ^ 2 / 2 ∧
      (wheel s (-2) b x y).view.debugIsometricFOV ^ 2 = s.view.debugIsometricFOV ^ 2 * 2 ∧
      0 < (wheel s (-1) b x y).view.debugIsometricFOV / s.view.debugIsometricFOV ∧
      0 < (wheel s (-2) b x y).view.debugIsometricFOV / s.view.debugIsometricFOV) := by
  constructor
  · intro hi b
    cases b <;>
      simp [wheel, posAfter, handleEvent, handleMouseButton, handleMouseWheel, handleKey, hm, hi, moveCam]
  · intro hi hf b
    have h2 : (Real.sqrt 2) ^ 2 = 2 := Real.sq_sqrt (by norm_num)
    have h0 : 0 < Real.sqrt 2 := Real.sqrt_pos.2 (by norm_num)
    have e : ∀ n : Int, (handleMouseButton s false false n x y).view = s.view := by
      intro n
      simp [handleMouseButton, hm]
    have e1 : (wheel s (-1) b x y).view.debugIsometricFOV = s.view.debugIsometricFOV * (1 / Real.sqrt 2) := by
      simp [wheel, handleEvent, handleMouseWheel, e, hi, isometricZoom, hf]
    have e2 : (wheel s (-2) b x y).view.debugIsometricFOV = s.view.debugIsometricFOV * Real.sqrt 2 := by
      simp [wheel, handleEvent, handleMouseWheel, e, hi, isometricZoom, hf]
    rw [e1, e2]
    refine ⟨?_, ?_, ?_, ?_⟩
    · rw [mul_pow, div_pow, h2]; ring
    · rw [mul_pow, h2]
    · rw [mul_div_assoc, mul_comm, div_mul_cancel₀ _ hf]; positivity
    · rw [mul_div_assoc, mul_comm, div_mul_cancel₀ _ hf]; positivity

/-- The hypotheses are met in the initial state, and after switching to an isometric view. -/
example : (State.init : State ℝ).mouseDown ≠ 1 ∧ (State.init : State ℝ).view.debugIsometric = false ∧
    (toggleIsometric (toggleIsometric (State.init : State ℝ) 1) 2).view.debugIsometric = true ∧
    (toggleIsometric (toggleIsometric (State.init : State ℝ) 1) 2).view.debugIsometricFOV ≠ 0 := by
  simp [State.init, toggleIsometric]

end BR
