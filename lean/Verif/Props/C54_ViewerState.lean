import Verif.Model.Viewer
import Verif.Num.Ext
import Verif.Lemmas.Cmp
import Mathlib.Tactic.SplitIfs
import Mathlib.Tactic.Positivity
import Mathlib.Analysis.Real.Pi.Bounds

/-! C54: the camera and the display modes of the viewer. -/

namespace BR.Viewer

set_option linter.unusedSectionVars false

variable {F : Type} [Add F] [Sub F] [Mul F] [Div F] [Neg F] [GoFloat F]

/-- A property of the view that every way to change the view preserves holds always. -/
private theorem view_invariant (P : View F → Prop) (h0 : P (State.init : State F).view)
    (hmove : ∀ (s : State F) d, P s.view → P (moveCam s d).view)
    (hrot : ∀ (s : State F) dx dy, P s.view → P (rotateCamera s dx dy).view)
    (hnorm : ∀ s : State F, P s.view → P (toggleNormals s).view)
    (hiso : ∀ (s : State F) (d : Int), d = 0 ∨ d = 1 ∨ d = 2 → P s.view → P (toggleIsometric s d).view)
    (hzoom : ∀ (s : State F) f, f = lit 1 / GoFloat.sqrt (lit 2) ∨ f = GoFloat.sqrt (lit 2) → P s.view → P (isometricZoom s f).view)
    (hsize : ∀ (s : State F) w h, P s.view → P (handleSize s w h).view) (s : State F) (hs : Reachable s) : P s.view := by
  have hevent : ∀ (s : State F) e, P s.view → P (handleEvent s e).view := by
    intro s e hp
    cases e with
    | lifecycle dead => cases dead <;> exact hp
    | size w h => exact hsize s w h hp
    | key press code shift =>
      cases press
      · exact hp
      · cases code <;> cases shift <;>
          first
          | exact hmove s _ hp
          | exact hiso s 0 (.inl rfl) hp
          | exact hiso s 1 (.inr (.inl rfl)) hp
          | exact hiso s 2 (.inr (.inr rfl)) hp
          | exact hnorm s hp
          | exact hp
    | mouse press release button shift x y =>
      have h1 : P (handleMouseButton s press release button x y).view := by
        unfold handleMouseButton
        dsimp only
        generalize hs1 : (if press = true then { s with mouseDown := button, preview := decide (button = 1) } else s) = s1
        have k1 : P s1.view := by
          subst hs1
          split
          · exact hp
          · exact hp
        generalize hs2 : (if release = true then
          { s1 with mouseDown := 0, preview := if button = 1 then false else s1.preview } else s1) = s2
        have k2 : P s2.view := by
          subst hs2
          split
          · exact k1
          · exact k1
        split
        · exact hrot s2 _ _ k2
        · exact k2
      show P (handleMouseWheel (handleMouseButton s press release button x y) button shift).view
      revert h1
      generalize handleMouseButton s press release button x y = s1
      intro h1
      unfold handleMouseWheel
      split_ifs <;> first | exact hmove s1 _ h1 | exact hzoom s1 _ (.inl rfl) h1 | exact hzoom s1 _ (.inr rfl) h1 | exact h1
    | paint => exact hp
  have hevents : ∀ (es : List (Event F)) (s : State F), P s.view → P (es.foldl handleEvent s).view := by
    intro es
    induction es with
    | nil => intro s hp; exact hp
    | cons e es ih => intro s hp; exact ih _ (hevent s e hp)
  have hrepaint : ∀ (s : State F) r, (repaintIfNeeded s r).view = s.view := by
    intro s r
    have : (renderIfDirty s r).view = s.view := by
      unfold renderIfDirty
      split
      · cases r <;> rfl
      · rfl
    unfold repaintIfNeeded
    dsimp only
    split
    · exact this
    · exact this
  induction hs with
  | init => exact h0
  | step s t _ hst hp =>
    cases hst with
    | abort1 => exact hp
    | events1 e es => exact hevents (e :: es) s hp
    | noEvent => exact hp
    | repaint1 r => exact (hrepaint s r).symm ▸ hp
    | startBake =>
      show P (bakeIfIdle s).view
      unfold bakeIfIdle
      split
      · exact hp
      · exact hp
    | abort2 => exact hp
    | events2 e es => exact hevents (e :: es) s hp
    | bakery l1 v l2 empty =>
      show P (handleBakery s v empty).view
      unfold handleBakery
      dsimp only
      split
      · exact hp
      · exact hp
    | repaint2 r => exact (hrepaint s r).symm ▸ hp

/-- The display mode of normals is one of the three that exist, and the direction of the isometric view one of the three axes,
whatever the number system. -/
theorem C54_modes (s : State F) (h : Reachable s) :
    (0 ≤ s.view.debugNormals ∧ s.view.debugNormals ≤ 2) ∧ 0 ≤ s.view.debugIsometricDir ∧ s.view.debugIsometricDir ≤ 2 := by
  refine view_invariant (fun v => (0 ≤ v.debugNormals ∧ v.debugNormals ≤ 2) ∧ 0 ≤ v.debugIsometricDir ∧ v.debugIsometricDir ≤ 2)
    (by simp [State.init]) (fun s d hp => hp) (fun s dx dy hp => hp) ?_ ?_ (fun s f _ hp => hp) (fun s w h hp => hp) s h
  · rintro s ⟨⟨h1, h2⟩, h3⟩
    refine ⟨?_, h3⟩
    simp only [toggleNormals, specMaxDebugNormals]
    split_ifs <;> omega
  · rintro s d hd ⟨h1, h3, h4⟩
    refine ⟨h1, ?_, ?_⟩ <;> simp only [toggleIsometric] <;> omega

/-- Pressing the key for the normals three times gives the original mode again, pressing the key for an axis twice after it was
chosen toggles the isometric view twice. -/
theorem C54_toggles (s : State F) (h : Reachable s) (d : Int) :
    (toggleNormals (toggleNormals (toggleNormals s))).view.debugNormals = s.view.debugNormals ∧
      (toggleIsometric (toggleIsometric (toggleIsometric s d) d) d).view.debugIsometric =
        (toggleIsometric s d).view.debugIsometric := by
  obtain ⟨⟨h1, h2⟩, -⟩ := C54_modes s h
  constructor
  · simp only [toggleNormals, specMaxDebugNormals]
    split_ifs <;> omega
  · simp [toggleIsometric]

/-- The axis of the isometric view that is shown, if one is. -/
def View.axis (v : View F) : Option Int := if v.debugIsometric then some v.debugIsometricDir else none

/-- The key for an axis shows the isometric view along that axis, and the ordinary view again if that axis was shown. -/
theorem C54_isometric (s : State F) (d : Int) :
    (toggleIsometric s d).view.axis = if s.view.axis = some d then none else some d := by
  simp only [toggleIsometric, View.axis]
  by_cases h1 : s.view.debugIsometric = true <;> by_cases h2 : s.view.debugIsometricDir = d <;> simp [h1, h2]

/-- The pitch stays between minus and plus a quarter turn, unless it is not a number, in any number system whose comparisons
behave and in which the quarter turn is positive. -/
theorem C54_pitch [CmpModel F] (lo hi : EReal) (hlo : CmpModel.key (-GoFloat.pi / lit 2 : F) = some lo)
    (hhi : CmpModel.key (GoFloat.pi / lit 2 : F) = some hi) (h0 : lo ≤ 0) (h1 : 0 ≤ hi) (s : State F) (h : Reachable s) :
    ∀ x, CmpModel.key s.view.camPitch = some x → lo ≤ x ∧ x ≤ hi := by
  refine view_invariant (fun v => ∀ x, CmpModel.key v.camPitch = some x → lo ≤ x ∧ x ≤ hi) ?_ (fun s d hp => hp) ?_
    (fun s hp => hp) (fun s d _ hp => hp) (fun s f _ hp => hp) (fun s w h hp => hp) s h
  · intro x hx
    simp only [State.init] at hx
    rw [CmpModel.key_zero] at hx
    cases hx
    exact ⟨h0, h1⟩
  · intro s dx dy _ x hx
    have hx : CmpModel.key (rotateCamera s dx dy).view.camPitch = some x := hx
    simp only [rotateCamera] at hx
    generalize s.view.camPitch + dy * lit (5 / 1000) = p at hx
    by_cases c1 : (p <. -GoFloat.pi / lit 2) = true
    · rw [if_pos c1] at hx
      have c2 : ¬ ((GoFloat.pi / lit 2 : F) <. -GoFloat.pi / lit 2) = true := by
        rw [CmpModel.lt_iff]
        rintro ⟨a, b, ha, hb, hab⟩
        rw [hhi] at ha; rw [hlo] at hb; cases ha; cases hb
        exact absurd hab (not_lt.2 (h0.trans h1))
      rw [if_neg c2, hlo] at hx
      cases hx
      exact ⟨le_rfl, h0.trans h1⟩
    · rw [if_neg c1] at hx
      by_cases c2 : ((GoFloat.pi / lit 2 : F) <. p) = true
      · rw [if_pos c2, hhi] at hx
        cases hx
        exact ⟨h0.trans h1, le_rfl⟩
      · rw [if_neg c2] at hx
        rw [CmpModel.lt_iff] at c1 c2
        exact ⟨not_lt.1 fun hl => c1 ⟨x, lo, hx, hlo, hl⟩, not_lt.1 fun hl => c2 ⟨hi, x, hhi, hx, hl⟩⟩

/-- In exact arithmetic the pitch is at most a quarter turn, and the isometric view has a positive size. -/
theorem C54_exact (s : State ℝ) (h : Reachable s) :
    |s.view.camPitch| ≤ Real.pi / 2 ∧ (s.view.debugIsometric = true → 0 < s.view.debugIsometricFOV) := by
  constructor
  · have hpi := Real.pi_pos
    have := C54_pitch (F := ℝ) ((-Real.pi / 2 : ℝ) : EReal) ((Real.pi / 2 : ℝ) : EReal) (by simp [CmpModel.key])
      (by simp [CmpModel.key]) (by exact_mod_cast (by linarith : -Real.pi / 2 ≤ 0)) (by exact_mod_cast (by positivity)) s h
      (s.view.camPitch : EReal) rfl
    obtain ⟨h1, h2⟩ := this
    have h1 : -Real.pi / 2 ≤ s.view.camPitch := by exact_mod_cast h1
    have h2 : s.view.camPitch ≤ Real.pi / 2 := by exact_mod_cast h2
    rw [abs_le]
    constructor <;> linarith
  · have := view_invariant (fun v : View ℝ => 0 ≤ v.debugIsometricFOV ∧ (v.debugIsometric = true → 0 < v.debugIsometricFOV))
      (by simp [State.init]) (fun s d hp => hp) (fun s dx dy hp => hp) (fun s hp => hp) ?_ ?_ (fun s w h hp => hp) s h
    · exact this.2
    · rintro s d - ⟨h1, h2⟩
      have : (0 : ℝ) < (toggleIsometric s d).view.debugIsometricFOV := by
        simp only [toggleIsometric]
        split
        · norm_num
        · rename_i hne
          rw [eq_real, lit_real] at hne
          simp only [Rat.cast_zero, decide_eq_true_eq] at hne
          exact lt_of_le_of_ne h1 (Ne.symm hne)
      exact ⟨this.le, fun _ => this⟩
    · rintro s f hf ⟨h1, h2⟩
      have hf : 0 < f := by
        rcases hf with rfl | rfl
        · simp only [lit_real, sqrt_real]; positivity
        · simp only [lit_real, sqrt_real]; positivity
      have : (0 : ℝ) < (isometricZoom s f).view.debugIsometricFOV := by
        simp only [isometricZoom]
        refine mul_pos ?_ hf
        split
        · norm_num
        · rename_i hne
          rw [eq_real, lit_real] at hne
          simp only [Rat.cast_zero, decide_eq_true_eq] at hne
          exact lt_of_le_of_ne h1 (Ne.symm hne)
      exact ⟨this.le, fun _ => this⟩

/-- States other than the initial one are reached: the user drags the mouse and chooses the isometric view. -/
example : ∃ s : State ℝ, Reachable s ∧ s.view.camPitch = 1 / 2 ∧ s.view.debugIsometric = true := by
  refine ⟨_, .step _ _ .init (.events1 State.init (.mouse true false 1 false 0 100) [.key true .x false] rfl), ?_, ?_⟩
  · simp only [List.foldl, handleEvent, handleMouseButton, handleMouseWheel, handleKey, rotateCamera, toggleIsometric, State.init]
    have h1 : ¬ ((1 / 2 : ℝ) < -Real.pi / 2) := by have := Real.pi_pos; linarith
    have h2 : ¬ (Real.pi / 2 < (1 / 2 : ℝ)) := by have := Real.pi_gt_three; linarith
    simp [-one_div]
    rw [show (100 * (5 / 1000) : ℝ) = 1 / 2 by norm_num, if_neg h1, if_neg h2]
  · simp [handleEvent, handleMouseButton, handleMouseWheel, handleKey, rotateCamera, toggleIsometric, State.init]

end BR.Viewer
