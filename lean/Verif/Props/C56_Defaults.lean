import Verif.Model.Api
import Verif.Lemmas.GoM
import Verif.Lemmas.Object
import Verif.Num.Real
import Mathlib.Tactic.SplitIfs
import Mathlib.Tactic.Ring
import Mathlib.Tactic.Linarith
import Mathlib.Data.List.Forall2

/-! C56: defaults of a specification. -/

namespace BR

set_option linter.unusedSectionVars false

section

variable {F : Type} [Add F] [Sub F] [Mul F] [Div F] [Neg F] [GoFloat F]

theorem dnCases (d : Int) : d = 1 ∨ d = 2 ∨ (d ≠ 1 ∧ d ≠ 2) := by omega

/-- What `InitDefaults` does, field by field. -/
theorem initDefaults_eq (s s' : Spec F) (h : s.initDefaults = .ok s') :
    s'.lights = s.lights ∧ s'.debugNormals = s.debugNormals ∧ s'.debugIsometricFOV = s.debugIsometricFOV ∧
    s'.debugIsometricDir = s.debugIsometricDir ∧
    s'.numPass = (if s.numPass = 0 then 1 else s.numPass) ∧
    s'.recursion = (if s.debugNormals = 2 then 20 else if s.recursion = 0 then 1 else s.recursion) ∧
    s'.width = (defaultSize s.width s.height).1 ∧ s'.height = (defaultSize s.width s.height).2 ∧
    s'.objects = (if s.debugNormals = 1 then s.objects.map (applyMaterialTo debugNormal)
      else if s.debugNormals = 2 then s.objects.map (applyMaterialTo debugBlend) else s.objects) ∧
    s'.media = (if s.debugNormals = 1 ∨ s.debugNormals = 2 then [] else s.media) ∧
    (∃ c, s'.camera = some c) ∧
    ((s.debugIsometricFOV ==. lit 0) = true → ∀ c, s.camera = some c → s'.camera = some c) ∧
    ((s.debugIsometricFOV ==. lit 0) = false → ∃ c, Cam.isometric s.debugIsometricDir s.debugIsometricFOV = .ok c ∧
      s'.camera = some c) := by
  obtain ⟨lights, objects, media, camera, rec, np, w, ht, dn, fov, dir⟩ := s
  unfold Spec.initDefaults Spec.defaultCamera Spec.applyIsometric Spec.applyDebugNormals Spec.applyMaterial at h
  dsimp only at h ⊢
  obtain ⟨s1, e1, h⟩ := bind_eq_ok.1 h
  have hs1 : ∃ c, s1 = ⟨lights, objects, media, some c, if rec = 0 then 1 else rec, if np = 0 then 1 else np, w, ht,
      dn, fov, dir⟩ ∧ ∀ c', camera = some c' → c = c' := by
    cases camera with
    | some c =>
      simp only [pure_ok, Except.ok.injEq] at e1
      exact ⟨c, e1.symm, by simp⟩
    | none =>
      simp only at e1
      obtain ⟨c, -, e1⟩ := bind_eq_ok.1 e1
      simp only [pure_ok, Except.ok.injEq] at e1
      exact ⟨_, e1.symm, by simp⟩
  obtain ⟨c, rfl, hc⟩ := hs1
  dsimp only at h
  obtain ⟨s2, e2, h⟩ := bind_eq_ok.1 h
  simp only [pure_ok, Except.ok.injEq] at h
  subst h
  have hrec : (if rec = 0 then (1 : Int) else rec) ≠ 0 := by split <;> omega
  rcases dnCases dn with rfl | rfl | ⟨h1, h2⟩
  all_goals
    cases hf : (fov ==. lit 0)
    all_goals
      simp only [if_true, if_false, Bool.false_eq_true, Int.reduceEq, *] at e2
      first
      | (simp only [Except.ok.injEq] at e2
         subst e2
         simp_all)
      | (obtain ⟨ci, ei, e2⟩ := bind_eq_ok.1 e2
         simp only [pure_ok, Except.ok.injEq] at e2
         subst e2
         simp_all)

theorem defaultSize_pos {w h : Int} (hw : 0 ≤ w) (hh : 0 ≤ h) :
    0 < (defaultSize w h).1 ∧ 0 ≤ (defaultSize w h).2 ∧ ((defaultSize w h).2 = 0 ↔ w = 1 ∧ h = 0) := by
  unfold defaultSize
  by_cases h1 : w = 0 <;> by_cases h2 : h = 0
  · subst h1 h2; simp
  · subst h1
    simp only [h2, and_false, if_false, if_true]
    rw [Int.tdiv_eq_ediv_of_nonneg (by omega)]
    exact ⟨by omega, hh, by simp⟩
  · subst h2
    simp only [h1, false_and, if_false, if_true]
    rw [Int.tdiv_eq_ediv_of_nonneg (by omega)]
    refine ⟨by omega, by omega, fun h => ⟨by omega, trivial⟩, fun h => ?_⟩
    rw [h.1]; rfl
  · simp only [h1, h2, and_self, if_false]
    exact ⟨by omega, by omega, by simp⟩

theorem defaultSize_keep {w h : Int} :
    (w ≠ 0 → (defaultSize w h).1 = w) ∧ (h ≠ 0 → (defaultSize w h).2 = h) := by
  unfold defaultSize
  by_cases h1 : w = 0 <;> by_cases h2 : h = 0 <;> simp [h1, h2]

theorem defaultSize_twice (w h : Int) :
    defaultSize (defaultSize w h).1 (defaultSize w h).2 = defaultSize w h := by
  have key : (defaultSize w h).1 ≠ 0 := by
    unfold defaultSize
    by_cases h1 : w = 0 <;> by_cases h2 : h = 0
    · simp [h1, h2]
    · subst h1
      simp only [h2, and_false, if_false, if_true]
      rcases lt_or_gt_of_ne h2 with hneg | hpos
      · intro hz
        have : Int.tdiv (-(-h * 960)) 540 = 0 := by rw [← hz]; ring_nf
        rw [Int.neg_tdiv, Int.tdiv_eq_ediv_of_nonneg (by omega)] at this
        omega
      · rw [Int.tdiv_eq_ediv_of_nonneg (by omega)]; omega
    · simp [h1, h2]
    · simp [h1]
  have key2 : ∀ a b : Int, a ≠ 0 → defaultSize a b = (a, if b = 0 then Int.tdiv (a * 540) 960 else b) := by
    intro a b ha; simp [defaultSize, ha]
  rw [key2 _ _ key]
  by_cases hb : (defaultSize w h).2 = 0
  · rw [if_pos hb]
    have h0 : h = 0 := by
      by_contra h0
      exact h0 ((defaultSize_keep (w := w) (h := h)).2 h0 ▸ hb)
    by_cases hw : w = 0
    · subst hw h0; rw [show defaultSize 0 0 = (960, 540) from rfl] at hb; exact absurd hb (by decide)
    · have e := key2 w h hw
      rw [if_pos h0] at e
      rw [e]
  · rw [if_neg hb]

/-- **C56, explicit values.** What the user set is kept: lights, pass count, recursion depth (unless the see-through
debug view is on), width, height and camera (unless an isometric debug view is on), and without a debug view also
objects and media. -/
theorem C56_keeps (s s' : Spec F) (h : s.initDefaults = .ok s') :
    s'.lights = s.lights ∧
    (s.numPass ≠ 0 → s'.numPass = s.numPass) ∧
    (s.debugNormals ≠ 2 → s.recursion ≠ 0 → s'.recursion = s.recursion) ∧
    (s.width ≠ 0 → s'.width = s.width) ∧
    (s.height ≠ 0 → s'.height = s.height) ∧
    ((s.debugIsometricFOV ==. lit 0) = true → ∀ c, s.camera = some c → s'.camera = some c) ∧
    (s.debugNormals ≠ 1 → s.debugNormals ≠ 2 → s'.objects = s.objects ∧ s'.media = s.media) := by
  obtain ⟨h1, -, -, -, h5, h6, h7, h8, h9, h10, -, h12, -⟩ := initDefaults_eq s s' h
  refine ⟨h1, fun h => by rw [h5, if_neg h], fun h h' => by rw [h6, if_neg h, if_neg h'],
    fun h => by rw [h7]; exact defaultSize_keep.1 h, fun h => by rw [h8]; exact defaultSize_keep.2 h, h12,
    fun h h' => ⟨by rw [h9, if_neg h, if_neg h'], by rw [h10, if_neg (by simp [h, h'])]⟩⟩

/-- **C56, unset values.** For non-negative settings the result has positive pass count, recursion depth and width,
a camera, and a height that is positive except when the width alone is given as 1. Missing for the full claim: that
width, and negative settings, which are kept. -/
theorem C56_positive_partial (s s' : Spec F) (h : s.initDefaults = .ok s') (hw : 0 ≤ s.width) (hh : 0 ≤ s.height) :
    (∃ c, s'.camera = some c) ∧ (0 ≤ s.numPass → 0 < s'.numPass) ∧ (0 ≤ s.recursion → 0 < s'.recursion) ∧
    0 < s'.width ∧ (¬(s.width = 1 ∧ s.height = 0) → 0 < s'.height) := by
  obtain ⟨-, -, -, -, h5, h6, h7, h8, -, -, h11, -⟩ := initDefaults_eq s s' h
  obtain ⟨d1, d2, d3⟩ := defaultSize_pos hw hh
  refine ⟨h11, fun h => ?_, fun h => ?_, by rw [h7]; exact d1, fun hne => ?_⟩
  · rw [h5]; split <;> omega
  · rw [h6]; split_ifs <;> omega
  · rw [h8]; have := mt d3.1 hne; omega

/-- **Disagreement.** With the width alone given as 1, the image has height 0. -/
theorem C56_violated_height (s s' : Spec F) (h : s.initDefaults = .ok s') (hw : s.width = 1) (hh : s.height = 0) :
    s'.height = 0 := by
  obtain ⟨-, -, -, -, -, -, -, h8, -⟩ := initDefaults_eq s s' h
  rw [h8, hw, hh]; rfl

/-- **Disagreement.** The see-through debug view overwrites an explicit recursion depth. -/
theorem C56_violated_explicit (s s' : Spec F) (h : s.initDefaults = .ok s') (hd : s.debugNormals = 2) :
    s'.recursion = 20 := by
  obtain ⟨-, -, -, -, -, h6, -⟩ := initDefaults_eq s s' h
  rw [h6, if_pos hd]

/-- The second application, for any debug setting: it succeeds, and only objects can differ. -/
theorem initDefaults_twice (s s' : Spec F) (h : s.initDefaults = .ok s') :
    s'.initDefaults = .ok { s' with objects :=
      if s.debugNormals = 1 then s'.objects.map (applyMaterialTo debugNormal)
      else if s.debugNormals = 2 then s'.objects.map (applyMaterialTo debugBlend) else s'.objects } := by
  obtain ⟨h1, h2, h3, h4, h5, h6, h7, h8, h9, h10, ⟨c, h11⟩, h12, h13⟩ := initDefaults_eq s s' h
  have hsz := defaultSize_twice s.width s.height
  rw [← h7, ← h8] at hsz
  have hw : (defaultSize s'.width s'.height).1 = s'.width := by rw [hsz, ← h7]
  have hh : (defaultSize s'.width s'.height).2 = s'.height := by rw [hsz, ← h8]
  have hr : s'.recursion ≠ 0 := by rw [h6]; split_ifs <;> omega
  have hn : s'.numPass ≠ 0 := by rw [h5]; split_ifs <;> omega
  obtain ⟨lights, objects, media, camera, rec, np, w, ht, dn, fov, dir⟩ := s'
  dsimp only at *
  subst h11 h2 h3 h4
  unfold Spec.initDefaults Spec.defaultCamera Spec.applyDebugNormals Spec.applyMaterial
  simp only [hr, hn, if_false, ok_bind, pure_ok, hw, hh]
  have key : ∀ l o m r n w h d,
      (⟨l, o, m, some c, r, n, w, h, d, s.debugIsometricFOV, s.debugIsometricDir⟩ : Spec F).applyIsometric =
        .ok ⟨l, o, m, some c, r, n, w, h, d, s.debugIsometricFOV, s.debugIsometricDir⟩ := by
    intro l o m r n w h d
    unfold Spec.applyIsometric
    dsimp only
    cases hfov : (s.debugIsometricFOV ==. lit 0)
    · obtain ⟨c', e1, e2⟩ := h13 hfov
      cases e2
      rw [e1]; rfl
    · rfl
  rcases dnCases s.debugNormals with hd | hd | ⟨hd1, hd2⟩
  · simp only [hd, if_true] at h10 ⊢
    rw [key, ok_bind]
    simp [hr, h10]
  · simp only [hd, if_true, if_false, Int.reduceEq] at h6 h10 ⊢
    rw [key, ok_bind]
    simp [h6, h10]
  · simp only [hd1, hd2, if_false]
    rw [key, ok_bind]
    simp [hr]

/-- **C56, applying twice.** Without the debug views that replace materials, applying the defaults twice changes
nothing. Missing for the full claim: those two debug views, see `C56_twice_debug_partial` and
`C56_violated_twice`. -/
theorem C56_twice_partial (s s' : Spec F) (h : s.initDefaults = .ok s')
    (h1 : s.debugNormals ≠ 1) (h2 : s.debugNormals ≠ 2) : s'.initDefaults = .ok s' := by
  rw [initDefaults_twice s s' h, if_neg h1, if_neg h2]

/-- Two objects that answer every question alike. -/
def Obj.SameAs {M : Type} (o o' : Obj F M) : Prop :=
  (∀ r, o.intersect r = o'.intersect r) ∧ (∀ p, o.inside p = o'.inside p) ∧ o.bounds = o'.bounds

theorem withMaterial_twice (m : Option (Mat F)) (m' : Option (Mat F)) (o : Obj F (Mat F)) :
    (Obj.withMaterial m (.withMaterial m' o)).SameAs (.withMaterial m o) := by
  refine ⟨fun r => ?_, fun p => ?_, ?_⟩
  · simp only [Obj.intersect]
    cases o.intersect r with
    | error e => rfl
    | ok x => rfl
  · simp only [Obj.inside]
  · simp only [Obj.bounds]

/-- With a debug view and no backdrop, applying the defaults twice gives a specification that differs from the first
only in wrapping the objects once more, which no ray can tell. -/
theorem C56_twice_debug_partial (s s' : Spec F) (h : s.initDefaults = .ok s')
    (hb : ∀ o ∈ s.objects, o.isBackdrop = false) :
    ∃ objs, s'.initDefaults = .ok { s' with objects := objs } ∧ List.Forall₂ Obj.SameAs objs s'.objects := by
  obtain ⟨-, -, -, -, -, -, -, -, h9, -⟩ := initDefaults_eq s s' h
  have refl : ∀ l : List (Obj F (Mat F)), List.Forall₂ Obj.SameAs l l := by
    intro l; induction l with
    | nil => exact .nil
    | cons a l ih => exact .cons ⟨fun _ => rfl, fun _ => rfl, rfl⟩ ih
  have key : ∀ (m : Mat F) (l : List (Obj F (Mat F))), (∀ o ∈ l, o.isBackdrop = false) →
      List.Forall₂ Obj.SameAs ((l.map (applyMaterialTo m)).map (applyMaterialTo m)) (l.map (applyMaterialTo m)) := by
    intro m l hl
    induction l with
    | nil => exact .nil
    | cons o l ih =>
      simp only [List.map_cons]
      refine .cons ?_ (ih fun o ho => hl o (List.mem_cons_of_mem _ ho))
      have : applyMaterialTo m o = .withMaterial (some m) o := by
        unfold applyMaterialTo; rw [hl o (by simp)]; simp
      rw [this]
      exact withMaterial_twice _ _ _
  refine ⟨_, initDefaults_twice s s' h, ?_⟩
  rcases dnCases s.debugNormals with hd | hd | ⟨hd1, hd2⟩
  · rw [if_pos hd, h9, if_pos hd]; exact key _ _ hb
  · rw [if_neg (by omega), if_pos hd, h9, if_neg (by omega), if_pos hd]; exact key _ _ hb
  · rw [if_neg hd1, if_neg hd2]; exact refl _

/-- **Disagreement.** In a scene with a backdrop and the normals debug view, the first application makes the backdrop
black and the second replaces that by the debug material: every ray sees a different material. -/
theorem C56_violated_twice (s s' : Spec F) (m : Option (Mat F)) (h : s.initDefaults = .ok s')
    (hd : s.debugNormals = 1) (ho : s.objects = [.backdrop m]) :
    ∃ s'', s'.initDefaults = .ok s'' ∧ ∀ r, ∃ o o'' x x'', s'.objects = [o] ∧ s''.objects = [o''] ∧
      o.intersect r = .ok (x, r) ∧ o''.intersect r = .ok (x'', r) ∧
      x.mat = some (.flat (Color.black : Color F).tex) ∧ x''.mat = some debugNormal := by
  obtain ⟨-, -, -, -, -, -, -, -, h9, -⟩ := initDefaults_eq s s' h
  rw [if_pos hd, ho] at h9
  refine ⟨_, initDefaults_twice s s' h, fun r => ?_⟩
  refine ⟨_, applyMaterialTo debugNormal (applyMaterialTo debugNormal (.backdrop m)), _,
    ⟨lit (10 ^ 99), r.dir, r.dir, some debugNormal⟩, h9, ?_, rfl, rfl, rfl, rfl⟩
  rw [if_pos hd, h9]; rfl

end

/-- Defaults can be computed for every specification whose isometric view, if any, has a valid direction. -/
theorem C56_total (s : Spec ℝ) (h : s.debugIsometricFOV = 0 ∨ s.debugIsometricDir ∈ [0, 1, 2]) :
    ∃ s', s.initDefaults = .ok s' := by
  have hcam : ∃ c : Cam ℝ, Cam.projective (lit 90 * Cam.deg) = .ok c := by
    unfold Cam.projective Cam.projectiveAperture Cam.fovToFocalLen Cam.deg
    have : ¬((lit 90 * (GoFloat.pi / lit 180) <=. (lit 0 : ℝ)) || lit 90 * (GoFloat.pi / lit 180) >=. (GoFloat.pi : ℝ)) = true := by
      simp only [lit_real, pi_real, le_real, Bool.or_eq_true, decide_eq_true_eq, not_or, not_le]
      have := Real.pi_pos
      constructor <;> push_cast <;> linarith
    rw [if_neg this]
    exact ⟨_, rfl⟩
  obtain ⟨c, hc⟩ := hcam
  have h1 : ∀ s : Spec ℝ, ∃ s', s.defaultCamera = .ok s' ∧ s'.debugIsometricFOV = s.debugIsometricFOV ∧
      s'.debugIsometricDir = s.debugIsometricDir := by
    intro s
    unfold Spec.defaultCamera
    cases hcc : s.camera with
    | some c => exact ⟨s, rfl, rfl, rfl⟩
    | none => simp only; rw [hc]; exact ⟨_, rfl, rfl, rfl⟩
  have h2 : ∀ s : Spec ℝ, (s.debugIsometricFOV = 0 ∨ s.debugIsometricDir ∈ [0, 1, 2]) →
      ∃ s', s.applyIsometric = .ok s' := by
    intro s h
    unfold Spec.applyIsometric
    split_ifs with h0
    · exact ⟨_, rfl⟩
    · have hd : s.debugIsometricDir ∈ [0, 1, 2] := by
        rcases h with h | h
        · simp [h] at h0
        · exact h
      unfold Cam.isometric
      simp only [List.mem_cons, List.not_mem_nil, or_false] at hd
      rcases hd with hd | hd | hd <;> rw [hd] <;> exact ⟨_, rfl⟩
  have h3 : ∀ s : Spec ℝ, s.applyDebugNormals.debugIsometricFOV = s.debugIsometricFOV ∧
      s.applyDebugNormals.debugIsometricDir = s.debugIsometricDir := by
    intro s
    unfold Spec.applyDebugNormals Spec.applyMaterial
    split_ifs <;> exact ⟨rfl, rfl⟩
  unfold Spec.initDefaults
  dsimp only
  obtain ⟨s1, e1, f1, d1⟩ := h1 { s with
    recursion := if s.recursion = 0 then 1 else s.recursion, numPass := if s.numPass = 0 then 1 else s.numPass }
  rw [e1, ok_bind]
  obtain ⟨s2, e2⟩ := h2 (Spec.applyDebugNormals { s1 with
    width := (defaultSize s1.width s1.height).1, height := (defaultSize s1.width s1.height).2 }) (by
      rw [(h3 _).1, (h3 _).2]; dsimp only; rw [f1, d1]; exact h)
  rw [e2, ok_bind]
  exact ⟨_, rfl⟩

/-- Non-vacuity: an empty specification, and one with a backdrop, a debug view and width 1. -/
example : (∃ s', (⟨[], [], [], none, 0, 0, 0, 0, 0, 0, 0⟩ : Spec ℝ).initDefaults = .ok s' ∧ s'.width = 960 ∧ s'.height = 540) ∧
    ∃ s', (⟨[], [.backdrop none], [], none, 0, 0, 1, 0, 1, 2, 1⟩ : Spec ℝ).initDefaults = .ok s' ∧ s'.height = 0 := by
  constructor
  · obtain ⟨s', h⟩ := C56_total ⟨[], [], [], none, 0, 0, 0, 0, 0, 0, 0⟩ (.inl rfl)
    obtain ⟨-, -, -, -, -, -, h7, h8, -⟩ := initDefaults_eq _ s' h
    exact ⟨s', h, h7, h8⟩
  · obtain ⟨s', h⟩ := C56_total ⟨[], [.backdrop none], [], none, 0, 0, 1, 0, 1, 2, 1⟩ (.inr (by simp))
    exact ⟨s', h, C56_violated_height _ s' h rfl rfl⟩

end BR
