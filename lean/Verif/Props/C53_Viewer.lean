import Verif.Model.Viewer
import Mathlib.Tactic.SplitIfs

/-! C53: the viewer never shows a stale render. C88: it settles on the full picture. -/

namespace BR.Viewer

set_option linter.unusedSectionVars false

variable {F : Type} [Add F] [Sub F] [Mul F] [Div F] [Neg F] [GoFloat F]

/-- Two views differ at most in the size and the quality of the image. -/
def SameView (v w : View F) : Prop := { v with width := 0, height := 0, antiAlias := false } = { w with width := 0, height := 0, antiAlias := false }

/-- The image is the dummy, or was rendered from the view `v`, at a scale of 1/8, or at a scale of 1/8, 1/4, 1/2 or 1 and
antialiased if and only if the scale is 1. -/
def Shown.Current (v : View F) : Shown F → Prop
  | .dummy => True
  | .preview w => SameView w v ∧ w.width = v.width.tdiv 8 ∧ w.height = v.height.tdiv 8
  | .bake w => SameView w v ∧ ∃ d : Int, (d = 8 ∨ d = 4 ∨ d = 2 ∨ d = 1) ∧ w.width = v.width.tdiv d ∧ w.height = v.height.tdiv d ∧
      (w.antiAlias = true ↔ d = 1)

private theorem bakeDiv_mem (n : Nat) : bakeDiv n 8 = 8 ∨ bakeDiv n 8 = 4 ∨ bakeDiv n 8 = 2 ∨ bakeDiv n 8 = 1 := by
  match n with
  | 0 => exact .inl rfl
  | 1 => exact .inr (.inl rfl)
  | 2 => exact .inr (.inr (.inl rfl))
  | n + 3 => exact .inr (.inr (.inr rfl))

/-- What holds between the steps of the loop. -/
private structure Inv (s : State F) : Prop where
  win : s.winSize = (s.view.width, s.view.height)
  pend : s.pending.length = if s.isBaking then 1 else 0
  cur : s.renderDirty = false → s.lastImg.Current s.view
  want : s.renderDirty = false → s.wantBake = true → ∀ v ∈ s.pending, (Shown.bake v).Current s.view
  dirtyWin : s.windowDirty = false → s.window = s.lastImg

/-- Effect of an event: either the view is kept, or a new render is demanded. -/
private structure Keeps (s t : State F) : Prop where
  win : s.winSize = (s.view.width, s.view.height) → t.winSize = (t.view.width, t.view.height)
  pending : t.pending = s.pending
  baking : t.isBaking = s.isBaking
  img : t.lastImg = s.lastImg
  window : t.window = s.window
  dirty : t.renderDirty = false → s.renderDirty = false ∧ t.view = s.view
  want : t.wantBake = true → s.wantBake = true
  windowDirty : t.windowDirty = false → s.windowDirty = false

private theorem Keeps.refl (s : State F) : Keeps s s := ⟨id, rfl, rfl, rfl, rfl, fun h => ⟨h, rfl⟩, id, id⟩

private theorem Keeps.trans' {s t u : State F} (h1 : Keeps s t) (h2 : Keeps t u) : Keeps s u where
  win h := h2.win (h1.win h)
  pending := h2.pending.trans h1.pending
  baking := h2.baking.trans h1.baking
  img := h2.img.trans h1.img
  window := h2.window.trans h1.window
  dirty h := ⟨(h1.dirty (h2.dirty h).1).1, (h2.dirty h).2.trans (h1.dirty (h2.dirty h).1).2⟩
  want h := h1.want (h2.want h)
  windowDirty h := h1.windowDirty (h2.windowDirty h)

private theorem keeps_moveCam (s : State F) (d : Vec F) : Keeps s (moveCam s d) :=
  ⟨id, rfl, rfl, rfl, rfl, (by intro h; cases h), id, id⟩
private theorem keeps_rotate (s : State F) (dx dy : F) : Keeps s (rotateCamera s dx dy) :=
  ⟨id, rfl, rfl, rfl, rfl, (by intro h; cases h), id, id⟩
private theorem keeps_zoom (s : State F) (f : F) : Keeps s (isometricZoom s f) :=
  ⟨id, rfl, rfl, rfl, rfl, (by intro h; cases h), id, id⟩
private theorem keeps_normals (s : State F) : Keeps s (toggleNormals s) :=
  ⟨id, rfl, rfl, rfl, rfl, (by intro h; cases h), id, id⟩
private theorem keeps_iso (s : State F) (d : Int) : Keeps s (toggleIsometric s d) :=
  ⟨id, rfl, rfl, rfl, rfl, (by intro h; cases h), id, id⟩

private theorem keeps_event (s : State F) (e : Event F) : Keeps s (handleEvent s e) := by
  cases e with
  | lifecycle dead =>
    cases dead
    · exact ⟨id, rfl, rfl, rfl, rfl, fun h => ⟨h, rfl⟩, id, (by intro h; cases h)⟩
    · exact ⟨id, rfl, rfl, rfl, rfl, fun h => ⟨h, rfl⟩, (by intro h; cases h), (by intro h; cases h)⟩
  | size w h => exact ⟨fun _ => rfl, rfl, rfl, rfl, rfl, (by intro h; cases h), id, (by intro h; cases h)⟩
  | key press code shift =>
    cases press
    · exact .refl s
    · cases code <;> cases shift <;>
        first
        | exact keeps_moveCam s _
        | exact keeps_iso s _
        | exact keeps_normals s
        | exact .refl s
        | exact ⟨id, rfl, rfl, rfl, rfl, fun h => ⟨h, rfl⟩, id, id⟩
  | mouse press release button shift x y =>
    have h1 : Keeps s (handleMouseButton s press release button x y) := by
      unfold handleMouseButton
      dsimp only
      generalize hs1 : (if press = true then { s with mouseDown := button, preview := decide (button = 1) } else s) = s1
      have k1 : Keeps s s1 := by
        subst hs1
        split
        · exact ⟨id, rfl, rfl, rfl, rfl, fun h => ⟨h, rfl⟩, id, id⟩
        · exact .refl s
      generalize hs2 : (if release = true then
        { s1 with mouseDown := 0, preview := if button = 1 then false else s1.preview } else s1) = s2
      have k2 : Keeps s1 s2 := by
        subst hs2
        split
        · exact ⟨id, rfl, rfl, rfl, rfl, fun h => ⟨h, rfl⟩, id, id⟩
        · exact .refl s1
      generalize hs3 : (if s2.mouseDown = 1 then
        rotateCamera s2 (GoFloat.toF32 (x - s2.lastMouseX)) (GoFloat.toF32 (y - s2.lastMouseY)) else s2) = s3
      have k3 : Keeps s2 s3 := by
        subst hs3
        split
        · exact keeps_rotate _ _ _
        · exact .refl s2
      have k4 : Keeps s3 { s3 with lastMouseX := x, lastMouseY := y } := ⟨id, rfl, rfl, rfl, rfl, fun h => ⟨h, rfl⟩, id, id⟩
      exact ((k1.trans' k2).trans' k3).trans' k4
    refine h1.trans' ?_
    show Keeps _ (handleMouseWheel (handleMouseButton s press release button x y) button shift)
    generalize handleMouseButton s press release button x y = s1
    unfold handleMouseWheel
    split_ifs <;> first | exact keeps_moveCam s1 _ | exact keeps_zoom s1 _ | exact .refl s1
  | paint => exact ⟨id, rfl, rfl, rfl, rfl, fun h => ⟨h, rfl⟩, id, (by intro h; cases h)⟩

private theorem keeps_events (s : State F) (es : List (Event F)) : Keeps s (es.foldl handleEvent s) := by
  induction es generalizing s with
  | nil => exact .refl s
  | cons e es ih => exact (keeps_event s e).trans' (ih _)

private theorem inv_keeps {s t : State F} (h : Keeps s t) (hi : Inv s) : Inv t where
  win := h.win hi.win
  pend := by rw [h.pending, h.baking]; exact hi.pend
  cur hd := by obtain ⟨h1, h2⟩ := h.dirty hd; rw [h.img, h2]; exact hi.cur h1
  want hd hw := by
    obtain ⟨h1, h2⟩ := h.dirty hd
    rw [h.pending, h2]; exact hi.want h1 (h.want hw)
  dirtyWin hw := by rw [h.window, h.img]; exact hi.dirtyWin (h.windowDirty hw)

private theorem inv_pc {s : State F} (p : Pc) (hi : Inv s) : Inv { s with pc := p } :=
  ⟨hi.win, hi.pend, hi.cur, hi.want, hi.dirtyWin⟩

private theorem inv_repaint {s : State F} (r : PreviewResult) (hi : Inv s) : Inv (repaintIfNeeded s r) := by
  have h1 : Inv (renderIfDirty s r) := by
    unfold renderIfDirty
    split
    · rename_i hd
      cases r with
      | failed => exact ⟨hi.win, hi.pend, fun _ => trivial, (by intro _ h; cases h), (by intro h; cases h)⟩
      | empty =>
        refine ⟨hi.win, hi.pend, fun h => ?_, (by intro _ h; cases h), hi.dirtyWin⟩
        change s.renderDirty = false at h
        rw [hd] at h; cases h
      | image => exact ⟨hi.win, hi.pend, fun _ => ⟨rfl, rfl, rfl⟩, (by intro _ h; cases h), (by intro h; cases h)⟩
    · exact hi
  unfold repaintIfNeeded
  dsimp only
  split
  · exact ⟨h1.win, h1.pend, h1.cur, h1.want, fun _ => rfl⟩
  · exact h1

private theorem inv_reachable (s : State F) (h : Reachable s) : Inv s := by
  induction h with
  | init =>
    refine ⟨rfl, rfl, ?_, ?_, ?_⟩
    · intro h; cases h
    · intro h; cases h
    · intro h; cases h
  | step s t _ hst hi =>
    cases hst with
    | abort1 => exact inv_pc _ hi
    | events1 e es => exact inv_pc _ (inv_keeps (keeps_events s (e :: es)) hi)
    | noEvent => exact inv_pc _ hi
    | repaint1 r => exact inv_pc _ (inv_repaint r hi)
    | startBake =>
      apply inv_pc
      unfold bakeIfIdle
      split
      · rename_i hc
        simp only [Bool.and_eq_true, Bool.not_eq_true'] at hc
        obtain ⟨⟨⟨hb, hp⟩, hd⟩, hpa⟩ := hc
        have h0 : s.pending = [] := by
          have := hi.pend
          rw [hb] at this
          exact List.eq_nil_of_length_eq_zero this
        refine ⟨hi.win, ?_, hi.cur, ?_, hi.dirtyWin⟩
        · simp [goBakeAndSend, h0]
        · intro _ _ v hv
          simp only [goBakeAndSend, h0, List.nil_append, List.mem_singleton] at hv
          subst hv
          refine ⟨rfl, bakeDiv s.bakeResolution 8, bakeDiv_mem _, ?_, ?_, ?_⟩
          · show s.winSize.1.tdiv _ = _
            rw [hi.win]; rfl
          · show s.winSize.2.tdiv _ = _
            rw [hi.win]; rfl
          · exact decide_eq_true_iff
      · exact hi
    | abort2 => exact inv_pc _ hi
    | events2 e es => exact inv_pc _ (inv_keeps (keeps_events s (e :: es)) hi)
    | bakery l1 v l2 empty hpc hp =>
      have hlen := hi.pend
      rw [hp] at hlen
      have hb : s.isBaking = true := by
        cases hb : s.isBaking with
        | true => rfl
        | false => rw [hb] at hlen; simp at hlen
      have hl : l1 = [] ∧ l2 = [] := by
        rw [hb] at hlen
        simp only [List.length_append, List.length_cons, if_true] at hlen
        exact ⟨List.eq_nil_of_length_eq_zero (by omega), List.eq_nil_of_length_eq_zero (by omega)⟩
      obtain ⟨rfl, rfl⟩ := hl
      unfold handleBakery
      dsimp only
      split
      · rename_i hc
        simp only [Bool.and_eq_true, Bool.not_eq_true'] at hc
        obtain ⟨⟨⟨⟨-, -⟩, hd⟩, -⟩, hw⟩ := hc
        refine ⟨hi.win, rfl, fun _ => ?_, (by intro _ _ v hv; cases hv), (by intro h; cases h)⟩
        exact hi.want hd hw v (by rw [hp]; simp)
      · exact ⟨hi.win, rfl, hi.cur, (by intro _ _ v hv; cases hv), hi.dirtyWin⟩
    | repaint2 r => exact inv_pc _ (inv_repaint r hi)

/-- Whatever the user does and whatever the server answers, when the viewer waits and no new preview is due, the window shows
an image of the current view (or the dummy, if the preview failed). -/
theorem C53_current (s : State F) (h : Reachable s) (hpc : s.pc = .wait) (hd : s.renderDirty = false) :
    s.window.Current s.view := by
  have hi := inv_reachable s h
  have hw : s.windowDirty = false := by
    cases h with
    | init => cases hpc
    | step s0 _ hr hst =>
      cases hst with
      | abort1 => cases hpc
      | events1 => cases hpc
      | noEvent => cases hpc
      | repaint1 => cases hpc
      | abort2 => cases hpc
      | events2 => cases hpc
      | bakery => cases hpc
      | repaint2 => cases hpc
      | startBake hp =>
        have : s0.windowDirty = false := by
          cases hr with
          | init => cases hp
          | step s1 _ hr1 hst1 =>
            cases hst1 with
            | abort1 => cases hp
            | events1 => cases hp
            | noEvent => cases hp
            | startBake => cases hp
            | abort2 => cases hp
            | events2 => cases hp
            | bakery => cases hp
            | repaint2 => cases hp
            | repaint1 r =>
              show (repaintIfNeeded s1 r).windowDirty = false
              unfold repaintIfNeeded
              dsimp only
              split
              · rfl
              · rename_i hn; exact Bool.eq_false_iff.2 hn
        show (bakeIfIdle s0).windowDirty = false
        unfold bakeIfIdle
        split
        · exact this
        · exact this
  rw [hi.dirtyWin hw]
  exact hi.cur hd

/-- The moment a high quality image is accepted, it is an image of the current view. -/
theorem C53_accepted (s : State F) (h : Reachable s) (l1 l2 : List (View F)) (v : View F) (empty : Bool)
    (hp : s.pending = l1 ++ v :: l2) (w : View F) (hw : (handleBakery s v empty).lastImg = .bake w)
    (hnew : s.lastImg ≠ .bake w) : (Shown.bake w).Current s.view ∧ s.renderDirty = false ∧ s.preview = false := by
  have hi := inv_reachable s h
  unfold handleBakery at hw
  dsimp only at hw
  split at hw
  · rename_i hc
    simp only [Bool.and_eq_true, Bool.not_eq_true'] at hc
    obtain ⟨⟨⟨⟨-, -⟩, hd⟩, hpr⟩, hwant⟩ := hc
    injection hw with hw
    subst hw
    exact ⟨hi.want hd hwant v (by rw [hp]; simp), hd, hpr⟩
  · exact absurd hw hnew

/-- At most one bake request is pending, and exactly when `isBaking` is set. -/
theorem C53_one_request (s : State F) (h : Reachable s) : s.pending.length = if s.isBaking then 1 else 0 :=
  (inv_reachable s h).pend

/-- `t` is reached from `s` without a new bake request. -/
inductive NoRequest (s : State F) : State F → Prop
  | refl : NoRequest s s
  | step (t u : State F) : NoRequest s t → Step t u → u.pending.length ≤ t.pending.length → NoRequest s u

/-- The next bake is done at a low resolution. -/
private def Coarse (s : State F) : Prop := s.bakeResolution = 0 ∨ s.bakeResolution = 1 ∧ s.isBaking = false

/-- What events do to the resolution. -/
private def SameRes (s t : State F) : Prop :=
  (t.bakeResolution = s.bakeResolution ∨ t.bakeResolution = 0) ∧ t.isBaking = s.isBaking

private theorem SameRes.trans' {s t u : State F} (h1 : SameRes s t) (h2 : SameRes t u) : SameRes s u :=
  ⟨by rcases h2.1 with h | h
      · rw [h]; exact h1.1
      · exact .inr h, h2.2.trans h1.2⟩

private theorem res_event (s : State F) (e : Event F) : SameRes s (handleEvent s e) := by
  cases e with
  | lifecycle dead =>
    cases dead
    · exact ⟨.inl rfl, rfl⟩
    · exact ⟨.inr rfl, rfl⟩
  | size w h => exact ⟨.inl rfl, rfl⟩
  | key press code shift =>
    cases press
    · exact ⟨.inl rfl, rfl⟩
    · cases code <;> cases shift <;> exact ⟨.inl rfl, rfl⟩
  | mouse press release button shift x y =>
    have h1 : SameRes s (handleMouseButton s press release button x y) := by
      unfold handleMouseButton
      dsimp only
      cases press <;> cases release <;> simp only [if_true, Bool.false_eq_true, if_false] <;> split <;>
        exact ⟨.inl rfl, rfl⟩
    refine h1.trans' ?_
    show SameRes _ (handleMouseWheel (handleMouseButton s press release button x y) button shift)
    generalize handleMouseButton s press release button x y = s1
    unfold handleMouseWheel
    split_ifs <;> exact ⟨.inl rfl, rfl⟩
  | paint => exact ⟨.inl rfl, rfl⟩

private theorem res_events (s : State F) (es : List (Event F)) : SameRes s (es.foldl handleEvent s) := by
  induction es generalizing s with
  | nil => exact ⟨.inl rfl, rfl⟩
  | cons e es ih => exact (res_event s e).trans' (ih _)

private theorem res_repaint (s : State F) (r : PreviewResult) : SameRes s (repaintIfNeeded s r) := by
  have h1 : SameRes s (renderIfDirty s r) := by
    unfold renderIfDirty
    split
    · cases r <;> exact ⟨.inr rfl, rfl⟩
    · exact ⟨.inl rfl, rfl⟩
  unfold repaintIfNeeded
  dsimp only
  split
  · exact h1
  · exact h1

private theorem pending_repaint (s : State F) (r : PreviewResult) : (repaintIfNeeded s r).pending = s.pending := by
  have h1 : (renderIfDirty s r).pending = s.pending := by
    unfold renderIfDirty
    split
    · cases r <;> rfl
    · rfl
  unfold repaintIfNeeded
  dsimp only
  split
  · exact h1
  · exact h1

private theorem Coarse.same {s t : State F} (h : Coarse s) (hr : SameRes s t) : Coarse t := by
  rcases hr.1 with e | e
  · unfold Coarse; rw [e, hr.2]; exact h
  · exact .inl e

private theorem coarse_step (s t : State F) (hs : Reachable s) (h : Coarse s) (hst : Step s t)
    (hl : t.pending.length ≤ s.pending.length) : Coarse t := by
  cases hst with
  | abort1 => exact h
  | events1 e es => exact h.same (res_events s (e :: es))
  | noEvent => exact h
  | repaint1 r => exact h.same (res_repaint s r)
  | startBake =>
    change (bakeIfIdle s).pending.length ≤ _ at hl
    show Coarse (bakeIfIdle s)
    unfold bakeIfIdle at hl ⊢
    split
    · rename_i hc
      rw [if_pos hc] at hl
      exfalso
      simp only [goBakeAndSend, List.length_append, List.length_cons, List.length_nil] at hl
      omega
    · exact h
  | abort2 => exact h
  | events2 e es => exact h.same (res_events s (e :: es))
  | bakery l1 v l2 empty hpc hp =>
    have hlen := (inv_reachable s hs).pend
    rw [hp] at hlen
    have hb : s.isBaking = true := by
      cases hb : s.isBaking with
      | true => rfl
      | false => rw [hb] at hlen; simp at hlen
    have h0 : s.bakeResolution = 0 := by
      rcases h with h | ⟨-, h⟩
      · exact h
      · rw [hb] at h; cases h
    right
    show (handleBakery s v empty).bakeResolution = 1 ∧ (handleBakery s v empty).isBaking = false
    unfold handleBakery
    dsimp only
    split
    · exact ⟨by show s.bakeResolution + 1 = 1; rw [h0], rfl⟩
    · exact ⟨by show s.bakeResolution + 1 = 1; rw [h0], rfl⟩
  | repaint2 r => exact h.same (res_repaint s r)

/-- After a change of the view, quality is built up again from the bottom: from the moment the preview is due (`s` is
about to repaint), whatever happens, the next bake request is for an image at a scale of 1/8, or 1/4 if an answer to an
earlier request came in between. -/
theorem C53_coarse (s : State F) (h : Reachable s) (hpc : s.pc = .repaint1 ∨ s.pc = .repaint2)
    (hd : s.renderDirty = true) (s' : State F) (hs' : Step s s') (t : State F) (ht : NoRequest s' t) (u : State F)
    (hu : Step t u) (v : View F) (hv : u.pending = t.pending ++ [v]) :
    SameView v u.view ∧ ∃ d : Int, (d = 8 ∨ d = 4) ∧ v.width = u.view.width.tdiv d ∧
      v.height = u.view.height.tdiv d ∧ v.antiAlias = false := by
  have h0 : Coarse s' := by
    left
    have key : ∀ r, (repaintIfNeeded s r).bakeResolution = 0 := by
      intro r
      have : (renderIfDirty s r).bakeResolution = 0 := by
        unfold renderIfDirty
        rw [if_pos hd]
        cases r <;> rfl
      unfold repaintIfNeeded
      dsimp only
      split <;> exact this
    rcases hpc with hpc | hpc <;> cases hs' <;> simp_all
  have hr' : Reachable s' := .step _ _ h hs'
  obtain ⟨hrt, hct⟩ : Reachable t ∧ Coarse t := by
    clear hu hv
    induction ht with
    | refl => exact ⟨hr', h0⟩
    | step a b _ hab hle ih => exact ⟨.step _ _ ih.1 hab, coarse_step a b ih.1 ih.2 hab hle⟩
  have hlt : u.pending.length = t.pending.length + 1 := by rw [hv]; simp
  have hi := inv_reachable t hrt
  cases hu with
  | abort1 => simp at hlt
  | events1 e es =>
    exfalso
    have := (keeps_events t (e :: es)).pending
    change ((e :: es).foldl handleEvent t).pending.length = _ at hlt
    rw [this] at hlt
    omega
  | noEvent => simp at hlt
  | repaint1 r =>
    exfalso
    change (repaintIfNeeded t r).pending.length = _ at hlt
    rw [pending_repaint] at hlt
    omega
  | startBake =>
    change (bakeIfIdle t).pending = _ at hv
    unfold bakeIfIdle at hv
    split at hv
    · rename_i hc
      have e : v = bakeView t := by
        have := List.append_cancel_left (show t.pending ++ [bakeView t] = t.pending ++ [v] from hv)
        simpa using this.symm
      have hview : ∀ p, ({ bakeIfIdle t with pc := p } : State F).view = t.view := by
        intro p
        show (bakeIfIdle t).view = t.view
        unfold bakeIfIdle
        split <;> rfl
      rw [hview, e]
      refine ⟨rfl, bakeDiv t.bakeResolution 8, ?_, ?_, ?_, ?_⟩
      · rcases hct with h | ⟨h, -⟩ <;> rw [h]
        · exact .inl rfl
        · exact .inr rfl
      · show t.winSize.1.tdiv _ = _
        rw [hi.win]; rfl
      · show t.winSize.2.tdiv _ = _
        rw [hi.win]; rfl
      · show decide (bakeDiv t.bakeResolution 8 = 1) = false
        rcases hct with h | ⟨h, -⟩ <;> rw [h] <;> rfl
    · simp at hv
  | abort2 => simp at hlt
  | events2 e es =>
    exfalso
    have := (keeps_events t (e :: es)).pending
    change ((e :: es).foldl handleEvent t).pending.length = _ at hlt
    rw [this] at hlt
    omega
  | bakery l1 w l2 empty _ hp =>
    exfalso
    change (l1 ++ l2).length = _ at hlt
    rw [hp] at hlt
    simp at hlt
    omega
  | repaint2 r =>
    exfalso
    change (repaintIfNeeded t r).pending.length = _ at hlt
    rw [pending_repaint] at hlt
    omega

/-- Each answer refines the next request: after `n` answers since the view last changed the scale is 1/8, 1/4, 1/2 and
from then on 1, with anti-aliasing. -/
theorem C53_refined (s : State F) :
    (bakeView s).width = s.winSize.1.tdiv (if s.bakeResolution = 0 then 8 else if s.bakeResolution = 1 then 4
      else if s.bakeResolution = 2 then 2 else 1) ∧
    ((bakeView s).antiAlias = true ↔ 3 ≤ s.bakeResolution) ∧
    ∀ v empty, (handleBakery s v empty).bakeResolution = s.bakeResolution + 1 := by
  have e : bakeDiv s.bakeResolution 8 = if s.bakeResolution = 0 then 8 else if s.bakeResolution = 1 then 4
      else if s.bakeResolution = 2 then 2 else 1 := by
    match s.bakeResolution with
    | 0 => rfl
    | 1 => rfl
    | 2 => rfl
    | n + 3 => simp; rfl
  refine ⟨?_, ?_, ?_⟩
  · show s.winSize.1.tdiv (bakeDiv s.bakeResolution 8) = _
    rw [e]
  · show decide (bakeDiv s.bakeResolution 8 = 1) = true ↔ _
    rw [e, decide_eq_true_iff]
    split_ifs <;> omega
  · intro v empty
    unfold handleBakery
    dsimp only
    split <;> rfl

/-- The hypotheses are met: after the first preview the viewer waits for its first bake request, whose image it then shows. -/
example : ∃ s : State F, Reachable s ∧ s.pc = .wait ∧ s.renderDirty = false ∧ s.pending = [bakeView .init] ∧
    ∃ t : State F, Reachable t ∧ t.pc = .wait ∧ t.window = .bake (bakeView .init) := by
  have h1 := Reachable.step _ _ .init (.noEvent (State.init : State F) rfl)
  have h2 := Reachable.step _ _ h1 (.repaint1 _ .image rfl)
  have h3 := Reachable.step _ _ h2 (.startBake _ rfl)
  refine ⟨_, h3, rfl, rfl, rfl, ?_⟩
  have h4 := Reachable.step _ _ h3 (.bakery _ [] (bakeView .init) [] false rfl rfl)
  have h5 := Reachable.step _ _ h4 (.repaint2 _ .image rfl)
  have h6 := Reachable.step _ _ h5 (.noEvent _ rfl)
  have h7 := Reachable.step _ _ h6 (.repaint1 _ .image rfl)
  have h8 := Reachable.step _ _ h7 (.startBake _ rfl)
  exact ⟨_, h8, rfl, rfl⟩

/-- The hypotheses of `C53_coarse` are met, at the start. -/
example : ∃ s s' u : State F, Reachable s ∧ s.pc = .repaint1 ∧ s.renderDirty = true ∧ Step s s' ∧ NoRequest s' s' ∧
    Step s' u ∧ u.pending = s'.pending ++ [bakeView .init] := by
  have h1 := Reachable.step _ _ .init (.noEvent (State.init : State F) rfl)
  exact ⟨_, _, _, h1, rfl, rfl, .repaint1 _ .image rfl, .refl, .startBake _ rfl, rfl⟩

/-- The steps of the loop when the user does nothing and every request is answered with an image. -/
inductive Calm : State F → State F → Prop
  | noEvent (s : State F) : s.pc = .poll → Calm s { s with pc := .repaint1 }
  | repaint1 (s : State F) : s.pc = .repaint1 → Calm s { repaintIfNeeded s .image with pc := .startBake }
  | startBake (s : State F) : s.pc = .startBake → Calm s { bakeIfIdle s with pc := .wait }
  | bakery (s : State F) (l1 : List (View F)) (v : View F) (l2 : List (View F)) : s.pc = .wait →
      s.pending = l1 ++ v :: l2 → Calm s { handleBakery s v false with pending := l1 ++ l2, pc := .repaint2 }
  | repaint2 (s : State F) : s.pc = .repaint2 → Calm s { repaintIfNeeded s .image with pc := .poll }

/-- They are steps of the loop. -/
theorem Calm.step {s t : State F} (h : Calm s t) : Step s t := by
  cases h with
  | noEvent h => exact .noEvent _ h
  | repaint1 h => exact .repaint1 _ _ h
  | startBake h => exact .startBake _ h
  | bakery l1 v l2 h hp => exact .bakery _ l1 v l2 false h hp
  | repaint2 h => exact .repaint2 _ _ h

/-- What is shown is the view `v` at full size and antialiased. -/
def Shown.Full (v : View F) (i : Shown F) : Prop := ∃ w, i = .bake w ∧ SameView w v ∧ w.width = v.width ∧ w.height = v.height ∧ w.antiAlias = true

/-- A state in which a round of the loop starts and no request is on its way. -/
private structure Round (s0 : State F) (n : Nat) (s : State F) : Prop where
  pc : s.pc = .poll
  view : s.view = s0.view
  idle : s.isBaking = false
  pend : s.pending = []
  awake : s.paused = false
  released : s.preview = false
  clean : s.renderDirty = false
  win : s.winSize = (s.view.width, s.view.height)
  drawn : s.windowDirty = false
  res : n ≤ s.bakeResolution

private theorem full_bake {s : State F} (hw : s.winSize = (s.view.width, s.view.height)) (hr : 3 ≤ s.bakeResolution) :
    Shown.Full s.view (.bake (bakeView s)) := by
  obtain ⟨n, hn⟩ : ∃ n, s.bakeResolution = n + 3 := ⟨s.bakeResolution - 3, by omega⟩
  have e : bakeDiv s.bakeResolution maxDownScale = 1 := by rw [hn]; rfl
  refine ⟨_, rfl, ?_, ?_, ?_, ?_⟩
  · unfold bakeView SameView; rw [e]
  · unfold bakeView; rw [e, hw]; simp
  · unfold bakeView; rw [e, hw]; simp
  · unfold bakeView; rw [e]; rfl

private theorem calm_poll {s t : State F} (h : Calm s t) (hp : s.pc = .poll) : t = { s with pc := .repaint1 } := by
  cases h <;> first | rfl | simp_all

private theorem calm_repaint1 {s t : State F} (h : Calm s t) (hp : s.pc = .repaint1) :
    t = { repaintIfNeeded s .image with pc := .startBake } := by
  cases h <;> first | rfl | simp_all

private theorem calm_startBake {s t : State F} (h : Calm s t) (hp : s.pc = .startBake) : t = { bakeIfIdle s with pc := .wait } := by
  cases h <;> first | rfl | simp_all

private theorem calm_wait {s t : State F} (h : Calm s t) (hp : s.pc = .wait) {v : View F} (hs : s.pending = [v]) :
    t = { handleBakery s v false with pending := [], pc := .repaint2 } := by
  cases h with
  | bakery l1 w l2 _ hl =>
    rw [hs] at hl
    obtain ⟨rfl, rfl, rfl⟩ : l1 = [] ∧ v = w ∧ l2 = [] := by
      cases l1 with
      | nil => simpa using hl
      | cons a as => simp at hl
    rfl
  | _ => simp_all

private theorem calm_repaint2 {s t : State F} (h : Calm s t) (hp : s.pc = .repaint2) :
    t = { repaintIfNeeded s .image with pc := .poll } := by
  cases h <;> first | rfl | simp_all

private theorem repaint_clean {s : State F} (h : s.renderDirty = false) :
    repaintIfNeeded s .image = if s.windowDirty then { s with window := s.lastImg, windowDirty := false } else s := by
  unfold repaintIfNeeded renderIfDirty
  simp [h]

private theorem first_round {f : Nat → State F} (hf : ∀ n, Calm (f n) (f (n + 1))) (h0 : Inv (f 0)) (hpc : (f 0).pc = .poll)
    (hp : (f 0).paused = false) (hv : (f 0).preview = false) : Round (f 0) 0 (f 5) := by
  generalize hs0 : f 0 = s at *
  have e1 := calm_poll (hs0 ▸ hf 0) hpc
  have e2 := calm_repaint1 (hf 1) (by rw [e1])
  have hr : (repaintIfNeeded { s with pc := .repaint1 } .image).renderDirty = false ∧
      (repaintIfNeeded { s with pc := .repaint1 } .image).view = s.view ∧
      (repaintIfNeeded { s with pc := .repaint1 } .image).preview = false ∧
      (repaintIfNeeded { s with pc := .repaint1 } .image).paused = false ∧
      (repaintIfNeeded { s with pc := .repaint1 } .image).isBaking = s.isBaking ∧
      (repaintIfNeeded { s with pc := .repaint1 } .image).pending = s.pending ∧
      (repaintIfNeeded { s with pc := .repaint1 } .image).winSize = s.winSize ∧
      (repaintIfNeeded { s with pc := .repaint1 } .image).windowDirty = false := by
    unfold repaintIfNeeded renderIfDirty cancelBaking
    cases s.renderDirty <;> cases s.windowDirty <;> simp [hp, hv]
  rw [e1] at e2
  generalize repaintIfNeeded { s with pc := .repaint1 } .image = s2 at *
  obtain ⟨r1, r2, r3, r4, r5, r6, r7, r8⟩ := hr
  have e3 := calm_startBake (hf 2) (by rw [e2])
  have hb : ∃ v, (f 3).pending = [v] ∧ (f 3).renderDirty = false ∧ (f 3).view = s.view ∧ (f 3).preview = false ∧
      (f 3).paused = false ∧ (f 3).winSize = s.winSize ∧ (f 3).windowDirty = false := by
    rw [e3, e2]
    unfold bakeIfIdle
    have hpend := h0.pend
    cases hk : s.isBaking with
    | false =>
      rw [hk] at hpend
      have : s.pending = [] := List.eq_nil_of_length_eq_zero hpend
      refine ⟨bakeView { s2 with pc := .startBake }, ?_⟩
      simp [r1, r2, r3, r4, r5, r6, r7, r8, hk, goBakeAndSend, this]
    | true =>
      rw [hk] at hpend
      obtain ⟨v, hv1⟩ := List.length_eq_one_iff.1 hpend
      refine ⟨v, ?_⟩
      simp [r1, r2, r3, r4, r5, r6, r7, r8, hk, hv1]
  obtain ⟨v, b1, b2, b3, b4, b5, b6, b7⟩ := hb
  have e4 := calm_wait (hf 3) (by rw [e3]) b1
  have hq : (f 4).renderDirty = false ∧ (f 4).view = s.view ∧ (f 4).preview = false ∧ (f 4).paused = false ∧
      (f 4).winSize = s.winSize ∧ (f 4).isBaking = false ∧ (f 4).pending = [] := by
    rw [e4]
    unfold handleBakery
    dsimp only
    split <;> exact ⟨b2, b3, b4, b5, b6, rfl, rfl⟩
  obtain ⟨q1, q2, q3, q4, q5, q6, q7⟩ := hq
  have e5 := calm_repaint2 (hf 4) (by rw [e4])
  rw [repaint_clean q1] at e5
  rw [e5]
  have hwin := h0.win
  constructor <;> split <;> simp_all

private theorem next_round {f : Nat → State F} {s0 : State F} {k n : Nat} (hf : ∀ n, Calm (f n) (f (n + 1))) (h : Round s0 n (f k)) :
    Round s0 (n + 1) (f (k + 5)) ∧ (∀ i, k ≤ i → i < k + 5 → (f i).window = (f k).window) ∧
      (3 ≤ n → Shown.Full s0.view (f (k + 5)).window) := by
  obtain ⟨h1, h2, h3, h4, h5, h6, h7, h8, h9, h10⟩ := h
  generalize hs : f k = s at *
  have e1 := calm_poll (hs ▸ hf k) h1
  have e2 := calm_repaint1 (hf (k + 1)) (by rw [e1])
  rw [repaint_clean (by rw [e1]; exact h7), e1] at e2
  simp only [h9, Bool.false_eq_true, if_false] at e2
  have e3 := calm_startBake (hf (k + 2)) (by rw [e2])
  have e3' : f (k + 3) = { s with isBaking := true, wantBake := true, pending := [bakeView s], pc := .wait } := by
    rw [e3, e2]
    simp [bakeIfIdle, goBakeAndSend, h3, h4, h5, h6, h7, h9, bakeView]
  have e4 := calm_wait (hf (k + 3)) (by rw [e3']) (v := bakeView s) (by rw [e3'])
  have e4' : f (k + 4) = { s with isBaking := false, wantBake := true, pending := [], pc := .repaint2, lastImg := .bake (bakeView s),
                                  windowDirty := true, bakeResolution := s.bakeResolution + 1 } := by
    rw [e4, e3']
    simp [handleBakery, h6, h7]
  have e5 := calm_repaint2 (hf (k + 4)) (by rw [e4'])
  rw [repaint_clean (by rw [e4']; exact h7), e4'] at e5
  simp only [if_true] at e5
  refine ⟨?_, ?_, ?_⟩
  · rw [e5]
    exact ⟨rfl, h2, rfl, rfl, h5, h6, h7, h8, rfl, by simpa using h10⟩
  · intro i h1 h2
    obtain ⟨j, rfl⟩ := Nat.exists_eq_add_of_le h1
    have : j < 5 := by omega
    match j, this with
    | 0, _ => rw [Nat.add_zero, hs]
    | 1, _ => rw [e1]
    | 2, _ => rw [e2]
    | 3, _ => rw [e3']
    | 4, _ => rw [e4']
  · intro hn
    rw [e5, ← h2]
    exact full_bake h8 (hn.trans h10)

/-- **C88.** If the user leaves the viewer alone, not paused and with the mouse button released, and requests are
answered, then after at most 25 steps of its loop (five rounds) the window shows the current view at full size and
antialiased, and goes on showing it. -/
theorem C88_settles (f : Nat → State F) (h0 : Reachable (f 0)) (hf : ∀ n, Calm (f n) (f (n + 1))) (hpc : (f 0).pc = .poll)
    (hp : (f 0).paused = false) (hv : (f 0).preview = false) :
    ∀ n, 25 ≤ n → Shown.Full (f 0).view (f n).window := by
  have h1 := first_round hf (inv_reachable _ h0) hpc hp hv
  have hk : ∀ k, Round (f 0) k (f (5 + 5 * k)) := by
    intro k
    induction k with
    | zero => exact h1
    | succ k ih => exact (next_round hf ih).1
  have hfull : ∀ k, 3 ≤ k → Shown.Full (f 0).view (f (5 + 5 * (k + 1))).window := fun k h => (next_round hf (hk k)).2.2 h
  intro n hn
  obtain ⟨k, i, hi, rfl⟩ : ∃ k i, i < 5 ∧ n = 5 + 5 * (k + 1) + i := ⟨(n - 10) / 5, (n - 10) % 5, Nat.mod_lt _ (by omega), by omega⟩
  rw [(next_round hf (hk (k + 1))).2.1 _ (by omega) (by omega)]
  exact hfull k (by omega)

/-- **C88.** In particular a viewer that has just been started and is left alone comes to show the full picture. -/
theorem C88_start (f : Nat → State F) (h0 : f 0 = .init) (hf : ∀ n, Calm (f n) (f (n + 1))) :
    ∀ n, 25 ≤ n → Shown.Full (State.init : State F).view (f n).window := by
  have := C88_settles f (h0 ▸ .init) hf (by rw [h0]; rfl) (by rw [h0]; rfl) (by rw [h0]; rfl)
  rwa [h0] at this

/-- The calm steps as a function. -/
private def calm (s : State F) : State F :=
  match s.pc with
  | .poll => { s with pc := .repaint1 }
  | .repaint1 => { repaintIfNeeded s .image with pc := .startBake }
  | .startBake => { bakeIfIdle s with pc := .wait }
  | .wait => match s.pending with
    | [] => s
    | v :: l => { handleBakery s v false with pending := l, pc := .repaint2 }
  | .repaint2 => { repaintIfNeeded s .image with pc := .poll }
  | .stopped => s

private def calmRun : Nat → State F
  | 0 => .init
  | n + 1 => calm (calmRun n)

/-- The hypotheses of `C88_settles` and `C88_start` are met: nothing happens from the start on. -/
example : ∃ f : Nat → State F, f 0 = .init ∧ Reachable (f 0) ∧ (∀ n, Calm (f n) (f (n + 1))) ∧ (f 0).pc = .poll ∧
    (f 0).paused = false ∧ (f 0).preview = false := by
  refine ⟨calmRun, rfl, .init, fun n => ?_, rfl, rfl, rfl⟩
  have key : ∀ n, ∃ s : State F, calmRun n = s ∧ s.preview = false ∧ s.paused = false ∧ s.pc ≠ .stopped ∧
      (s.pc = .startBake → s.renderDirty = false) ∧ (s.pc = .wait → s.pending ≠ []) ∧ s.pending.length = if s.isBaking then 1 else 0 := by
    intro n
    induction n with
    | zero => exact ⟨_, rfl, by simp [calmRun, State.init]⟩
    | succ n ih =>
      obtain ⟨s, e, h1, h2, h3, h4, h5, h6⟩ := ih
      refine ⟨_, rfl, ?_⟩
      rw [calmRun, e]
      unfold calm
      cases hpc : s.pc with
      | poll => simp [h1, h2, h6]
      | repaint1 =>
        unfold repaintIfNeeded renderIfDirty cancelBaking
        cases hd : s.renderDirty <;> cases hw : s.windowDirty <;> simp [h1, h2, h6, hd, hw]
      | startBake =>
        have := h4 hpc
        unfold bakeIfIdle goBakeAndSend
        cases hb : s.isBaking with
        | true =>
          rw [hb] at h6
          have : s.pending ≠ [] := by rintro h; rw [h] at h6; simp at h6
          simp_all
        | false =>
          rw [hb] at h6
          simp_all
      | wait =>
        cases hl : s.pending with
        | nil => exact absurd hl (h5 hpc)
        | cons v l =>
          unfold handleBakery
          dsimp only
          rw [hl] at h6
          have : l = [] := by
            cases hb : s.isBaking <;> rw [hb] at h6
            · simp at h6
            · simpa using h6
          split <;> simp [h1, h2, this]
      | repaint2 =>
        unfold repaintIfNeeded renderIfDirty cancelBaking
        cases hd : s.renderDirty <;> cases hw : s.windowDirty <;> simp [h1, h2, h6, hd, hw]
      | stopped => exact absurd hpc h3
  obtain ⟨s, e, -, -, h3, -, h5, -⟩ := key n
  rw [calmRun, e]
  unfold calm
  cases hpc : s.pc with
  | poll => exact .noEvent _ hpc
  | repaint1 => exact .repaint1 _ hpc
  | startBake => exact .startBake _ hpc
  | wait =>
    cases hl : s.pending with
    | nil => exact absurd hl (h5 hpc)
    | cons v l => exact .bakery _ [] v l hpc hl
  | repaint2 => exact .repaint2 _ hpc
  | stopped => exact absurd hpc h3

end BR.Viewer
