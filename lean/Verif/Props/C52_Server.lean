import Verif.Spec.Server
import Mathlib.Tactic.ByContra

/-! C52: bake and cancel requests at the render server. -/

namespace BR.Server

variable {V : Type} [DecidableEq V]

/-- No channel is closed twice, whatever the clients do. -/
theorem C52_no_double_close (s : State V) (h : Run Any s) : s.crashed = false := by
  have : s.crashed = false ∧ (∀ c, s.cancel = some c → s.closed c = false ∧ c < s.channels) ∧
      ∀ c, s.channels ≤ c → s.closed c = false := by
    induction h with
    | init => exact ⟨rfl, (by intro c h; cases h), by intros; rfl⟩
    | step s t a _ _ hst ih =>
      obtain ⟨h1, h2, h3⟩ := ih
      cases hst with
      | bake i v =>
        unfold prepareBakery
        split
        · exact ⟨h1, h2, h3⟩
        · dsimp only
          split <;> refine ⟨h1, ?_, ?_⟩
          · intro c h; cases h; exact ⟨h3 _ (Nat.le_refl _), Nat.lt_succ_self _⟩
          · intro c h; exact h3 c (Nat.le_of_succ_le h)
          · intro c h; cases h; exact ⟨h3 _ (Nat.le_refl _), Nat.lt_succ_self _⟩
          · intro c h; exact h3 c (Nat.le_of_succ_le h)
      | start => exact ⟨h1, h2, h3⟩
      | stop => exact ⟨h1, h2, h3⟩
      | image => exact ⟨h1, h2, h3⟩
      | finish => exact ⟨h1, (by intro c h; cases h), h3⟩
      | cancel =>
        unfold handleCancel
        split
        · exact ⟨h1, h2, h3⟩
        · rename_i c hc
          obtain ⟨h4, h5⟩ := h2 c hc
          refine ⟨by simp [h1, h4], (by intro c h; cases h), ?_⟩
          intro d hd
          dsimp only at hd ⊢
          rw [if_neg (by omega)]
          exact h3 d hd
  exact this.1

/-- The view a thread was asked for and, once it has read it, the sampler it works on. -/
private def Good (s : State V) (i : Nat) : Prop :=
  match s.pc i with
  | .idle => True
  | .prepared v _ => s.smplr = some v
  | .sampling v _ w _ => s.smplr = some v ∧ w = v
  | .sampled v => s.smplr = some v
  | .finished v w => w = v
  | .responded v w => w = v
  | .refused _ => True

omit [DecidableEq V] in
private theorem baking_goto (s : State V) (i j : Nat) (p : Pc V) (h : j ≠ i) : Baking (s.goto i p) j ↔ Baking s j := by
  unfold Baking State.goto; simp [h]

omit [DecidableEq V] in
private theorem good_goto (s : State V) (i j : Nat) (p : Pc V) (h : j ≠ i) : Good (s.goto i p) j ↔ Good s j := by
  unfold Good State.goto; simp [h]

/-- If a bake request is accepted only when no other is being served, one is served at a time and gets the right image. -/
private theorem exclusive (P : State V → Action V → Prop)
    (hP : ∀ s i v, Run P s → P s (.bake i v) → s.cancel = none → ∀ j, ¬ Baking s j) (s : State V) (h : Run P s) :
    (∀ i j, Baking s i → Baking s j → i = j) ∧ ∀ i, Good s i := by
  induction h with
  | init => exact ⟨by intro i j h; exact h.elim, fun i => trivial⟩
  | step s t a hr hp hst ih =>
    obtain ⟨h1, h2⟩ := ih
    -- a step of a thread that was already being served
    have move : ∀ (s' : State V) (i : Nat) (p : Pc V), s'.pc = s.pc → s'.smplr = s.smplr → Baking s i → Good (s'.goto i p) i →
        (∀ k l, Baking (s'.goto i p) k → Baking (s'.goto i p) l → k = l) ∧ ∀ k, Good (s'.goto i p) k := by
      intro s' i p e1 e2 hb hg
      have hs : ∀ k, Baking s' k ↔ Baking s k := by intro k; unfold Baking; rw [e1]
      have hs' : ∀ k, Good s' k ↔ Good s k := by intro k; unfold Good; rw [e1, e2]
      refine ⟨fun k l hk hl => ?_, fun k => ?_⟩
      · by_cases hki : k = i
        · by_cases hli : l = i
          · rw [hki, hli]
          · rw [baking_goto _ _ _ _ hli, hs] at hl
            rw [hki]; exact h1 _ _ hb hl
        · rw [baking_goto _ _ _ _ hki, hs] at hk
          exact absurd (h1 _ _ hk hb) hki
      · by_cases hki : k = i
        · rw [hki]; exact hg
        · rw [good_goto _ _ _ _ hki, hs']; exact h2 k
    cases hst with
    | bake i v hi =>
      unfold prepareBakery
      split
      · refine ⟨fun k l hk hl => ?_, fun k => ?_⟩
        · have hne : ∀ k, Baking (s.goto i (.refused v)) k → k ≠ i := by
            rintro k hk rfl; unfold Baking State.goto at hk; simp at hk
          rw [baking_goto _ _ _ _ (hne _ hk)] at hk
          rw [baking_goto _ _ _ _ (hne _ hl)] at hl
          exact h1 _ _ hk hl
        · by_cases hki : k = i
          · subst hki; unfold Good State.goto; simp
          · rw [good_goto _ _ _ _ hki]; exact h2 k
      · rename_i hc
        have nobody : ∀ j, ¬ Baking s j := hP s i v hr hp hc
        have hg : ∀ (s' : State V), s'.pc = s.pc → ∀ k, k ≠ i → Good (s'.goto i (.prepared v s.channels)) k := by
          intro s' e k hk
          rw [good_goto _ _ _ _ hk]
          have hn := nobody k
          have hk2 := h2 k
          unfold Baking at hn
          unfold Good at hk2 ⊢
          rw [e]
          cases hpc : s.pc k <;> rw [hpc] at hn hk2 <;> first | trivial | exact hk2 | exact absurd trivial hn
        have hb : ∀ (s' : State V), s'.pc = s.pc → ∀ k, Baking (s'.goto i (.prepared v s.channels)) k → k = i := by
          intro s' e k hk
          by_contra hne
          rw [baking_goto _ _ _ _ hne] at hk
          exact nobody k (by unfold Baking at hk ⊢; rwa [e] at hk)
        dsimp only
        split
        · rename_i hsm
          refine ⟨fun k l hk hl => ?_, fun k => ?_⟩
          · rw [hb _ (by rfl) k hk, hb _ (by rfl) l hl]
          · by_cases hki : k = i
            · subst hki; unfold Good State.goto; simpa using hsm
            · exact hg _ (by rfl) k hki
        · refine ⟨fun k l hk hl => ?_, fun k => ?_⟩
          · rw [hb _ (by rfl) k hk, hb _ (by rfl) l hl]
          · by_cases hki : k = i
            · subst hki; unfold Good State.goto; simp
            · exact hg _ (by rfl) k hki
    | start i v c w hi hw =>
      refine move s i _ rfl rfl (by unfold Baking; rw [hi]; trivial) ?_
      have := h2 i
      unfold Good at this
      rw [hi] at this
      have e : s.smplr = some v := this
      rw [e] at hw; cases hw
      unfold Good State.goto; simpa using e
    | stop i v c w n hi =>
      refine move s i _ rfl rfl (by unfold Baking; rw [hi]; trivial) ?_
      have := h2 i
      unfold Good at this
      rw [hi] at this
      have e : s.smplr = some v := this.1
      unfold Good State.goto; simpa using e
    | image i v w hi hw =>
      refine move s i _ rfl rfl (by unfold Baking; rw [hi]; trivial) ?_
      have := h2 i
      unfold Good at this
      rw [hi] at this
      have e : s.smplr = some v := this
      rw [e] at hw; cases hw
      unfold Good State.goto; simp
    | finish i v w hi =>
      refine move (deferred s) i _ rfl rfl (by unfold Baking; rw [hi]; trivial) ?_
      have := h2 i
      unfold Good at this
      rw [hi] at this
      have e : w = v := this
      unfold Good State.goto; simpa using e
    | cancel =>
      unfold handleCancel
      split
      · exact ⟨h1, h2⟩
      · exact ⟨h1, h2⟩

omit [DecidableEq V] in
private theorem responded_of_good {s : State V} {i : Nat} {v w : V} (h : Good s i) (hp : s.pc i = .responded v w) : w = v := by
  unfold Good at h; rw [hp] at h; exact h

/-- As long as nobody cancels, at most one bake request is served at a time and every response is an image of the view that
was asked for. (The full property allows cancel requests; it is false, see below.) -/
theorem C52_uncancelled_partial (s : State V) (h : Run Uncancelled s) :
    (∀ i j, Baking s i → Baking s j → i = j) ∧ ∀ i v w, s.pc i = .responded v w → w = v := by
  have key : ∀ s : State V, Run Uncancelled s → (∀ i j, Baking s i → Baking s j → i = j) ∧
      (s.cancel = none → ∀ j, ¬ Baking s j) := by
    intro s h
    induction h with
    | init => exact ⟨by intro i j h; exact h.elim, by intro _ j h; exact h⟩
    | step s t a hr hp hst ih =>
      obtain ⟨h1, h2⟩ := ih
      have same : ∀ (s' : State V) (i : Nat) (p : Pc V), s'.pc = s.pc → s'.cancel = s.cancel → Baking s i →
          (∀ k l, Baking (s'.goto i p) k → Baking (s'.goto i p) l → k = l) ∧
            ((s'.goto i p).cancel = none → ∀ j, ¬ Baking (s'.goto i p) j) := by
        intro s' i p e1 e2 hb
        have hs : ∀ k, Baking s' k ↔ Baking s k := by intro k; unfold Baking; rw [e1]
        have all : ∀ k, Baking (s'.goto i p) k → k = i := by
          intro k hk
          by_contra hne
          rw [baking_goto _ _ _ _ hne, hs] at hk
          exact hne (h1 _ _ hk hb)
        refine ⟨fun k l hk hl => by rw [all k hk, all l hl], fun hc j hj => ?_⟩
        exact h2 (e2 ▸ hc) i hb
      cases hst with
      | bake i v hi =>
        unfold prepareBakery
        split
        · rename_i c hc
          have hne : ∀ k, Baking (s.goto i (.refused v)) k → k ≠ i := by
            rintro k hk rfl; unfold Baking State.goto at hk; simp at hk
          refine ⟨fun k l hk hl => ?_, fun hn => ?_⟩
          · rw [baking_goto _ _ _ _ (hne _ hk)] at hk
            rw [baking_goto _ _ _ _ (hne _ hl)] at hl
            exact h1 _ _ hk hl
          · change s.cancel = none at hn
            rw [hc] at hn; cases hn
        · rename_i hc
          have hb : ∀ (s' : State V), s'.pc = s.pc → ∀ k, Baking (s'.goto i (.prepared v s.channels)) k → k = i := by
            intro s' e k hk
            by_contra hne
            rw [baking_goto _ _ _ _ hne] at hk
            exact h2 hc k (by unfold Baking at hk ⊢; rwa [e] at hk)
          dsimp only
          split
          · exact ⟨fun k l hk hl => by rw [hb _ (by rfl) k hk, hb _ (by rfl) l hl], fun hn => by cases hn⟩
          · exact ⟨fun k l hk hl => by rw [hb _ (by rfl) k hk, hb _ (by rfl) l hl], fun hn => by cases hn⟩
      | start i v c w hi hw => exact same s i _ rfl rfl (by unfold Baking; rw [hi]; trivial)
      | stop i v c w n hi => exact same s i _ rfl rfl (by unfold Baking; rw [hi]; trivial)
      | image i v w hi hw => exact same s i _ rfl rfl (by unfold Baking; rw [hi]; trivial)
      | finish i v w hi =>
        have hb : Baking s i := by unfold Baking; rw [hi]; trivial
        have nobody : ∀ j, ¬ Baking ((deferred s).goto i (.responded v w)) j := by
          intro j hj
          by_cases hji : j = i
          · subst hji; unfold Baking State.goto at hj; simp at hj
          · rw [baking_goto _ _ _ _ hji] at hj
            exact hji (h1 _ _ hj hb)
        exact ⟨fun k l hk => absurd hk (nobody k), fun _ => nobody⟩
      | cancel => exact hp.elim
  have := exclusive Uncancelled (fun s i v hr _ hc => (key s hr).2 hc) s h
  exact ⟨this.1, fun i v w hp => responded_of_good (this.2 i) hp⟩

/-- With a client that waits for the response to its bake request before it sends another, and that may send cancel requests
at any time, at most one bake request is served at a time, none is refused and every response is an image of the view that
was asked for. -/
theorem C52_client_partial (s : State V) (h : Run Polite s) :
    (∀ i j, Baking s i → Baking s j → i = j) ∧ (∀ i v w, s.pc i = .responded v w → w = v) ∧
      ∀ i v, s.pc i ≠ .refused v := by
  have := exclusive Polite (fun s i v _ hp _ => hp) s h
  refine ⟨this.1, fun i v w hp => responded_of_good (this.2 i) hp, ?_⟩
  have key : (s.cancel ≠ none → ∃ j, Baking s j) ∧ ∀ i v, s.pc i ≠ .refused v := by
    clear this
    induction h with
    | init => exact ⟨fun h => absurd rfl h, by intro i v h; cases h⟩
    | step s t a hr hp hst ih =>
      obtain ⟨h1, h2⟩ := ih
      have move : ∀ (i : Nat) (p : Pc V), (∀ v, p ≠ .refused v) → Baking (s.goto i p) i →
          ((s.goto i p).cancel ≠ none → ∃ j, Baking (s.goto i p) j) ∧ ∀ k v, (s.goto i p).pc k ≠ .refused v := by
        intro i p hp hb
        refine ⟨fun _ => ⟨i, hb⟩, fun k v => ?_⟩
        unfold State.goto
        dsimp only
        split
        · exact hp v
        · exact h2 k v
      cases hst with
      | bake i v hi =>
        have hc : s.cancel = none := by
          by_contra hne
          obtain ⟨j, hj⟩ := h1 hne
          exact hp j hj
        have hpc : ∀ (s' : State V), s'.pc = s.pc →
            ((s'.goto i (.prepared v s.channels)).cancel ≠ none → ∃ j, Baking (s'.goto i (.prepared v s.channels)) j) ∧
              ∀ k w, (s'.goto i (.prepared v s.channels)).pc k ≠ .refused w := by
          intro s' e
          refine ⟨fun _ => ⟨i, by unfold Baking State.goto; simp⟩, fun k w => ?_⟩
          unfold State.goto
          dsimp only
          split
          · intro h; cases h
          · rw [e]; exact h2 k w
        unfold prepareBakery
        rw [hc]
        dsimp only
        split
        · exact hpc _ (by rfl)
        · exact hpc _ (by rfl)
      | start i v c w hi hw => exact move i _ (by intro v h; cases h) (by unfold Baking State.goto; simp)
      | stop i v c w n hi => exact move i _ (by intro v h; cases h) (by unfold Baking State.goto; simp)
      | image i v w hi hw => exact move i _ (by intro v h; cases h) (by unfold Baking State.goto; simp)
      | finish i v w hi =>
        refine ⟨fun h => absurd rfl h, fun k x => ?_⟩
        unfold State.goto
        dsimp only
        split
        · intro h; cases h
        · exact h2 k x
      | cancel =>
        unfold handleCancel
        split
        · exact ⟨h1, h2⟩
        · exact ⟨fun h => absurd rfl h, h2⟩
  exact key.2

/-- The view asked for by a thread that is being served. -/
private def asked (s : State V) (i : Nat) : Option V :=
  match s.pc i with
  | .prepared v _ | .sampling v _ _ _ | .sampled v | .finished v _ => some v
  | _ => none

omit [DecidableEq V] in
private theorem baking_iff (s : State V) (i : Nat) : Baking s i ↔ ∃ v, asked s i = some v := by
  unfold Baking asked
  cases s.pc i <;> simp

omit [DecidableEq V] in
private theorem asked_goto (s : State V) (i j : Nat) (p : Pc V) (h : j ≠ i) : asked (s.goto i p) j = asked s j := by
  unfold asked State.goto; simp [h]

omit [DecidableEq V] in
private theorem asked_pc (s t : State V) (e : t.pc = s.pc) (j : Nat) : asked t j = asked s j := by
  unfold asked; rw [e]

private theorem run_of_history {P : State V → Action V → Prop} {L : List V} {s : State V} (h : History P L s) : Run P s := by
  induction h with
  | init => exact .init
  | answer L s t i v w _ hp hst _ ih => exact .step _ _ _ ih hp hst
  | other L s t a _ hp hst _ ih => exact .step _ _ _ ih hp hst

/-- What holds between requests of a polite client. -/
private structure Counted (L : List V) (s : State V) : Prop where
  count : ∀ v, s.smplr = some v → s.smplrNum = 1 + (L.takeWhile (· = v)).length
  idle : (∀ j, ¬ Baking s j) → s.smplr = L.head?
  asked : ∀ i v, asked s i = some v → s.smplr = some v
  passes : ∀ i v c w n, s.pc i = .sampling v c w n → w = v ∧ n = s.smplrNum

private theorem counted (L : List V) (s : State V) (h : History Polite L s) : Counted L s := by
  induction h with
  | init =>
    refine ⟨(by intro v h; cases h), fun _ => rfl, (by intro i v h; cases h), (by intro i v c w n h; cases h)⟩
  | answer L s t i v w hr hp hst hresp ih =>
    have hx := (exclusive Polite (fun s i v _ hp _ => hp) s (run_of_history hr)).1
    cases hst with
    | finish _ v' w' hi =>
      have e : v' = v := by
        simp only [State.goto, if_true] at hresp
        cases hresp; rfl
      subst e
      have ha : asked s i = some v' := by unfold asked; rw [hi]
      have hs := ih.asked i v' ha
      have hb : Baking s i := (baking_iff s i).2 ⟨v', ha⟩
      refine ⟨?_, ?_, ?_, ?_⟩
      · intro x hx'
        change s.smplr = some x at hx'
        rw [hs] at hx'; cases hx'
        show s.smplrNum + 1 = _
        rw [ih.count v' hs]
        simp
        omega
      · intro _
        exact hs
      · intro j x hj
        by_cases hji : j = i
        · subst hji; unfold BR.Server.asked State.goto at hj; simp at hj
        · rw [asked_goto _ _ _ _ hji, asked_pc s (deferred s) rfl] at hj
          exact absurd (hx j i ((baking_iff s j).2 ⟨x, hj⟩) hb) hji
      · intro j a c b n hj
        by_cases hji : j = i
        · subst hji; simp [State.goto] at hj
        · have hj' : s.pc j = .sampling a c b n := by
            simpa [State.goto, hji, deferred] using hj
          have : Baking s j := by unfold Baking; rw [hj']; trivial
          exact absurd (hx j i this hb) hji
  | other L s t a hr hp hst hne ih =>
    have move : ∀ (i : Nat) (p : Pc V) (v : V), BR.Server.asked s i = some v → BR.Server.asked (s.goto i p) i = some v →
        (∀ v c w n, p = .sampling v c w n → w = v ∧ n = s.smplrNum) → Counted L (s.goto i p) := by
      intro i p v ha ha' hpn
      refine ⟨ih.count, ?_, ?_, ?_⟩
      · intro hn
        exact absurd ((baking_iff _ i).2 ⟨v, ha'⟩) (hn i)
      · intro j x hj
        by_cases hji : j = i
        · subst hji
          rw [ha'] at hj; cases hj
          exact ih.asked _ _ ha
        · rw [asked_goto _ _ _ _ hji] at hj
          exact ih.asked _ _ hj
      · intro j a c b n hj
        by_cases hji : j = i
        · subst hji
          simp only [State.goto, if_true] at hj
          exact hpn _ _ _ _ hj
        · have hj' : s.pc j = .sampling a c b n := by simpa [State.goto, hji] using hj
          exact ih.passes j a c b n hj'
    cases hst with
    | bake i v hi =>
      have nobody : ∀ j, ¬ Baking s j := hp
      have hnone : ∀ j, BR.Server.asked s j = none := by
        intro j
        cases hj : BR.Server.asked s j with
        | none => rfl
        | some x => exact absurd ((baking_iff s j).2 ⟨x, hj⟩) (nobody j)
      unfold prepareBakery
      split
      · rename_i c hc
        refine ⟨ih.count, ?_, ?_, ?_⟩
        · intro _
          exact ih.idle nobody
        · intro j x hj
          by_cases hji : j = i
          · subst hji; unfold BR.Server.asked State.goto at hj; simp at hj
          · rw [asked_goto _ _ _ _ hji, hnone] at hj; cases hj
        · intro j a c b n hj
          by_cases hji : j = i
          · subst hji; simp [State.goto] at hj
          · have hj' : s.pc j = .sampling a c b n := by simpa [State.goto, hji] using hj
            exact ih.passes j a c b n hj'
      · have go : ∀ s2 : State V, s2.pc = s.pc → s2.smplr = some v →
            s2.smplrNum = 1 + (L.takeWhile (· = v)).length → Counted L (s2.goto i (.prepared v s.channels)) := by
          intro s2 e1 e2 e3
          refine ⟨?_, ?_, ?_, ?_⟩
          · intro x hx
            change s2.smplr = some x at hx
            rw [e2] at hx; cases hx
            exact e3
          · intro hn
            refine absurd ?_ (hn i)
            unfold Baking State.goto; simp
          · intro j x hj
            by_cases hji : j = i
            · subst hji
              unfold BR.Server.asked State.goto at hj
              simp only [if_true] at hj
              cases hj
              exact e2
            · rw [asked_goto _ _ _ _ hji, asked_pc s s2 e1, hnone] at hj; cases hj
          · intro j a c b n hj
            by_cases hji : j = i
            · subst hji; simp [State.goto] at hj
            · have hj' : s.pc j = .sampling a c b n := by
                rw [← e1]; simpa [State.goto, hji] using hj
              have : Baking s j := by unfold Baking; rw [hj']; trivial
              exact absurd this (nobody j)
        dsimp only
        split
        · rename_i hsm
          exact go _ (by rfl) hsm (ih.count v hsm)
        · rename_i hsm
          refine go _ (by rfl) (by rfl) ?_
          have hh := ih.idle nobody
          have : L.takeWhile (· = v) = [] := by
            cases L with
            | nil => rfl
            | cons x L =>
              rw [hh] at hsm
              simp only [List.head?_cons, Option.some.injEq] at hsm
              rw [List.takeWhile_cons]
              simp [hsm]
          show 1 = _
          rw [this]; rfl
    | start i v c w hi hw =>
      have ha : BR.Server.asked s i = some v := by unfold BR.Server.asked; rw [hi]
      refine move i _ v ha (by unfold BR.Server.asked State.goto; simp) ?_
      intro v' c' w' n' e
      cases e
      have := ih.asked i v ha
      rw [hw] at this; cases this
      exact ⟨rfl, rfl⟩
    | stop i v c w n hi =>
      exact move i _ v (by unfold BR.Server.asked; rw [hi]) (by unfold BR.Server.asked State.goto; simp)
        (by intro _ _ _ _ e; cases e)
    | image i v w hi hw =>
      exact move i _ v (by unfold BR.Server.asked; rw [hi]) (by unfold BR.Server.asked State.goto; simp)
        (by intro _ _ _ _ e; cases e)
    | finish i v w hi => exact absurd rfl (hne i)
    | cancel =>
      have e : ∀ c b z, Counted L { s with cancel := c, closed := b, crashed := z } := fun _ _ _ => ⟨ih.count, ih.idle, ih.asked, ih.passes⟩
      unfold handleCancel
      split
      · exact ih
      · exact e _ _ _

/-- Quality builds up: with a client that waits for each response, the `k`-th request for the same view in a row does
`k` passes (on top of the passes of the previous ones, because the sampler is kept). `L` are the views of the requests
answered so far, the last one first. -/
theorem C52_passes_partial (L : List V) (s : State V) (h : History Polite L s) (i : Nat) (v w : V) (c n : Nat)
    (hp : s.pc i = .sampling v c w n) : w = v ∧ n = (L.takeWhile (· = v)).length + 1 := by
  have hc := counted L s h
  obtain ⟨rfl, rfl⟩ := hc.passes i v c w n hp
  refine ⟨rfl, ?_⟩
  rw [hc.count w (hc.asked i w (by unfold asked; rw [hp]))]
  omega

/-- The second request for view 0. -/
example : ∃ s : State Nat, History Polite [0] s ∧ ∃ c n, s.pc 1 = .sampling 0 c 0 n ∧ n = 2 := by
  have h1 : History Polite [] (prepareBakery (.init : State Nat) 0 0) :=
    .other _ _ _ (.bake 0 0) .init (by intro j h; exact h) (.bake _ 0 0 rfl) (by intro i h; cases h)
  have h2 := History.other _ _ _ (.start 0) h1 trivial (.start _ 0 0 0 0 rfl rfl) (by intro i h; cases h)
  have h3 := History.other _ _ _ (.stop 0) h2 trivial (.stop _ 0 0 0 0 1 rfl) (by intro i h; cases h)
  have h4 := History.other _ _ _ (.image 0) h3 trivial (.image _ 0 0 0 rfl rfl) (by intro i h; cases h)
  have h5 := History.answer _ _ _ 0 0 0 h4 trivial (.finish _ 0 0 0 rfl) rfl
  have h6 := History.other _ _ _ (.bake 1 0) h5 (by
    intro j hj
    unfold Baking at hj
    by_cases e : j = 0
    · subst e; exact hj
    · simp [State.goto, deferred, e, prepareBakery, State.init] at hj) (.bake _ 1 0 rfl) (by intro i h; cases h)
  have h7 := History.other _ _ _ (.start 1) h6 trivial (.start _ 1 0 1 0 rfl rfl) (by intro i h; cases h)
  exact ⟨_, h7, 1, 2, rfl, rfl⟩

/-- A bake request for view 0 that is being sampled. -/
private theorem one_baking : ∃ s : State Nat, Run Any s ∧ Run Polite s ∧ Run Uncancelled s ∧ s.pc 0 = .sampling 0 0 0 1 ∧
    s.cancel = some 0 ∧ s.smplr = some 0 ∧ s.pc 1 = .idle := by
  have go : ∀ P : State Nat → Action Nat → Prop, P .init (.bake 0 0) → (∀ s, P s (.start 0)) →
      Run P ((prepareBakery (.init : State Nat) 0 0).goto 0 (.sampling 0 0 0 1)) := by
    intro P h1 h2
    exact .step _ _ (.start 0) (.step _ _ (.bake 0 0) .init h1 (.bake _ 0 0 rfl)) (h2 _)
      (.start (prepareBakery .init 0 0) 0 0 0 0 rfl rfl)
  exact ⟨_, go Any trivial (fun _ => trivial), go Polite (by intro j h; exact h) (fun _ => trivial),
    go Uncancelled trivial (fun _ => trivial), rfl, rfl, rfl, rfl⟩

/-- The hypotheses of the theorems above are met while a bake request is being served. -/
example : ∃ s : State Nat, Run Polite s ∧ Run Uncancelled s ∧ Baking s 0 := by
  obtain ⟨s, -, h1, h2, h3, -⟩ := one_baking
  exact ⟨s, h1, h2, by unfold Baking; rw [h3]; trivial⟩

/-- After a cancel request the next bake request is accepted although the cancelled one is still sampling: two threads sample
the same sampler at the same time. -/
theorem C52_violated : ∃ s : State Nat, Run Any s ∧ (∃ c n, s.pc 0 = .sampling 0 c 0 n) ∧ ∃ c n, s.pc 1 = .sampling 0 c 0 n := by
  obtain ⟨s, hr, -, -, h0, hc, hs, h1⟩ := one_baking
  have r1 : Run Any (handleCancel s) := .step _ _ .cancel hr trivial (.cancel s)
  have e1 : handleCancel s =
      { s with crashed := s.crashed || s.closed 0, closed := fun j => if j = 0 then true else s.closed j, cancel := none } := by
    unfold handleCancel; rw [hc]
  rw [e1] at r1
  have r2 := Run.step _ _ (.bake 1 0) r1 trivial (.bake _ 1 0 h1)
  unfold prepareBakery at r2
  dsimp only at r2
  rw [if_pos hs] at r2
  have r3 := Run.step _ _ (.start 1) r2 trivial (.start _ 1 0 s.channels 0 (by simp [State.goto]) hs)
  exact ⟨_, r3, ⟨0, 1, by simpa [State.goto] using h0⟩, ⟨s.channels, _, by simp only [State.goto, if_true]; rfl⟩⟩

/-- A cancelled bake request can be answered with an image of another view. -/
theorem C52_violated_image : ∃ s : State Nat, Run Any s ∧ s.pc 0 = .responded 0 1 := by
  obtain ⟨s, hr, -, -, h0, hc, hs, h1⟩ := one_baking
  have r1 : Run Any (handleCancel s) := .step _ _ .cancel hr trivial (.cancel s)
  have e1 : handleCancel s =
      { s with crashed := s.crashed || s.closed 0, closed := fun j => if j = 0 then true else s.closed j, cancel := none } := by
    unfold handleCancel; rw [hc]
  rw [e1] at r1
  have r2 := Run.step _ _ (.bake 1 1) r1 trivial (.bake _ 1 1 h1)
  unfold prepareBakery at r2
  dsimp only at r2
  rw [if_neg (by rw [hs]; simp)] at r2
  have r3 := Run.step _ _ (.stop 0) r2 trivial (.stop _ 0 0 0 0 1 (by simpa [State.goto] using h0))
  have r4 := Run.step _ _ (.image 0) r3 trivial (.image _ 0 0 1 (by simp [State.goto]) rfl)
  have r5 := Run.step _ _ (.finish 0) r4 trivial (.finish _ 0 0 1 (by simp [State.goto]))
  exact ⟨_, r5, by simp [State.goto]⟩

end BR.Server
