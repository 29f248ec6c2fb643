import Verif.Model.Watch
import Verif.Lemmas.GoM
import Mathlib.Tactic.SplitIfs
import Mathlib.Data.List.Basic

/-! C83: the watcher reruns a program when its source changes. -/

namespace BR

/-- At most the program started last runs. -/
private def Single (s : WatchState) : Prop :=
  (∀ q ∈ s.running, s.last = some q.1 ∧ s.started.head? = some q) ∧ s.running.length ≤ 1 ∧
    ∀ pid, s.last = some pid → ∃ v, s.started.head? = some (pid, v)

private theorem filter_single {s : WatchState} (h : Single s) (f : Nat × Nat → Bool) :
    Single { s with running := s.running.filter f } :=
  ⟨fun q hq => h.1 q (List.mem_filter.1 hq).1, (List.length_filter_le _ _).trans h.2.1, h.2.2⟩

private theorem killed {s : WatchState} (h : Single s) :
    killLast s = { s with running := [] } := by
  unfold killLast
  cases hl : s.last with
  | none =>
    dsimp only
    have : s.running = [] := List.eq_nil_iff_forall_not_mem.2 fun q hq => by
      have := (h.1 q hq).1
      rw [hl] at this
      cases this
    obtain ⟨a, b, c, d⟩ := s
    simp only at this hl
    subst this hl
    rfl
  | some pid =>
    dsimp only
    congr 1
    refine List.filter_eq_nil_iff.2 fun q hq => ?_
    have := (h.1 q hq).1
    rw [hl] at this
    injection this with this
    simp [this]

private theorem rerun_cases {p : Poll} {s s' : WatchState} (h : Single s) (e : rerunProgram p s = .ok s') :
    (p.built = none ∧ s' = { s with running := [] }) ∨
    ∃ v, p.built = some v ∧ p.starts = true ∧ s' = ⟨s.ts, some s.started.length,
      (s.started.length, v) :: s.started, [(s.started.length, v)]⟩ := by
  unfold rerunProgram at e
  simp only [killed h] at e
  cases hb : p.built with
  | none =>
    rw [hb] at e
    cases e
    exact .inl ⟨rfl, rfl⟩
  | some v =>
    rw [hb] at e
    dsimp only at e
    split_ifs at e with hs
    cases e
    exact .inr ⟨v, rfl, hs, rfl⟩

private theorem poll_single {p : Poll} {s s' : WatchState} (h : Single s) (e : pollFile s p = .ok s') : Single s' := by
  unfold pollFile at e
  dsimp only at e
  cases ht : p.stat with
  | none => rw [ht] at e; cases e
  | some t =>
    rw [ht] at e
    dsimp only at e
    have h' := filter_single h fun q => !p.exited q.1
    split_ifs at e with hts
    · obtain ⟨s1, e1, e2⟩ := bind_eq_ok.1 e
      cases e2
      rcases rerun_cases h' e1 with ⟨-, rfl⟩ | ⟨v, -, -, rfl⟩
      · exact ⟨fun q hq => absurd hq (by simp), by simp, h.2.2⟩
      · refine ⟨fun q hq => ?_, by simp, fun pid hpid => ?_⟩
        · rw [List.mem_singleton.1 hq]
          exact ⟨rfl, rfl⟩
        · injection hpid with hpid
          exact ⟨v, by rw [← hpid]; rfl⟩
    · cases e
      exact h'

private theorem watch_single (polls : List Poll) (s0 s : WatchState) (h : Single s0)
    (e : polls.foldlM pollFile s0 = .ok s) : Single s := by
  induction polls generalizing s0 with
  | nil => cases e; exact h
  | cons p ps ih =>
    rw [List.foldlM_cons] at e
    obtain ⟨s1, e1, e2⟩ := bind_eq_ok.1 e
    exact ih s1 (poll_single h e1) e2

private theorem start_single : Single ⟨none, none, [], []⟩ := ⟨by simp, by simp, by simp⟩

/-- **C83, one program at a time.** Whatever happens to the file and to the programs, at most one of the programs runs
at any time, and it is the one that was started last. -/
theorem C83_single (polls : List Poll) (s : WatchState) (h : watchFile polls = .ok s) :
    s.running = [] ∨ ∃ q, s.running = [q] ∧ s.started.head? = some q := by
  obtain ⟨h1, h2, -⟩ := watch_single polls _ s start_single h
  rcases hr : s.running with _ | ⟨q, _ | ⟨q', l⟩⟩
  · exact .inl rfl
  · exact .inr ⟨q, rfl, (h1 q (by rw [hr]; simp)).2⟩
  · rw [hr] at h2
    simp at h2

/-- Modification times identify the contents of the file: who finds the file modified at `t` and compiles it successfully,
and it is still modified at `t` in the next round, has compiled that. -/
def Faithful (t : Nat) (polls : List Poll) : Prop := ∀ p ∈ polls, p.stat = some t → p.built = some t ∧ p.starts = true

/-- After a round that saw time `t`, the program of time `t` is the one started last. -/
private def Current (t : Nat) (s : WatchState) : Prop := s.ts = some t → ∃ pid, s.started.head? = some (pid, t)

private theorem poll_current {t : Nat} {p : Poll} {s s' : WatchState} (h : Single s) (hc : Current t s)
    (hp : p.stat = some t → p.built = some t ∧ p.starts = true) (e : pollFile s p = .ok s') : Current t s' := by
  unfold pollFile at e
  dsimp only at e
  cases ht : p.stat with
  | none => rw [ht] at e; cases e
  | some t' =>
    rw [ht] at e
    dsimp only at e
    split_ifs at e with hts
    · obtain ⟨s1, e1, e2⟩ := bind_eq_ok.1 e
      cases e2
      intro htt
      injection htt with htt
      subst htt
      obtain ⟨b1, b2⟩ := hp ht
      rcases rerun_cases (filter_single h fun q => !p.exited q.1) e1 with ⟨hb, -⟩ | ⟨v, hb, -, rfl⟩
      · rw [b1] at hb; cases hb
      · rw [b1] at hb
        cases hb
        exact ⟨_, rfl⟩
    · cases e
      exact hc

private theorem watch_current {t : Nat} (polls : List Poll) (hf : Faithful t polls) (s0 s : WatchState) (h0 : Single s0)
    (hc : Current t s0) (e : polls.foldlM pollFile s0 = .ok s) : Current t s := by
  induction polls generalizing s0 with
  | nil => cases e; exact hc
  | cons p ps ih =>
    rw [List.foldlM_cons] at e
    obtain ⟨s1, e1, e2⟩ := bind_eq_ok.1 e
    exact ih (fun q hq => hf q (by simp [hq])) s1 (poll_single h0 e1) (poll_current h0 hc (hf p (by simp)) e1) e2

/-- In a round that sees time `t`: nothing is started if the watcher has seen `t` before, else one program. -/
private theorem poll_settled {t : Nat} {p : Poll} {s s' : WatchState} (h : Single s) (ht : p.stat = some t)
    (hp : p.built = some t ∧ p.starts = true) (e : pollFile s p = .ok s') :
    s'.ts = some t ∧ ((s.ts = some t ∧ s'.started = s.started ∧
        s'.running = s.running.filter fun q => !p.exited q.1) ∨
      (s'.started = (s.started.length, t) :: s.started ∧ s'.running = [(s.started.length, t)])) := by
  unfold pollFile at e
  dsimp only at e
  rw [ht] at e
  dsimp only at e
  split_ifs at e with hts
  · obtain ⟨s1, e1, e2⟩ := bind_eq_ok.1 e
    cases e2
    rcases rerun_cases (filter_single h fun q => !p.exited q.1) e1 with ⟨hb, -⟩ | ⟨v, hb, -, rfl⟩
    · rw [hp.1] at hb; cases hb
    · rw [hp.1] at hb
      cases hb
      exact ⟨rfl, .inr ⟨rfl, rfl⟩⟩
  · cases e
    have : s.ts = some t := by
      by_contra hne
      exact hts fun h => hne h.symm
    exact ⟨this, .inl ⟨this, rfl, rfl⟩⟩

private theorem settled (t : Nat) (after : List Poll) (ha : ∀ p ∈ after, p.stat = some t ∧ p.built = some t ∧ p.starts = true)
    (s0 s : WatchState) (h0 : Single s0) (hts : s0.ts = some t) (e : after.foldlM pollFile s0 = .ok s) :
    s.started = s0.started ∧ ∀ q ∈ s0.running, (∀ p ∈ after, p.exited q.1 = false) → q ∈ s.running := by
  induction after generalizing s0 with
  | nil => cases e; exact ⟨rfl, fun q hq _ => hq⟩
  | cons p ps ih =>
    rw [List.foldlM_cons] at e
    obtain ⟨s1, e1, e2⟩ := bind_eq_ok.1 e
    obtain ⟨p1, p2, p3⟩ := ha p (by simp)
    have h1 := poll_single h0 e1
    have : s1.started = s0.started ∧ s1.ts = some t ∧ s1.running = s0.running.filter fun q => !p.exited q.1 := by
      unfold pollFile at e1
      dsimp only at e1
      rw [p1] at e1
      dsimp only at e1
      rw [if_neg (by simp [hts])] at e1
      cases e1
      exact ⟨rfl, hts, rfl⟩
    obtain ⟨a, b⟩ := ih (fun q hq => ha q (by simp [hq])) s1 h1 this.2.1 e2
    refine ⟨a.trans this.1, fun q hq hx => b q ?_ fun r hr => hx r (by simp [hr])⟩
    rw [this.2.2]
    exact List.mem_filter.2 ⟨hq, by simp [hx p (by simp)]⟩

/-- **C83, up to date.** Suppose the file was last modified at `t`, the watcher sees this in one more round or more, and
that version compiles and starts. Then the program started last is that of time `t`, at most one program was started in
these rounds, and that program still runs unless it has ended by itself. -/
theorem C83_current (t : Nat) (before after : List Poll) (hne : after ≠ []) (hb : Faithful t before)
    (ha : ∀ p ∈ after, p.stat = some t ∧ p.built = some t ∧ p.starts = true) (s0 s : WatchState)
    (e0 : watchFile before = .ok s0) (e : watchFile (before ++ after) = .ok s) :
    ∃ pid, s.started.head? = some (pid, t) ∧ s.started.length ≤ s0.started.length + 1 ∧
      (s.running = [] ∨ s.running = [(pid, t)]) ∧
      (s.started.length = s0.started.length + 1 → (∀ p ∈ after, p.exited pid = false) → s.running = [(pid, t)]) := by
  have h0 := watch_single before _ s0 start_single e0
  have c0 := watch_current before hb _ s0 start_single (fun h => by cases h) e0
  have hs := C83_single _ s e
  have e' : after.foldlM pollFile s0 = .ok s := by
    unfold watchFile at e e0
    rw [List.foldlM_append] at e
    obtain ⟨s1, e1, e2⟩ := bind_eq_ok.1 e
    rw [e0] at e1
    cases e1
    exact e2
  obtain ⟨p, ps, rfl⟩ : ∃ p ps, after = p :: ps := by
    cases after with
    | nil => exact absurd rfl hne
    | cons p ps => exact ⟨p, ps, rfl⟩
  rw [List.foldlM_cons] at e'
  obtain ⟨s1, e1, e2⟩ := bind_eq_ok.1 e'
  obtain ⟨p1, p2⟩ := ha p (by simp)
  have h1 := poll_single h0 e1
  have c1 := poll_current h0 c0 (fun _ => p2) e1
  obtain ⟨t1, hcase⟩ := poll_settled h0 p1 p2 e1
  obtain ⟨k1, k2⟩ := settled t ps (fun q hq => ha q (by simp [hq])) s1 s h1 t1 e2
  obtain ⟨pid, hpid⟩ := c1 t1
  have hhead : s.started.head? = some (pid, t) := by rw [k1]; exact hpid
  have hrun : s.running = [] ∨ s.running = [(pid, t)] := by
    rcases hs with h | ⟨q, h, hq⟩
    · exact .inl h
    · rw [hhead] at hq
      cases hq
      exact .inr h
  refine ⟨pid, hhead, ?_, hrun, fun hlen hx => ?_⟩
  · rw [k1]
    rcases hcase with ⟨-, h, -⟩ | ⟨h, -⟩ <;> rw [h] <;> simp
  · rcases hcase with ⟨-, h, -⟩ | ⟨h, hr⟩
    · rw [k1, h] at hlen
      omega
    · rw [h] at hpid
      have hq : (s0.started.length, t) = (pid, t) := by simpa using hpid
      have := k2 (s0.started.length, t) (by rw [hr]; simp) fun r hr => by
        have := hx r (by simp [hr])
        have e3 : s0.started.length = pid := congrArg Prod.fst hq
        rw [e3]
        exact this
      rcases hrun with h | h
      · rw [h] at this
        simp at this
      · exact h

/-- **C83, a broken source stops the old program.** When the changed file does not compile, nothing runs, and the watcher
goes on. -/
theorem C83_broken_source (polls : List Poll) (s : WatchState) (h : watchFile polls = .ok s) (p : Poll) (t : Nat)
    (ht : p.stat = some t) (hts : s.ts ≠ some t) (hb : p.built = none) :
    ∃ s', watchFile (polls ++ [p]) = .ok s' ∧ s'.running = [] ∧ s'.started = s.started ∧ s'.ts = some t := by
  have hs := filter_single (watch_single polls _ s start_single h) fun q => !p.exited q.1
  have e : rerunProgram p { s with running := s.running.filter fun q => !p.exited q.1 } = .ok { s with running := [] } := by
    unfold rerunProgram
    simp only [killed hs, hb]
  refine ⟨{ s with running := [], ts := some t }, ?_, rfl, rfl, rfl⟩
  unfold watchFile at h ⊢
  rw [List.foldlM_append, h, ok_bind, List.foldlM_cons]
  unfold pollFile
  simp only [ht]
  rw [if_pos (fun h => hts h.symm), e]
  rfl

/-- **C83 violated: a program that cannot be started ends the watcher**, with a nil dereference. -/
theorem C83_violated_start (polls : List Poll) (s : WatchState) (h : watchFile polls = .ok s) (p : Poll) (t v : Nat)
    (ht : p.stat = some t) (hts : s.ts ≠ some t) (hb : p.built = some v) (hs : p.starts = false) :
    watchFile (polls ++ [p]) = .error .nilDeref := by
  unfold watchFile at h ⊢
  rw [List.foldlM_append, h, ok_bind, List.foldlM_cons]
  unfold pollFile
  simp only [ht]
  rw [if_pos (fun h => hts h.symm)]
  unfold rerunProgram
  simp only [hb, hs]
  rfl

/-- **C83 violated: an editor that replaces the file ends the watcher**, if it looks while there is no file. -/
theorem C83_violated_missing (polls : List Poll) (s : WatchState) (h : watchFile polls = .ok s) (p : Poll)
    (ht : p.stat = none) : watchFile (polls ++ [p]) = .error (.msg "stat") := by
  unfold watchFile at h ⊢
  rw [List.foldlM_append, h, ok_bind, List.foldlM_cons]
  unfold pollFile
  simp only [ht]
  rfl

/-- Non-vacuity: the file is modified at 1 and, while that is compiled, at 2; the watcher starts the new program twice, and
the second one runs. -/
example : let p1 : Poll := ⟨fun _ => false, some 1, some 2, true⟩
    let p2 : Poll := ⟨fun _ => false, some 2, some 2, true⟩
    Faithful 2 [p1] ∧ watchFile [p1] = .ok ⟨some 1, some 0, [(0, 2)], [(0, 2)]⟩ ∧
    watchFile ([p1] ++ [p2, p2]) = .ok ⟨some 2, some 1, [(1, 2), (0, 2)], [(1, 2)]⟩ := by
  refine ⟨?_, rfl, rfl⟩
  intro p hp h
  rw [List.mem_singleton.1 hp] at h
  cases h

end BR
