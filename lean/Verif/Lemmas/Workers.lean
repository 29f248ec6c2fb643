import Verif.Model.Workers
import Verif.Spec.Sampler
import Verif.Props.C01_Tiles
import Mathlib.Algebra.BigOperators.Group.Finset.Basic
import Mathlib.Algebra.BigOperators.Fin
import Mathlib.Data.Fintype.BigOperators
import Mathlib.Tactic.ByContra

/-! The invariant of the concurrent sampler and its termination measure. -/

namespace BR

set_option linter.unusedSectionVars false

variable {F : Type} [Add F] [Sub F] [Mul F] [Div F] [Neg F] [GoFloat F]
variable {C : Type} {W : Nat} {sh : Shader F C} {w h : Nat} {aa : Bool} {nPass : Nat}
variable {I : C → Prop} {g : Pixel → Nat → Color F} {m0 : Pixel → Cell F}

/-- Pixels a worker still has to finish. -/
def wpix : Worker F C → List Pixel
  | .busy _ p rest _ _ => p :: rest
  | _ => []

/-- Pixels of the tiles still in the queue. -/
def pend (q : List Tile) : List Pixel := q.flatMap Tile.pixels

/-- Accumulator contents at each program point. -/
def StageOK (g : Nat → Color F) (m0 : Cell F) (nPass left : Nat) (st : Stage F) (cur : Cell F) : Prop :=
  1 ≤ left ∧ left ≤ nPass ∧
  let s := accumulate g m0 (nPass - left)
  match st with
  | .start => cur = s
  | .gotK k => cur = s ∧ k = s.n
  | .gotN k m => cur = s ∧ k = s.n ∧ m = s.n
  | .counted k => cur = { s with n := s.n + 1 } ∧ k = s.n
  | .colored c => cur = { s with n := s.n + 1 } ∧ c = g s.n ∧ c.isNaN = false
  | .gotSum c σ => cur = { s with n := s.n + 1 } ∧ c = g s.n ∧ c.isNaN = false ∧ σ = s.sum
  | .summed c => cur = { s with n := s.n + 1, sum := s.sum.add c } ∧ c = g s.n ∧ c.isNaN = false
  | .gotSq c q => cur = { s with n := s.n + 1, sum := s.sum.add c } ∧ c = g s.n ∧ c.isNaN = false ∧
      q = s.sumSq

/-- The invariant. -/
structure SInv (w h nPass : Nat) (I : C → Prop) (g : Pixel → Nat → Color F) (m0 : Pixel → Cell F)
    (s : SamplerState F C W) : Prop where
  notCrashed : s.crashed = false
  pend_nodup : (pend s.queue).Nodup
  w_nodup : ∀ i, (wpix (s.ws i)).Nodup
  w_pend : ∀ i, (wpix (s.ws i)).Disjoint (pend s.queue)
  w_w : ∀ i j, i ≠ j → (wpix (s.ws i)).Disjoint (wpix (s.ws j))
  pend_in : ∀ p ∈ pend s.queue, p.1 < w ∧ p.2 < h
  w_in : ∀ i, ∀ p ∈ wpix (s.ws i), p.1 < w ∧ p.2 < h
  pend_mem : ∀ p ∈ pend s.queue, s.mem p = m0 p
  busy_ok : ∀ i ctx p rest left st, s.ws i = .busy ctx p rest left st →
    I ctx ∧ StageOK (g p) (m0 p) nPass left st (s.mem p) ∧ ∀ q ∈ rest, s.mem q = m0 q
  idle_ok : ∀ i ctx, s.ws i = .idle ctx → I ctx
  done_mem : ∀ p, p.1 < w → p.2 < h → p ∉ pend s.queue → (∀ i, p ∉ wpix (s.ws i)) →
    s.mem p = accumulate (g p) (m0 p) nPass
  out_mem : ∀ p, ¬ (p.1 < w ∧ p.2 < h) → s.mem p = m0 p

theorem wpix_next (ctx : C) (ps : List Pixel) :
    wpix (nextPixel nPass ctx ps : Worker F C) = if nPass = 0 then [] else ps := by
  cases ps with
  | nil => simp [nextPixel, wpix]
  | cons p ps => by_cases hn : nPass = 0 <;> simp [nextPixel, wpix, hn]

/-- Worker `i` moves to another point of the same pixel, writing that pixel's accumulator. -/
theorem SInv.continue {s : SamplerState F C W} (hs : SInv w h nPass I g m0 s) (i : Fin W)
    {ctx p rest left st} (hi : s.ws i = .busy ctx p rest left st)
    {ctx' left' st' c} (hI : I ctx') (hok : StageOK (g p) (m0 p) nPass left' st' c) :
    SInv w h nPass I g m0 { s with
      mem := Function.update s.mem p c
      ws := Function.update s.ws i (.busy ctx' p rest left' st') } := by
  have hw : ∀ j, wpix (Function.update s.ws i (.busy ctx' p rest left' st') j) = wpix (s.ws j) := by
    intro j
    by_cases hj : j = i
    · subst hj; rw [Function.update_self, hi]; rfl
    · rw [Function.update_of_ne hj]
  have hpi : p ∈ wpix (s.ws i) := by rw [hi]; simp [wpix]
  have hnd := hs.w_nodup i
  rw [hi] at hnd
  have hprest : p ∉ rest := (List.nodup_cons.1 hnd).1
  refine ⟨hs.notCrashed, hs.pend_nodup, ?_, ?_, ?_, hs.pend_in, ?_, ?_, ?_, ?_, ?_, ?_⟩
  · intro j; simp only [hw]; exact hs.w_nodup j
  · intro j; simp only [hw]; exact hs.w_pend j
  · intro j k hjk; simp only [hw]; exact hs.w_w j k hjk
  · intro j; simp only [hw]; exact hs.w_in j
  · intro q hq
    have : q ≠ p := fun e => hs.w_pend i hpi (e ▸ hq)
    simp only [Function.update_of_ne this]
    exact hs.pend_mem q hq
  · intro j ctx1 p1 rest1 left1 st1 hj
    by_cases hji : j = i
    · subst hji
      simp only [Function.update_self, Worker.busy.injEq] at hj
      obtain ⟨rfl, rfl, rfl, rfl, rfl⟩ := hj
      refine ⟨hI, by simpa using hok, ?_⟩
      intro q hq
      have : q ≠ p := fun e => hprest (e ▸ hq)
      simp only [Function.update_of_ne this]
      exact (hs.busy_ok j _ _ _ _ _ hi).2.2 q hq
    · simp only [Function.update_of_ne hji] at hj
      obtain ⟨h1, h2, h3⟩ := hs.busy_ok j _ _ _ _ _ hj
      have hdis := hs.w_w j i hji
      rw [hj] at hdis
      have hne : ∀ q ∈ p1 :: rest1, q ≠ p := fun q hq e => hdis hq (e ▸ hpi)
      refine ⟨h1, ?_, ?_⟩
      · simp only [Function.update_of_ne (hne p1 (by simp))]; exact h2
      · intro q hq
        simp only [Function.update_of_ne (hne q (by simp [hq]))]; exact h3 q hq
  · intro j ctx1 hj
    by_cases hji : j = i
    · subst hji; simp at hj
    · simp only [Function.update_of_ne hji] at hj; exact hs.idle_ok j _ hj
  · intro q hq1 hq2 hq3 hq4
    simp only [hw] at hq4
    have : q ≠ p := fun e => hq4 i (e ▸ hpi)
    simp only [Function.update_of_ne this]
    exact hs.done_mem q hq1 hq2 hq3 hq4
  · intro q hq
    have : q ≠ p := fun e => hq (e ▸ hs.w_in i p hpi)
    simp only [Function.update_of_ne this]
    exact hs.out_mem q hq

/-- Worker `i` finishes a pixel and goes on with the rest of its tile. -/
theorem SInv.finish {s : SamplerState F C W} (hs : SInv w h nPass I g m0 s) (i : Fin W)
    {ctx p rest left st} (hi : s.ws i = .busy ctx p rest left st)
    {ctx' c} (hI : I ctx') (hok : c = accumulate (g p) (m0 p) nPass) :
    SInv w h nPass I g m0 { s with
      mem := Function.update s.mem p c
      ws := Function.update s.ws i (nextPixel nPass ctx' rest) } := by
  have hpos : nPass ≠ 0 := by
    have := (hs.busy_ok i _ _ _ _ _ hi).2.1
    unfold StageOK at this
    omega
  have hwi : wpix (nextPixel nPass ctx' rest : Worker F C) = rest := by
    rw [wpix_next, if_neg hpos]
  have hwj : ∀ j, j ≠ i →
      wpix (Function.update s.ws i (nextPixel nPass ctx' rest) j) = wpix (s.ws j) := by
    intro j hj; rw [Function.update_of_ne hj]
  have hsub : ∀ j, ∀ q ∈ wpix (Function.update s.ws i (nextPixel nPass ctx' rest) j),
      q ∈ wpix (s.ws j) := by
    intro j q hq
    by_cases hj : j = i
    · subst hj; rw [Function.update_self, hwi] at hq; rw [hi]; simp [wpix, hq]
    · rwa [hwj j hj] at hq
  have hpi : p ∈ wpix (s.ws i) := by rw [hi]; simp [wpix]
  have hnd := hs.w_nodup i
  rw [hi] at hnd
  have hprest : p ∉ rest := (List.nodup_cons.1 hnd).1
  have hrestmem := (hs.busy_ok i _ _ _ _ _ hi).2.2
  refine ⟨hs.notCrashed, hs.pend_nodup, ?_, ?_, ?_, hs.pend_in, ?_, ?_, ?_, ?_, ?_, ?_⟩
  · intro j
    by_cases hj : j = i
    · subst hj; simp only [Function.update_self, hwi]; exact (List.nodup_cons.1 hnd).2
    · simp only [hwj j hj]; exact hs.w_nodup j
  · intro j q hq hq'
    exact hs.w_pend j (hsub j q hq) hq'
  · intro j k hjk q hq hq'
    exact hs.w_w j k hjk (hsub j q hq) (hsub k q hq')
  · intro j q hq; exact hs.w_in j q (hsub j q hq)
  · intro q hq
    have : q ≠ p := fun e => hs.w_pend i hpi (e ▸ hq)
    simp only [Function.update_of_ne this]
    exact hs.pend_mem q hq
  · intro j ctx1 p1 rest1 left1 st1 hj
    by_cases hji : j = i
    · subst hji
      simp only [Function.update_self] at hj
      cases rest with
      | nil => simp [nextPixel] at hj
      | cons p2 rest2 =>
        simp only [nextPixel, if_neg hpos, Worker.busy.injEq] at hj
        obtain ⟨rfl, rfl, rfl, rfl, rfl⟩ := hj
        have h2 : p2 ≠ p := fun e => hprest (by simp [e])
        refine ⟨hI, ?_, ?_⟩
        · simp only [Function.update_of_ne h2, StageOK]
          refine ⟨by omega, le_refl _, ?_⟩
          rw [Nat.sub_self]
          exact hrestmem p2 (by simp)
        · intro q hq
          have : q ≠ p := fun e => hprest (by simp [← e, hq])
          simp only [Function.update_of_ne this]
          exact hrestmem q (by simp [hq])
    · simp only [Function.update_of_ne hji] at hj
      obtain ⟨h1, h2, h3⟩ := hs.busy_ok j _ _ _ _ _ hj
      have hdis := hs.w_w j i hji
      rw [hj] at hdis
      have hne : ∀ q ∈ p1 :: rest1, q ≠ p := fun q hq e => hdis hq (e ▸ hpi)
      refine ⟨h1, ?_, ?_⟩
      · simp only [Function.update_of_ne (hne p1 (by simp))]; exact h2
      · intro q hq
        simp only [Function.update_of_ne (hne q (by simp [hq]))]; exact h3 q hq
  · intro j ctx1 hj
    by_cases hji : j = i
    · subst hji
      simp only [Function.update_self] at hj
      cases rest with
      | nil => simp only [nextPixel, Worker.idle.injEq] at hj; exact hj ▸ hI
      | cons p2 rest2 => simp [nextPixel, if_neg hpos] at hj
    · simp only [Function.update_of_ne hji] at hj; exact hs.idle_ok j _ hj
  · intro q hq1 hq2 hq3 hq4
    by_cases hqp : q = p
    · subst hqp; simp only [Function.update_self]; exact hok
    · simp only [Function.update_of_ne hqp]
      apply hs.done_mem q hq1 hq2 hq3
      intro j
      by_cases hj : j = i
      · subst hj
        have := hq4 j
        simp only [Function.update_self, hwi] at this
        rw [hi]; simp [wpix, hqp, this]
      · have := hq4 j
        simpa only [hwj j hj] using this
  · intro q hq
    have : q ≠ p := fun e => hq (e ▸ hs.w_in i p hpi)
    simp only [Function.update_of_ne this]
    exact hs.out_mem q hq

/-- Worker `i` ends a pass with accumulator value `c`. -/
theorem SInv.endPass {s : SamplerState F C W} (hs : SInv w h nPass I g m0 s) (i : Fin W)
    {ctx p rest left st} (hi : s.ws i = .busy ctx p rest left st)
    {ctx' c} (hI : I ctx')
    (hok : c = accumulate (g p) (m0 p) (nPass - left + 1)) :
    SInv w h nPass I g m0 { s with
      mem := Function.update s.mem p c
      ws := Function.update s.ws i (BR.endPass nPass ctx' p rest left) } := by
  have hst := (hs.busy_ok i _ _ _ _ _ hi).2.1
  have h1 : 1 ≤ left := hst.1
  have h2 : left ≤ nPass := hst.2.1
  unfold BR.endPass
  split
  · refine hs.finish i hi hI ?_
    rw [hok]; congr 1; omega
  · refine hs.continue i hi hI ⟨by omega, by omega, ?_⟩
    simp only
    rw [hok]; congr 1; omega

/-- One step keeps the invariant if the colour that worker `i` is about to compute, if any, is the one in `g`. -/
theorem SInv.step_local {s s' : SamplerState F C W} (hs : SInv w h nPass I g m0 s) (i : Fin W)
    (hdet : ∀ ctx p rest left k, s.ws i = .busy ctx p rest left (.counted k) → I ctx → p.1 < w → p.2 < h →
      ∃ ctx', passColor sh w h aa ctx p k = .ok (g p k, ctx') ∧ I ctx')
    (hstep : workerStep sh w h aa nPass s i = some s') : SInv w h nPass I g m0 s' := by
  unfold workerStep at hstep
  rw [if_neg (by rw [hs.notCrashed]; simp)] at hstep
  cases hi : s.ws i with
  | finished => simp [hi] at hstep
  | idle ctx =>
    simp only [hi] at hstep
    split at hstep
    next hq =>
      simp only [Option.some.injEq] at hstep
      subst hstep
      have hw : ∀ j, wpix (Function.update s.ws i .finished j) = wpix (s.ws j) := by
        intro j
        by_cases hj : j = i
        · subst hj; rw [Function.update_self, hi]; rfl
        · rw [Function.update_of_ne hj]
      refine ⟨hs.notCrashed, hs.pend_nodup, ?_, ?_, ?_, hs.pend_in, ?_, hs.pend_mem, ?_, ?_, ?_,
        hs.out_mem⟩
      · intro j; simp only [hw]; exact hs.w_nodup j
      · intro j; simp only [hw]; exact hs.w_pend j
      · intro j k hjk; simp only [hw]; exact hs.w_w j k hjk
      · intro j; simp only [hw]; exact hs.w_in j
      · intro j ctx1 p1 rest1 left1 st1 hj
        by_cases hji : j = i
        · subst hji; simp at hj
        · simp only [Function.update_of_ne hji] at hj
          exact hs.busy_ok j _ _ _ _ _ hj
      · intro j ctx1 hj
        by_cases hji : j = i
        · subst hji; simp at hj
        · simp only [Function.update_of_ne hji] at hj
          exact hs.idle_ok j _ hj
      · intro p h1 h2 h3 h4
        simp only [hw] at h4
        exact hs.done_mem p h1 h2 h3 h4
    next t q hq =>
      simp only [Option.some.injEq] at hstep
      subst hstep
      have hpend : pend s.queue = t.pixels ++ pend q := by rw [hq]; simp [pend]
      have hnd := hs.pend_nodup
      rw [hpend, List.nodup_append'] at hnd
      obtain ⟨hn1, hn2, hn3⟩ := hnd
      have hidle : wpix (s.ws i) = [] := by rw [hi]; rfl
      have hsub : ∀ p ∈ wpix (nextPixel nPass ctx t.pixels : Worker F C), p ∈ t.pixels := by
        intro p hp; rw [wpix_next] at hp; split at hp
        · simp at hp
        · exact hp
      have hpm : ∀ p, p ∈ t.pixels → p ∈ pend s.queue := by
        intro p hp; rw [hpend]; exact List.mem_append_left _ hp
      have hqm : ∀ p, p ∈ pend q → p ∈ pend s.queue := by
        intro p hp; rw [hpend]; exact List.mem_append_right _ hp
      have hwi : wpix (Function.update s.ws i (nextPixel nPass ctx t.pixels) i)
          = wpix (nextPixel nPass ctx t.pixels : Worker F C) := by rw [Function.update_self]
      have hwj : ∀ j, j ≠ i →
          wpix (Function.update s.ws i (nextPixel nPass ctx t.pixels) j) = wpix (s.ws j) := by
        intro j hj; rw [Function.update_of_ne hj]
      refine ⟨hs.notCrashed, hn2, ?_, ?_, ?_, ?_, ?_, ?_, ?_, ?_, ?_, hs.out_mem⟩
      · intro j
        by_cases hj : j = i
        · subst hj; simp only [hwi, wpix_next]; split
          · simp
          · exact hn1
        · simp only [hwj j hj]; exact hs.w_nodup j
      · intro j p hp hp'
        by_cases hj : j = i
        · subst hj; simp only [hwi] at hp; exact hn3 (hsub p hp) hp'
        · simp only [hwj j hj] at hp; exact hs.w_pend j hp (hqm p hp')
      · intro j k hjk p hp hp'
        by_cases hj : j = i
        · subst hj
          have hk : k ≠ j := fun e => hjk e.symm
          simp only [hwi] at hp
          simp only [hwj k hk] at hp'
          exact hs.w_pend k hp' (hpm p (hsub p hp))
        · simp only [hwj j hj] at hp
          by_cases hk : k = i
          · subst hk; simp only [hwi] at hp'
            exact hs.w_pend j hp (hpm p (hsub p hp'))
          · simp only [hwj k hk] at hp'
            exact hs.w_w j k hjk hp hp'
      · intro p hp; exact hs.pend_in p (hqm p hp)
      · intro j p hp
        by_cases hj : j = i
        · subst hj; simp only [hwi] at hp; exact hs.pend_in p (hpm p (hsub p hp))
        · simp only [hwj j hj] at hp; exact hs.w_in j p hp
      · intro p hp; exact hs.pend_mem p (hqm p hp)
      · intro j ctx1 p1 rest1 left1 st1 hj
        by_cases hji : j = i
        · subst hji
          simp only [Function.update_self] at hj
          cases hpx : t.pixels with
          | nil => rw [hpx] at hj; simp [nextPixel] at hj
          | cons p2 rest2 =>
            rw [hpx] at hj
            by_cases hpos : nPass = 0
            · simp [nextPixel, hpos] at hj
            · simp only [nextPixel, if_neg hpos, Worker.busy.injEq] at hj
              obtain ⟨rfl, rfl, rfl, rfl, rfl⟩ := hj
              refine ⟨hs.idle_ok j _ hi, ⟨by omega, le_refl _, ?_⟩, ?_⟩
              · simp only [Nat.sub_self]
                exact hs.pend_mem p2 (hpm p2 (by rw [hpx]; simp))
              · intro q hq
                exact hs.pend_mem q (hpm q (by rw [hpx]; simp [hq]))
        · simp only [Function.update_of_ne hji] at hj
          exact hs.busy_ok j _ _ _ _ _ hj
      · intro j ctx1 hj
        by_cases hji : j = i
        · subst hji
          simp only [Function.update_self] at hj
          have : ctx1 = ctx := by
            cases hpx : t.pixels with
            | nil => rw [hpx] at hj; simp only [nextPixel, Worker.idle.injEq] at hj; exact hj.symm
            | cons p2 rest2 =>
              rw [hpx] at hj
              by_cases hpos : nPass = 0
              · simp only [nextPixel, if_pos hpos, Worker.idle.injEq] at hj; exact hj.symm
              · simp [nextPixel, if_neg hpos] at hj
          rw [this]; exact hs.idle_ok j _ hi
        · simp only [Function.update_of_ne hji] at hj
          exact hs.idle_ok j _ hj
      · intro p h1 h2 h3 h4
        by_cases hpt : p ∈ t.pixels
        · have h5 := h4 i
          simp only [hwi, wpix_next] at h5
          by_cases hpos : nPass = 0
          · simp only [hs.pend_mem p (hpm p hpt), hpos, accumulate]
          · simp only [if_neg hpos] at h5; exact absurd hpt h5
        · refine hs.done_mem p h1 h2 (by rw [hpend]; simp [hpt, h3]) ?_
          intro j
          by_cases hj : j = i
          · subst hj; rw [hidle]; simp
          · have := h4 j; simpa only [hwj j hj] using this
  | busy ctx p rest left st =>
    obtain ⟨hI, hok, hrest⟩ := hs.busy_ok i _ _ _ _ _ hi
    have hpin := hs.w_in i p (by rw [hi]; simp [wpix])
    have hself : Function.update s.mem p (s.mem p) = s.mem := Function.update_eq_self p s.mem
    simp only [hi] at hstep
    obtain ⟨hl1, hl2, hok⟩ := hok
    cases st with
    | start =>
      simp only [Option.some.injEq] at hstep; subst hstep
      have := hs.continue i hi (ctx' := ctx) (left' := left) (st' := .gotK (s.mem p).n) (c := s.mem p)
        hI ⟨hl1, hl2, hok, by rw [show s.mem p = _ from hok]⟩
      simpa only [hself] using this
    | gotK k =>
      simp only [Option.some.injEq] at hstep; subst hstep
      have := hs.continue i hi (ctx' := ctx) (left' := left) (st' := .gotN k (s.mem p).n) (c := s.mem p)
        hI ⟨hl1, hl2, hok.1, hok.2, by rw [show s.mem p = _ from hok.1]⟩
      simpa only [hself] using this
    | gotN k m =>
      simp only [Option.some.injEq] at hstep; subst hstep
      exact hs.continue i hi (left' := left) (st' := .counted k) (ctx' := ctx) hI
        ⟨hl1, hl2, by rw [hok.1, hok.2.2], hok.2.1⟩
    | counted k =>
      obtain ⟨ctx', hpc, hI'⟩ := hdet ctx p rest left k hi hI hpin.1 hpin.2
      simp only [hpc] at hstep
      cases hnan : (g p k).isNaN with
      | true =>
        simp only [hnan, if_true, Option.some.injEq] at hstep; subst hstep
        have := hs.endPass i hi (ctx' := ctx') (c := s.mem p) hI' (by
          rw [show s.mem p = _ from hok.1, accumulate, Cell.push, ← hok.2, hnan]
          simp)
        simpa only [hself] using this
      | false =>
        simp only [hnan, Bool.false_eq_true, if_false, Option.some.injEq] at hstep; subst hstep
        have := hs.continue i hi (ctx' := ctx') (left' := left) (st' := .colored (g p k)) (c := s.mem p)
          hI' ⟨hl1, hl2, hok.1, by rw [← hok.2], hnan⟩
        simpa only [hself] using this
    | colored c =>
      simp only [Option.some.injEq] at hstep; subst hstep
      have := hs.continue i hi (ctx' := ctx) (left' := left) (st' := .gotSum c (s.mem p).sum)
        (c := s.mem p) hI ⟨hl1, hl2, hok.1, hok.2.1, hok.2.2, by rw [show s.mem p = _ from hok.1]⟩
      simpa only [hself] using this
    | gotSum c σ =>
      simp only [Option.some.injEq] at hstep; subst hstep
      exact hs.continue i hi (left' := left) (st' := .summed c) (ctx' := ctx) hI
        ⟨hl1, hl2, by rw [hok.1, hok.2.2.2], hok.2.1, hok.2.2.1⟩
    | summed c =>
      simp only [Option.some.injEq] at hstep; subst hstep
      have := hs.continue i hi (ctx' := ctx) (left' := left) (st' := .gotSq c (s.mem p).sumSq)
        (c := s.mem p) hI ⟨hl1, hl2, hok.1, hok.2.1, hok.2.2, by rw [show s.mem p = _ from hok.1]⟩
      simpa only [hself] using this
    | gotSq c q =>
      simp only [Option.some.injEq] at hstep; subst hstep
      refine hs.endPass i hi hI ?_
      obtain ⟨h1, h2, h3, h4⟩ := hok
      rw [h1, h4, accumulate, Cell.push, ← h2, h3]
      simp

theorem SInv.step (hdet : Deterministic sh w h aa I g) {s s' : SamplerState F C W}
    (hs : SInv w h nPass I g m0 s) (i : Fin W) (hstep : workerStep sh w h aa nPass s i = some s') :
    SInv w h nPass I g m0 s' :=
  hs.step_local i (fun ctx p _ _ k _ hI h1 h2 => hdet ctx hI p h1 h2 k) hstep

theorem SInv.init {ctx0 : Fin W → C} (hI : ∀ i, I (ctx0 i)) :
    SInv w h nPass I g m0 (samplerInit w h ctx0 m0 : SamplerState F C W) := by
  have hts : 0 < 16 := by norm_num
  have h1 := C01_once (w := w) (h := h) hts
  refine ⟨rfl, h1.1, ?_, ?_, ?_, ?_, ?_, ?_, ?_, ?_, ?_, ?_⟩ <;> simp only [samplerInit]
  · intro i; simp [wpix]
  · intro i; simp [wpix]
  · intro i j _; simp [wpix]
  · intro p hp; exact (h1.2 p).1 hp
  · intro i; simp [wpix]
  · intro p _; trivial
  · intro i ctx p rest left st h; simp at h
  · intro i ctx h; simp only [Worker.idle.injEq] at h; exact h ▸ hI i
  · intro p h2 h3 h4; exact absurd ((h1.2 p).2 ⟨h2, h3⟩) h4
  · intro p _; trivial

theorem SInv.runs (hdet : Deterministic sh w h aa I g) {s s' : SamplerState F C W} {k : Nat}
    (hs : SInv w h nPass I g m0 s) (hr : Runs sh w h aa nPass s k s') :
    SInv w h nPass I g m0 s' := by
  induction hr with
  | refl => exact hs
  | step i _ hstep ih => exact ih.step hdet i hstep

theorem accumulate_count (f : Nat → Color F) (m : Cell F) (j : Nat) : (accumulate f m j).n = m.n + j := by
  induction j with
  | zero => rfl
  | succ j ih =>
    rw [accumulate, Cell.push]
    split <;> simp only [ih] <;> omega

/-- What is accumulated depends only on the colours of the passes made. -/
theorem accumulate_congr {f f' : Nat → Color F} (m : Cell F) (j : Nat)
    (hf : ∀ i, m.n ≤ i → i < m.n + j → f i = f' i) : accumulate f m j = accumulate f' m j := by
  induction j with
  | zero => rfl
  | succ j ih =>
    have e := ih fun i h1 h2 => hf i h1 (by omega)
    rw [accumulate, accumulate, e, hf _ (by rw [accumulate_count]; omega) (by rw [accumulate_count]; omega)]

/-- The colour of the pass that a worker is about to compute does not matter yet. -/
theorem SInv.change {s : SamplerState F C W} (hs : SInv w h nPass I g m0 s) (i : Fin W)
    {ctx p rest left k} (hi : s.ws i = .busy ctx p rest left (.counted k)) (c : Color F) :
    SInv w h nPass I (Function.update g p (Function.update (g p) k c)) m0 s := by
  have hpi : p ∈ wpix (s.ws i) := by rw [hi]; simp [wpix]
  refine { hs with busy_ok := ?_, done_mem := ?_ }
  · intro j ctx1 p1 rest1 left1 st1 hj
    obtain ⟨h1, h2, h3⟩ := hs.busy_ok j _ _ _ _ _ hj
    refine ⟨h1, ?_, h3⟩
    by_cases hp : p1 = p
    · have hji : j = i := by
        by_contra hne
        refine hs.w_w j i hne ?_ hpi
        rw [hj, ← hp]; simp [wpix]
      subst hji
      rw [hi, Worker.busy.injEq] at hj
      obtain ⟨rfl, rfl, rfl, rfl, rfl⟩ := hj
      obtain ⟨hl, hl', hm, hk⟩ := h2
      rw [accumulate_count] at hk
      have e : accumulate (Function.update (g p) k c) (m0 p) (nPass - left) = accumulate (g p) (m0 p) (nPass - left) := by
        refine accumulate_congr _ _ fun i _ hlt => ?_
        rw [Function.update_of_ne (by omega)]
      rw [Function.update_self]
      refine ⟨hl, hl', ?_⟩
      simp only [e]
      exact ⟨hm, by rw [accumulate_count]; exact hk⟩
    · rw [Function.update_of_ne hp]; exact h2
  · intro q h1 h2 h3 h4
    have : q ≠ p := fun e => h4 i (e ▸ hpi)
    rw [Function.update_of_ne this]
    exact hs.done_mem q h1 h2 h3 h4

/-- The invariant for image functions that draw at random: the accumulators hold possible colours. -/
theorem SInv.step_possible {P : Pixel → Nat → Color F → Prop} (hpos : Possible sh w h aa I P)
    {s s' : SamplerState F C W} (hg : ∀ p : Pixel, p.1 < w → p.2 < h → ∀ k, P p k (g p k))
    (hs : SInv w h nPass I g m0 s) (i : Fin W) (hstep : workerStep sh w h aa nPass s i = some s') :
    ∃ g', (∀ p : Pixel, p.1 < w → p.2 < h → ∀ k, P p k (g' p k)) ∧ SInv w h nPass I g' m0 s' := by
  by_cases hc : ∃ ctx p rest left k, s.ws i = .busy ctx p rest left (.counted k)
  · obtain ⟨ctx, p, rest, left, k, hi⟩ := hc
    have hpin := hs.w_in i p (by rw [hi]; simp [wpix])
    obtain ⟨c, ctx', hpc, hI', hP⟩ := hpos ctx (hs.busy_ok i _ _ _ _ _ hi).1 p hpin.1 hpin.2 k
    refine ⟨_, ?_, (hs.change i hi c).step_local i ?_ hstep⟩
    · intro q h1 h2 l
      by_cases hq : q = p
      · subst hq
        rw [Function.update_self]
        by_cases hl : l = k
        · subst hl; rw [Function.update_self]; exact hP
        · rw [Function.update_of_ne hl]; exact hg q h1 h2 l
      · rw [Function.update_of_ne hq]; exact hg q h1 h2 l
    · intro ctx1 p1 rest1 left1 k1 hj _ _ _
      rw [hi, Worker.busy.injEq] at hj
      obtain ⟨rfl, rfl, rfl, rfl, e⟩ := hj
      rw [Stage.counted.injEq] at e
      subst e
      rw [Function.update_self, Function.update_self]
      exact ⟨ctx', hpc, hI'⟩
  · exact ⟨g, hg, hs.step_local i (fun ctx p rest left k hi => absurd ⟨ctx, p, rest, left, k, hi⟩ hc) hstep⟩

theorem SInv.runs_possible {P : Pixel → Nat → Color F → Prop} (hpos : Possible sh w h aa I P)
    {s s' : SamplerState F C W} {k : Nat} (hg : ∀ p : Pixel, p.1 < w → p.2 < h → ∀ k, P p k (g p k))
    (hs : SInv w h nPass I g m0 s) (hr : Runs sh w h aa nPass s k s') :
    ∃ g', (∀ p : Pixel, p.1 < w → p.2 < h → ∀ k, P p k (g' p k)) ∧ SInv w h nPass I g' m0 s' := by
  induction hr with
  | refl => exact ⟨g, hg, hs⟩
  | step i _ hstep ih =>
    obtain ⟨g1, h1, h2⟩ := ih
    exact h2.step_possible hpos h1 i hstep

open Classical in
/-- From any context there is a possible colour for each pass. -/
theorem Possible.colours {P : Pixel → Nat → Color F → Prop} (hpos : Possible sh w h aa I P) {ctx : C} (hI : I ctx) :
    ∃ g : Pixel → Nat → Color F, ∀ p : Pixel, p.1 < w → p.2 < h → ∀ k, P p k (g p k) := by
  refine ⟨fun p k => if hp : p.1 < w ∧ p.2 < h then (hpos ctx hI p hp.1 hp.2 k).choose else .black, ?_⟩
  intro p h1 h2 k
  have hp : p.1 < w ∧ p.2 < h := ⟨h1, h2⟩
  simp only [dif_pos hp]
  obtain ⟨_, _, _, h⟩ := (hpos ctx hI p h1 h2 k).choose_spec
  exact h

/-- Progress through a pass. -/
def stageRank : Stage F → Nat
  | .start => 0 | .gotK _ => 1 | .gotN _ _ => 2 | .counted _ => 3 | .colored _ => 4
  | .gotSum _ _ => 5 | .summed _ => 6 | .gotSq _ _ => 7

/-- Transitions a worker can still make before asking for the next tile, plus one. -/
def wcost (nPass : Nat) : Worker F C → Nat
  | .finished => 0
  | .idle _ => 1
  | .busy _ _ rest left st => 1 + rest.length * (8 * nPass) + (8 * (left - 1) + (8 - stageRank st))

def tcost (nPass : Nat) (t : Tile) : Nat := 1 + t.pixels.length * (8 * nPass)

/-- Upper bound on the number of transitions left. -/
def smeasure (nPass : Nat) (s : SamplerState F C W) : Nat :=
  (s.queue.map (tcost nPass)).sum + ∑ i, wcost nPass (s.ws i) + (if s.crashed then 0 else 1)

theorem wcost_next (ctx : C) (ps : List Pixel) :
    wcost nPass (nextPixel nPass ctx ps : Worker F C) ≤ 1 + ps.length * (8 * nPass) := by
  cases ps with
  | nil => simp [nextPixel, wcost]
  | cons p ps =>
    by_cases hn : nPass = 0
    · simp [nextPixel, wcost, hn]
    · simp only [nextPixel, if_neg hn, wcost, stageRank, List.length_cons]
      have : 8 * (nPass - 1) + (8 - 0) = 8 * nPass := by omega
      rw [this]
      ring_nf; omega

theorem wcost_endPass (ctx : C) (p : Pixel) (rest : List Pixel) (left : Nat) :
    wcost nPass (BR.endPass nPass ctx p rest left : Worker F C)
      ≤ 1 + rest.length * (8 * nPass) + 8 * (left - 1) := by
  unfold BR.endPass
  split
  · exact (wcost_next ctx rest).trans (by omega)
  · simp only [wcost, stageRank]; omega

theorem sum_update_lt {W : Nat} (f : Worker F C → Nat) (ws : Fin W → Worker F C) (i : Fin W)
    (wk : Worker F C) (d : Nat) (hlt : f wk + d < f (ws i)) :
    ∑ j, f (Function.update ws i wk j) + d < ∑ j, f (ws j) := by
  have h1 := Finset.add_sum_erase Finset.univ (fun j => f (Function.update ws i wk j))
    (Finset.mem_univ i)
  have h2 := Finset.add_sum_erase Finset.univ (fun j => f (ws j)) (Finset.mem_univ i)
  have h3 : ∑ j ∈ Finset.univ.erase i, f (Function.update ws i wk j)
      = ∑ j ∈ Finset.univ.erase i, f (ws j) := by
    apply Finset.sum_congr rfl
    intro j hj
    rw [Function.update_of_ne (Finset.ne_of_mem_erase hj)]
  rw [← h1, ← h2, h3]
  simp only [Function.update_self]
  omega

theorem sum_update_le {W : Nat} (f : Worker F C → Nat) (ws : Fin W → Worker F C) (i : Fin W)
    (wk : Worker F C) (d : Nat) (hle : f wk ≤ f (ws i) + d) :
    ∑ j, f (Function.update ws i wk j) ≤ ∑ j, f (ws j) + d := by
  have h1 := Finset.add_sum_erase Finset.univ (fun j => f (Function.update ws i wk j))
    (Finset.mem_univ i)
  have h2 := Finset.add_sum_erase Finset.univ (fun j => f (ws j)) (Finset.mem_univ i)
  have h3 : ∑ j ∈ Finset.univ.erase i, f (Function.update ws i wk j)
      = ∑ j ∈ Finset.univ.erase i, f (ws j) := by
    apply Finset.sum_congr rfl
    intro j hj
    rw [Function.update_of_ne (Finset.ne_of_mem_erase hj)]
  rw [← h1, ← h2, h3]
  simp only [Function.update_self]
  omega

theorem smeasure_step {s s' : SamplerState F C W} (i : Fin W)
    (hstep : workerStep sh w h aa nPass s i = some s') : smeasure nPass s' < smeasure nPass s := by
  unfold workerStep at hstep
  cases hc : s.crashed with
  | true => simp [hc] at hstep
  | false =>
  simp only [hc, Bool.false_eq_true, if_false] at hstep
  cases hi : s.ws i with
  | finished => simp [hi] at hstep
  | idle ctx =>
    simp only [hi] at hstep
    cases hq : s.queue with
    | nil =>
      simp only [hq, Option.some.injEq] at hstep; subst hstep
      have := sum_update_lt (wcost nPass) s.ws i .finished 0 (by rw [hi]; simp [wcost])
      simp only [smeasure, hq, hc]; omega
    | cons t q =>
      simp only [hq, Option.some.injEq] at hstep; subst hstep
      have := sum_update_le (wcost nPass) s.ws i (nextPixel nPass ctx t.pixels)
        (t.pixels.length * (8 * nPass)) (by
          rw [hi]; have := wcost_next (F := F) (nPass := nPass) ctx t.pixels
          simp only [wcost] at this ⊢; omega)
      simp only [smeasure, hq, hc, List.map_cons, List.sum_cons, tcost]
      omega
  | busy ctx p rest left st =>
    simp only [hi] at hstep
    have hgo : ∀ (wk : Worker F C), wcost nPass wk < wcost nPass (s.ws i) →
        ∀ s1 : SamplerState F C W, s1.queue = s.queue → s1.ws = Function.update s.ws i wk →
        s1.crashed = false → smeasure nPass s1 < smeasure nPass s := by
      intro wk hlt s1 e1 e2 e3
      have := sum_update_lt (wcost nPass) s.ws i wk 0 (by simpa using hlt)
      simp only [smeasure, e1, e2, e3, hc]; omega
    have hend : ∀ ctx', 8 - stageRank st ≥ 1 →
        wcost nPass (BR.endPass nPass ctx' p rest left : Worker F C) < wcost nPass (s.ws i) := by
      intro ctx' hr
      have := wcost_endPass (F := F) (nPass := nPass) ctx' p rest left
      have e : wcost nPass (Worker.busy ctx p rest left st) = 1 + rest.length * (8 * nPass)
        + (8 * (left - 1) + (8 - stageRank st)) := rfl
      rw [hi, e]; omega
    cases st with
    | counted k =>
      cases hpc : passColor sh w h aa ctx p k with
      | error e =>
        simp only [hpc, Option.some.injEq] at hstep; subst hstep
        simp [smeasure, hc]
      | ok r =>
        obtain ⟨c, ctx'⟩ := r
        simp only [hpc] at hstep
        split at hstep <;> (simp only [Option.some.injEq] at hstep; subst hstep)
        · exact hgo _ (hend ctx' (by simp [stageRank])) _ rfl rfl rfl
        · refine hgo _ ?_ _ rfl rfl rfl
          rw [hi]; simp only [wcost, stageRank]; omega
    | gotSq c q =>
      simp only [Option.some.injEq] at hstep; subst hstep
      exact hgo _ (hend ctx (by simp [stageRank])) _ rfl rfl rfl
    | start | gotK k | gotN k m | colored c | gotSum c σ | summed c =>
      simp only [Option.some.injEq] at hstep; subst hstep
      refine hgo _ ?_ _ rfl rfl rfl
      rw [hi]; simp only [wcost, stageRank]; omega

theorem smeasure_runs {s s' : SamplerState F C W} {k : Nat} (hr : Runs sh w h aa nPass s k s') :
    smeasure nPass s' + k ≤ smeasure nPass s := by
  induction hr with
  | refl => simp
  | step i _ hstep ih =>
    have := smeasure_step i hstep
    omega

end BR
