import Verif.Lemmas.Workers
import Verif.Num.Real

/-!
# C02 (termination) and C03 (schedule independence) of the concurrent sampler

`Runs s k s'` ranges over every interleaving of `W` workers, of any length.
-/

namespace BR

set_option linter.unusedSectionVars false

variable {F : Type} [Add F] [Sub F] [Mul F] [Div F] [Neg F] [GoFloat F]
variable {C : Type} {W : Nat} {sh : Shader F C} {w h : Nat} {aa : Bool} {nPass : Nat}
variable {I : C → Prop} {g : Pixel → Nat → Color F} {m0 : Pixel → Cell F} {ctx0 : Fin W → C}

/-- C02: no worker ever waits: unless the program crashed or all workers returned, every worker that
has not returned can move. -/
theorem C02_no_deadlock (s : SamplerState F C W) (hc : s.crashed = false) (i : Fin W)
    (hi : s.ws i ≠ .finished) : ∃ s', workerStep sh w h aa nPass s i = some s' := by
  unfold workerStep
  rw [if_neg (by rw [hc]; simp)]
  cases hw : s.ws i with
  | finished => exact absurd hw hi
  | idle ctx => cases hq : s.queue <;> simp
  | busy ctx p rest left st =>
    cases st with
    | counted k =>
      simp only
      split
      · exact ⟨_, rfl⟩
      · split <;> exact ⟨_, rfl⟩
    | _ => exact ⟨_, rfl⟩

/-- C02: every schedule is finite, with an explicit bound: each tile costs one receive and at most 8
transitions per pixel and pass. No assumption on the image function: it may panic, or return NaN. -/
theorem C02_bounded (s : SamplerState F C W) (k : Nat)
    (hr : Runs sh w h aa nPass (samplerInit w h ctx0 m0) k s) :
    k ≤ (tessellate w h 16).length + w * h * (8 * nPass) + W + 1 := by
  have := smeasure_runs hr
  have hlen : ((tessellate w h 16).flatMap Tile.pixels).length = w * h := by
    have h1 := C01_once (w := w) (h := h) (ts := 16) (by norm_num)
    have h2 : ((tessellate w h 16).flatMap Tile.pixels).Perm
        (List.range w ×ˢ List.range h) := by
      refine (List.perm_ext_iff_of_nodup h1.1 (List.Nodup.product List.nodup_range List.nodup_range)).2 ?_
      intro p
      rw [h1.2]; obtain ⟨a, b⟩ := p
      simp
    rw [h2.length_eq]; exact (List.length_product _ _).trans (by simp)
  have hsum : ∀ l : List Tile, (l.map (tcost nPass)).sum
      = l.length + (l.flatMap Tile.pixels).length * (8 * nPass) := by
    intro l
    induction l with
    | nil => simp
    | cons t l ih =>
      simp only [List.map_cons, List.sum_cons, ih, tcost, List.length_cons, List.flatMap_cons,
        List.length_append]; ring
  have hw : ∑ _i : Fin W, wcost nPass (Worker.idle (ctx0 _i) : Worker F C) = W := by
    simp [wcost]
  have h0 : smeasure nPass (samplerInit w h ctx0 m0 : SamplerState F C W)
      = (tessellate w h 16).length + w * h * (8 * nPass) + W + 1 := by
    unfold smeasure samplerInit
    simp only [hsum, hlen, hw]
    simp
  omega

/-- C02: a schedule that cannot be continued has crashed or has all workers returned. -/
theorem C02_maximal (s : SamplerState F C W)
    (hmax : ∀ i, workerStep sh w h aa nPass s i = none) : s.crashed = true ∨ s.done := by
  by_cases hc : s.crashed = true
  · exact .inl hc
  · refine .inr fun i => ?_
    by_contra hi
    obtain ⟨s', hs'⟩ := C02_no_deadlock (sh := sh) (w := w) (h := h) (aa := aa) (nPass := nPass) s
      (by simpa using hc) i hi
    rw [hmax i] at hs'
    exact absurd hs' (by simp)

/-- Once a worker has returned, the queue is empty. -/
theorem queue_empty {s : SamplerState F C W} {k : Nat} (hr : Runs sh w h aa nPass (samplerInit w h ctx0 m0) k s) :
    (∃ i, s.ws i = .finished) → s.queue = [] := by
  induction hr with
  | refl => rintro ⟨i, hi⟩; simp [samplerInit] at hi
  | step i hr' hstep ih =>
    rename_i k1 s1 s2
    rintro ⟨j, hj⟩
    unfold workerStep at hstep
    split at hstep
    · simp at hstep
    have hother : j ≠ i → ∀ wk, Function.update s1.ws i wk j = .finished → s1.queue = [] := by
      intro hji wk h
      rw [Function.update_of_ne hji] at h
      exact ih ⟨j, h⟩
    cases hwi : s1.ws i with
    | finished => simp [hwi] at hstep
    | idle ctx =>
      simp only [hwi] at hstep
      split at hstep
      next hq => simp only [Option.some.injEq] at hstep; subst hstep; exact hq
      next t q hq =>
        simp only [Option.some.injEq] at hstep; subst hstep
        by_cases hji : j = i
        · subst hji
          simp only [Function.update_self] at hj
          cases hpx : t.pixels with
          | nil => rw [hpx] at hj; simp [nextPixel] at hj
          | cons a l =>
            rw [hpx] at hj; unfold nextPixel at hj; simp only at hj; split at hj <;> simp at hj
        · exact absurd (hother hji _ hj) (by rw [hq]; simp)
    | busy ctx p rest left st =>
      simp only [hwi] at hstep
      have hne : ∀ wk : Worker F C, wk ≠ .finished → Function.update s1.ws i wk j = .finished →
          s1.queue = [] := by
        intro wk hwk hj
        by_cases hji : j = i
        · subst hji; simp only [Function.update_self] at hj; exact absurd hj hwk
        · exact hother hji _ hj
      have hend : ∀ ctx', (BR.endPass nPass ctx' p rest left : Worker F C) ≠ .finished := by
        intro ctx'; unfold BR.endPass; split
        · cases rest with
          | nil => simp [nextPixel]
          | cons a l => unfold nextPixel; simp only; split <;> simp
        · simp
      cases st with
      | counted k =>
        simp only at hstep
        split at hstep
        · simp only [Option.some.injEq] at hstep; subst hstep; exact ih ⟨j, hj⟩
        · split at hstep <;> (simp only [Option.some.injEq] at hstep; subst hstep)
          · exact hne _ (hend _) hj
          · exact hne _ (by simp) hj
      | gotSq c q =>
        simp only [Option.some.injEq] at hstep; subst hstep
        exact hne _ (hend _) hj
      | start | gotK k | gotN k m | colored c | gotSum c σ | summed c =>
        simp only [Option.some.injEq] at hstep; subst hstep
        exact hne _ (by simp) hj

/-- C03: with a deterministic image function, however the workers are scheduled, when they have all
returned each pixel of the image holds its old contents plus the colours of its `nPass` passes in
pass order, and everything else is unchanged. `W` is arbitrary but positive. -/
theorem C03_result (hdet : Deterministic sh w h aa I g) (hI : ∀ i, I (ctx0 i)) (hW : 0 < W)
    (s : SamplerState F C W) (k : Nat)
    (hr : Runs sh w h aa nPass (samplerInit w h ctx0 m0) k s) (hdone : s.done) (p : Pixel) :
    s.mem p = if p.1 < w ∧ p.2 < h then accumulate (g p) (m0 p) nPass else m0 p := by
  have hinv := (SInv.init (g := g) (m0 := m0) (nPass := nPass) hI).runs hdet hr
  split
  next hp =>
    refine hinv.done_mem p hp.1 hp.2 ?_ ?_
    · rw [queue_empty hr ⟨⟨0, hW⟩, hdone _⟩]; simp [pend]
    · intro i; rw [hdone i]; simp [wpix]
  next hp => exact hinv.out_mem p hp

/-- C03: two schedules, with different numbers of workers and different worker contexts, give the
same accumulators, bit for bit. -/
theorem C03_schedule_independent {W' : Nat} {ctx0' : Fin W' → C}
    (hdet : Deterministic sh w h aa I g) (hI : ∀ i, I (ctx0 i)) (hI' : ∀ i, I (ctx0' i))
    (hW : 0 < W) (hW' : 0 < W') (s : SamplerState F C W) (s' : SamplerState F C W') (k k' : Nat)
    (hr : Runs sh w h aa nPass (samplerInit w h ctx0 m0) k s)
    (hr' : Runs sh w h aa nPass (samplerInit w h ctx0' m0) k' s')
    (hdone : s.done) (hdone' : s'.done) : s.mem = s'.mem := by
  funext p
  rw [C03_result hdet hI hW s k hr hdone p, C03_result hdet hI' hW' s' k' hr' hdone' p]

/-- The stage in which the colour is computed. -/
private def Stage.isCounted : Stage F → Bool
  | .counted _ => true
  | _ => false

/-- C03: no data race: in every reachable state two different workers never access the accumulators
of the same pixel. -/
theorem C03_race_free (hdet : Deterministic sh w h aa I g) (hI : ∀ i, I (ctx0 i))
    (s : SamplerState F C W) (k : Nat)
    (hr : Runs sh w h aa nPass (samplerInit w h ctx0 m0) k s) (i j : Fin W) (hij : i ≠ j)
    (p : Pixel) (hp : (s.ws i).touches = some p) : (s.ws j).touches ≠ some p := by
  have hinv := (SInv.init (g := g) (m0 := m0) (nPass := nPass) hI).runs hdet hr
  have key : ∀ (wk : Worker F C) (q : Pixel), wk.touches = some q → q ∈ wpix wk := by
    intro wk q hq
    cases wk with
    | busy ctx p rest left st =>
      cases st <;> simp [Worker.touches, wpix] at hq ⊢ <;> exact .inl hq.symm
    | _ => simp [Worker.touches] at hq
  intro hp'
  exact hinv.w_w i j hij (key _ _ hp) (key _ _ hp')

/-- C03: what `touches` says is all that the next move of a worker accesses: overwriting the accumulators of any other
pixel before the move has the same effect as overwriting them after it. -/
theorem C03_touches (s : SamplerState F C W) (i : Fin W) (q : Pixel) (hq : (s.ws i).touches ≠ some q) (c : Cell F) :
    workerStep sh w h aa nPass { s with mem := Function.update s.mem q c } i =
      (workerStep sh w h aa nPass s i).map fun t => { t with mem := Function.update t.mem q c } := by
  unfold workerStep
  by_cases hc : s.crashed
  · simp [hc]
  · simp only [hc, Bool.false_eq_true, if_false]
    cases hw : s.ws i with
    | finished => rfl
    | idle ctx => cases s.queue <;> rfl
    | busy ctx p rest left st =>
      have hp : st.isCounted = false → p ≠ q := by
        intro hs e
        apply hq
        rw [hw, e]
        cases st <;> first | rfl | simp [Stage.isCounted] at hs
      have hget : st.isCounted = false → Function.update s.mem q c p = s.mem p := fun hs =>
        Function.update_of_ne (hp hs) _ _
      cases st with
      | counted k =>
        dsimp only
        cases passColor sh w h aa ctx p k with
        | error _ => rfl
        | ok x =>
          obtain ⟨col, ctx'⟩ := x
          dsimp only
          split <;> rfl
      | _ =>
        have hpq := hp rfl
        simp only [hget rfl, Option.map_some]
        try rw [Function.update_comm hpq]

/-- C03: and it never crashes. -/
theorem C03_no_crash (hdet : Deterministic sh w h aa I g) (hI : ∀ i, I (ctx0 i))
    (s : SamplerState F C W) (k : Nat)
    (hr : Runs sh w h aa nPass (samplerInit w h ctx0 m0) k s) : s.crashed = false :=
  ((SInv.init (g := g) (m0 := m0) (nPass := nPass) hI).runs hdet hr).notCrashed

/-- C03: also with an image function that draws at random, however the workers are scheduled: when they have all returned
each pixel of the image holds its old contents plus `nPass` colours, each of them a possible colour of its pass, in pass
order. No pass of any pixel is lost, counted twice or mixed up with another. -/
theorem C03_every_pass {P : Pixel → Nat → Color F → Prop} (hpos : Possible sh w h aa I P) (hI : ∀ i, I (ctx0 i))
    (hW : 0 < W) (s : SamplerState F C W) (k : Nat)
    (hr : Runs sh w h aa nPass (samplerInit w h ctx0 m0) k s) (hdone : s.done) :
    ∃ g : Pixel → Nat → Color F, (∀ p : Pixel, p.1 < w → p.2 < h → ∀ k, P p k (g p k)) ∧
      ∀ p, s.mem p = if p.1 < w ∧ p.2 < h then accumulate (g p) (m0 p) nPass else m0 p := by
  obtain ⟨g0, hg0⟩ := hpos.colours (hI ⟨0, hW⟩)
  obtain ⟨g, hg, hinv⟩ := (SInv.init (g := g0) (m0 := m0) (nPass := nPass) hI).runs_possible hpos hg0 hr
  refine ⟨g, hg, fun p => ?_⟩
  split
  next hp =>
    refine hinv.done_mem p hp.1 hp.2 ?_ fun i => ?_
    · rw [queue_empty hr ⟨⟨0, hW⟩, hdone _⟩]; simp [pend]
    · rw [hdone i]; simp [wpix]
  next hp => exact hinv.out_mem p hp

/-- C03: an image function that draws at random does not make the workers crash or race either. -/
theorem C03_random_safe {P : Pixel → Nat → Color F → Prop} (hpos : Possible sh w h aa I P) (hI : ∀ i, I (ctx0 i))
    (s : SamplerState F C W) (k : Nat) (hr : Runs sh w h aa nPass (samplerInit w h ctx0 m0) k s) :
    s.crashed = false ∧ ∀ i j, i ≠ j → ∀ p, (s.ws i).touches = some p → (s.ws j).touches ≠ some p := by
  have key : ∀ (wk : Worker F C) (q : Pixel), wk.touches = some q → q ∈ wpix wk := by
    intro wk q hq
    cases wk with
    | busy ctx p rest left st =>
      cases st <;> simp [Worker.touches, wpix] at hq ⊢ <;> exact .inl hq.symm
    | _ => simp [Worker.touches] at hq
  rcases Nat.eq_zero_or_pos W with rfl | hW
  · have e : s = samplerInit w h ctx0 m0 := by
      cases hr with
      | refl => rfl
      | step i _ _ => exact i.elim0
    subst e
    exact ⟨rfl, fun i => i.elim0⟩
  obtain ⟨g0, hg0⟩ := hpos.colours (hI ⟨0, hW⟩)
  obtain ⟨g, hg, hinv⟩ := (SInv.init (g := g0) (m0 := m0) (nPass := nPass) hI).runs_possible hpos hg0 hr
  exact ⟨hinv.notCrashed, fun i j hij p hp hp' => hinv.w_w i j hij (key _ _ hp) (key _ _ hp')⟩

/-- Every pixel centre of the image has camera coordinates: the index check cannot fail. -/
theorem indexToCam_ok_real {w h : Nat} (p : Pixel) (hx : p.1 < w) (hy : p.2 < h) :
    ∃ uv : ℝ × ℝ, indexToCam (w : Int) (h : Int) (ofInt p.1 : ℝ) (ofInt p.2) = .ok uv := by
  unfold indexToCam
  have h1 : (p.1 : ℝ) + 1 ≤ w := by exact_mod_cast hx
  have h2 : (p.2 : ℝ) + 1 ≤ h := by exact_mod_cast hy
  have h3 : (0 : ℝ) ≤ p.1 := Nat.cast_nonneg _
  have h4 : (0 : ℝ) ≤ p.2 := Nat.cast_nonneg _
  rw [if_neg]
  · exact ⟨_, rfl⟩
  · simp only [lt_real, lit_real, ofInt_real, Bool.or_eq_true, decide_eq_true_eq]
    push_cast
    rintro (((h | h) | h) | h) <;> linarith

/-- Non-vacuity of `Deterministic`: any colour that is a function of the camera coordinates (a render
of a scene that draws no pseudo-random numbers) is deterministic, for every image size. -/
example (w h : Nat) (col : ℝ → ℝ → Color ℝ) :
    ∃ g, Deterministic (C := Unit) ⟨fun c _ _ => .ok c, fun c => .ok ((0, 0), c),
      fun c u v => .ok (col u v, c)⟩ w h false (fun _ => True) g := by
  refine ⟨fun p _ => match indexToCam (w : Int) (h : Int) (ofInt p.1 : ℝ) (ofInt p.2) with
    | .ok uv => col uv.1 uv.2
    | .error _ => .black, ?_⟩
  intro ctx _ p hx hy k
  refine ⟨ctx, ?_, trivial⟩
  obtain ⟨uv, huv⟩ := indexToCam_ok_real p hx hy
  unfold passColor
  simp only [huv]
  rfl

/-- Non-vacuity of `Possible`: a colour that also depends on a counter kept by each worker, so that it depends on the
schedule, with its possible values. -/
example (w h : Nat) (col : ℕ → ℝ → ℝ → Color ℝ) :
    Possible (C := ℕ) ⟨fun c _ _ => .ok c, fun c => .ok ((0, 0), c), fun c u v => .ok (col c u v, c + 1)⟩ w h false
      (fun _ => True) (fun _ _ c => ∃ n u v, c = col n u v) := by
  intro ctx _ p hx hy k
  obtain ⟨uv, huv⟩ := indexToCam_ok_real p hx hy
  refine ⟨col ctx uv.1 uv.2, ctx + 1, ?_, trivial, ctx, uv.1, uv.2, rfl⟩
  unfold passColor
  simp only [huv]
  rfl

end BR
