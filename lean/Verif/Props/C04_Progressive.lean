import Verif.Lemmas.Sampler
import Verif.Props.C03_Schedule

/-!
# C04 Progressive rendering composes
-/

namespace BR

set_option linter.unusedSectionVars false

variable {F : Type} [Add F] [Sub F] [Mul F] [Div F] [Neg F] [GoFloat F]
variable {C : Type} {W W' W'' : Nat} {sh : Shader F C} {w h : Nat} {aa : Bool}
variable {I : C → Prop} {g : Pixel → Nat → Color F} {m0 : Pixel → Cell F}

/-- Sampling `a` passes and then `b` passes, each with any number of workers and any schedule, ends
with the same accumulators and counts as `a + b` passes at once. -/
theorem C04_compose (hdet : Deterministic sh w h aa I g) {ctx0 : Fin W → C} {ctx1 : Fin W' → C}
    {ctx2 : Fin W'' → C} (h0 : ∀ i, I (ctx0 i)) (h1 : ∀ i, I (ctx1 i)) (h2 : ∀ i, I (ctx2 i))
    (hW : 0 < W) (hW' : 0 < W') (hW'' : 0 < W'') (a b k0 k1 k2 : Nat)
    (s0 : SamplerState F C W) (s1 : SamplerState F C W') (s2 : SamplerState F C W'')
    (r0 : Runs sh w h aa a (samplerInit w h ctx0 m0) k0 s0) (d0 : s0.done)
    (r1 : Runs sh w h aa b (samplerInit w h ctx1 s0.mem) k1 s1) (d1 : s1.done)
    (r2 : Runs sh w h aa (a + b) (samplerInit w h ctx2 m0) k2 s2) (d2 : s2.done) :
    s1.mem = s2.mem := by
  funext p
  rw [C03_result hdet h1 hW' s1 k1 r1 d1, C03_result hdet h2 hW'' s2 k2 r2 d2,
    C03_result hdet h0 hW s0 k0 r0 d0]
  split
  · rw [accumulate_add]
  · rfl

/-- The count of every pixel grows by exactly the number of passes. -/
theorem C04_count (hdet : Deterministic sh w h aa I g) {ctx0 : Fin W → C} (h0 : ∀ i, I (ctx0 i))
    (hW : 0 < W) (a k : Nat) (s : SamplerState F C W)
    (r : Runs sh w h aa a (samplerInit w h ctx0 m0) k s) (d : s.done) (p : Pixel)
    (hx : p.1 < w) (hy : p.2 < h) : (s.mem p).n = (m0 p).n + a := by
  rw [C03_result hdet h0 hW s k r d, if_pos ⟨hx, hy⟩, accumulate_n]

/-- Every image function, also a random or panicking one: for one worker that keeps its context,
`a` passes of a pixel followed by `b` passes are `a + b` passes. -/
theorem C04_pixel (sh : Shader F C) (w h : Nat) (aa : Bool) (p : Pixel) (a b : Nat) (ctx : C)
    (s : Cell F) :
    samplePixel sh w h aa p (a + b) ctx s =
      (samplePixel sh w h aa p a ctx s >>= fun r => samplePixel sh w h aa p b r.2 r.1) := by
  induction a generalizing ctx s with
  | zero => rw [Nat.zero_add]; rfl
  | succ a ih =>
    rw [Nat.succ_add]
    simp only [samplePixel]
    cases hc : passColor sh w h aa ctx p s.n with
    | error e => rfl
    | ok r => exact ih r.2 (s.push r.1)

/-- Non-vacuity: schedules that end exist, for one worker and one pixel: a complete run of 20
transitions for two passes of a 1x1 image that is constantly white. -/
example : ∃ (k : Nat) (s : SamplerState ℝ Unit 1),
    Runs ⟨fun c _ _ => .ok c, fun c => .ok ((0, 0), c), fun c _ _ => .ok (.white, c)⟩ 1 1 false 1
      (samplerInit 1 1 (fun _ => ()) fun _ => Cell.zero) k s ∧ s.done := by
  by_contra hcon
  push Not at hcon
  -- a maximal run exists because runs are bounded
  let sh : Shader ℝ Unit :=
    ⟨fun c _ _ => .ok c, fun c => .ok ((0, 0), c), fun c _ _ => .ok (.white, c)⟩
  have hdet : ∃ g, Deterministic sh 1 1 false (fun _ => True) g := by
    refine ⟨fun _ _ => .white, ?_⟩
    intro ctx _ p hx hy k
    obtain ⟨uv, huv⟩ := indexToCam_ok_real p hx hy
    refine ⟨ctx, ?_, trivial⟩
    unfold passColor
    simp only [huv]
    rfl
  obtain ⟨g, hdet⟩ := hdet
  have hext : ∀ k, ∃ s, Runs sh 1 1 false 1
      (samplerInit 1 1 (fun _ : Fin 1 => ()) fun _ => Cell.zero) k s := by
    intro k
    induction k with
    | zero => exact ⟨_, .refl _⟩
    | succ k ih =>
      obtain ⟨s, hs⟩ := ih
      have hnd := hcon k s hs
      have hnc := C03_no_crash hdet (fun _ => trivial) s k hs
      have : ∃ i, s.ws i ≠ .finished := by
        by_contra h; push Not at h; exact hnd h
      obtain ⟨i, hi⟩ := this
      obtain ⟨s', hs'⟩ := C02_no_deadlock (sh := sh) (w := 1) (h := 1) (aa := false) (nPass := 1) s hnc i hi
      exact ⟨s', .step i hs hs'⟩
  obtain ⟨s, hs⟩ := hext ((tessellate 1 1 16).length + 1 * 1 * (8 * 1) + 1 + 1 + 1)
  have := C02_bounded s _ hs
  omega

end BR
