import Verif.Model.Api
import Mathlib.Tactic.Ring
import Mathlib.Tactic.Linarith

/-! C55: the pass budget of a local render. `ok` decides, from everything that happened before, whether a file can be
written; every statement is for all such `ok`. -/

namespace BR

open RenderEvent

/-- Specification: `k` batches of 1, 2, …, `k` passes, each followed by saving the image and the PPM file. -/
def batches (k : Nat) : List RenderEvent :=
  (List.range k).flatMap fun i => [sample (i + 1), image, ppm]

/-- Specification: the number of passes in a log. -/
def passes (log : List RenderEvent) : Nat :=
  (log.map fun | sample n => n | _ => 0).sum

/-- Specification: `k` is the least number of batches with at least `n` passes. -/
def Enough (n : Int) (k : Nat) : Prop := n ≤ passes (batches k) ∧ ∀ j < k, (passes (batches j) : Int) < n

theorem batches_succ (k : Nat) : batches (k + 1) = batches k ++ [sample (k + 1), image, ppm] := by
  simp [batches, List.range_succ]

theorem passes_append (a b : List RenderEvent) : passes (a ++ b) = passes a + passes b := by
  simp [passes]

theorem passes_batches_succ (k : Nat) : passes (batches (k + 1)) = passes (batches k) + (k + 1) := by
  rw [batches_succ, passes_append]; simp [passes]

/-- The batches up to the `k`-th hold `k(k+1)/2` passes. -/
theorem two_mul_passes (k : Nat) : 2 * passes (batches k) = k * (k + 1) := by
  induction k with
  | zero => rfl
  | succ k ih => rw [passes_batches_succ, Nat.mul_add, ih]; ring

theorem passes_mono {j k : Nat} (h : j ≤ k) : passes (batches j) ≤ passes (batches k) := by
  induction h with
  | refl => exact Nat.le_refl _
  | step _ ih => rw [passes_batches_succ]; omega

theorem enough_unique {n : Int} {j k : Nat} (hj : Enough n j) (hk : Enough n k) : j = k := by
  by_contra hne
  rcases Nat.lt_or_gt_of_ne hne with h | h
  · exact absurd hj.1 (not_le.2 (hk.2 _ h))
  · exact absurd hk.1 (not_le.2 (hj.2 _ h))

theorem le_passes (k : Nat) : k ≤ passes (batches k) := by
  have := two_mul_passes k
  nlinarith [Nat.zero_le k, Nat.mul_le_mul_left k (Nat.zero_le k)]

theorem exists_enough (n : Int) : ∃ k, Enough n k := by
  classical
  have h : ∃ k, n ≤ passes (batches k) := ⟨n.toNat, by have := le_passes n.toNat; omega⟩
  exact ⟨Nat.find h, Nat.find_spec h, fun j hj => not_le.1 (Nat.find_min h hj)⟩

theorem exists_enough_above (n : Int) (b : Nat) (hb : ∀ j < b, (passes (batches j) : Int) < n) :
    ∃ k, Enough n k ∧ b ≤ k := by
  obtain ⟨k, hk⟩ := exists_enough n
  refine ⟨k, hk, ?_⟩
  by_contra h
  exact absurd hk.1 (not_le.2 (hb k (by omega)))

theorem batches_prefix {j k : Nat} (h : j ≤ k) : batches j <+: batches k := by
  induction h with
  | refl => exact List.prefix_refl _
  | step _ ih => exact ih.trans ⟨_, (batches_succ _).symm⟩

/-- The loop, started after `b` batches that did not suffice. -/
theorem renderLoop_spec (ok : List RenderEvent → Bool) (n total : Int) (b : Nat) (log : List RenderEvent)
    (hlog : log = batches b) (ht : total = passes (batches b)) (hb : ∀ j < b, (passes (batches j) : Int) < n) :
    ((renderLoop ok n total b log).2 = true → ∃ k, Enough n k ∧ (renderLoop ok n total b log).1 = batches k) ∧
    (∃ k, Enough n k ∧ (renderLoop ok n total b log).1 <+: batches k) ∧
    ((renderLoop ok n total b log).2 = false → ok (renderLoop ok n total b log).1 = false ∧
      0 < (renderLoop ok n total b log).1.length) := by
  fun_induction renderLoop ok n total b log with
  | case1 total b log h log1 h1 log2 h2 ih =>
    refine ih ?_ ?_ ?_
    · simp only [log2, log1, hlog, batches_succ]; simp
    · rw [ht, passes_batches_succ]; push_cast; rfl
    · intro j hj
      rcases Nat.lt_succ_iff_lt_or_eq.1 hj with h' | rfl
      · exact hb j h'
      · rw [← ht]; exact h
  | case2 total b log h log1 h1 log2 h2 =>
    have hpre : log2 <+: batches (b + 1) := ⟨[ppm], by simp only [log2, log1, hlog, batches_succ]; simp⟩
    refine ⟨by simp, ?_, fun _ => ⟨by simpa using h2, by simp [log2]⟩⟩
    obtain ⟨k, hk, hle⟩ := exists_enough_above n (b + 1) (by
      intro j hj
      rcases Nat.lt_succ_iff_lt_or_eq.1 hj with h' | rfl
      · exact hb j h'
      · rw [← ht]; exact h)
    exact ⟨k, hk, hpre.trans (batches_prefix hle)⟩
  | case3 total b log h log1 h1 =>
    have hpre : log1 <+: batches (b + 1) := ⟨[image, ppm], by simp only [log1, hlog, batches_succ]; simp⟩
    refine ⟨by simp, ?_, fun _ => ⟨by simpa using h1, by simp [log1]⟩⟩
    obtain ⟨k, hk, hle⟩ := exists_enough_above n (b + 1) (by
      intro j hj
      rcases Nat.lt_succ_iff_lt_or_eq.1 hj with h' | rfl
      · exact hb j h'
      · rw [← ht]; exact h)
    exact ⟨k, hk, hpre.trans (batches_prefix hle)⟩
  | case4 total b log h =>
    have : Enough n b := ⟨by rw [← ht]; omega, hb⟩
    exact ⟨fun _ => ⟨b, this, hlog⟩, ⟨b, this, by rw [hlog]; exact List.prefix_refl _⟩, by simp⟩

/-- **C55.** A render that ends normally has done batches of 1, 2, …, `k` passes, saving after each, for the least `k`
that reaches the requested number of passes, and has written the PPM file once more. -/
theorem C55_completed (ok : List RenderEvent → Bool) (n : Int) (h : (renderLocal ok n).2 = true) :
    ∃ k, Enough n k ∧ (renderLocal ok n).1 = batches k ++ [ppm] := by
  obtain ⟨h1, -, -⟩ := renderLoop_spec ok n 0 0 [] rfl rfl (by omega)
  unfold renderLocal at h ⊢
  dsimp only at h ⊢
  split_ifs at h ⊢ with h2 h3
  obtain ⟨k, hk, e⟩ := h1 h2
  exact ⟨k, hk, by rw [e]⟩

/-- In this log every file was written only when that was possible. -/
def Writable (ok : List RenderEvent → Bool) (log : List RenderEvent) : Prop :=
  ∀ before e after, log = before ++ e :: after → e = image ∨ e = ppm → ok before = true

private theorem writable_snoc {ok : List RenderEvent → Bool} {log : List RenderEvent} (h : Writable ok log)
    (e : RenderEvent) (he : e = image ∨ e = ppm → ok log = true) : Writable ok (log ++ [e]) := by
  intro before e' after eq hor
  rcases List.eq_nil_or_concat after with rfl | ⟨after, x, rfl⟩
  · obtain ⟨rfl, h2⟩ := List.append_inj' eq rfl
    cases h2
    exact he hor
  · have : log ++ [e] = (before ++ e' :: after) ++ [x] := by rw [eq]; simp
    obtain ⟨rfl, -⟩ := List.append_inj' this rfl
    exact h before e' after rfl hor

private theorem renderLoop_writable (ok : List RenderEvent → Bool) (n total : Int) (b : Nat) (log : List RenderEvent)
    (h : Writable ok log) : Writable ok (renderLoop ok n total b log).1 := by
  fun_induction renderLoop ok n total b log with
  | case1 total b log ht log1 h1 log2 h2 ih =>
    exact ih (writable_snoc (writable_snoc (writable_snoc h _ (by simp)) _ fun _ => h1) _ fun _ => h2)
  | case2 total b log ht log1 h1 log2 h2 => exact writable_snoc (writable_snoc h _ (by simp)) _ fun _ => h1
  | case3 total b log ht log1 h1 => exact writable_snoc h _ (by simp)
  | case4 => exact h

/-- No error of writing a file is overlooked: every file in the log could be written at that time (so that a render
with an error stops at the error). -/
theorem C55_writes (ok : List RenderEvent → Bool) (n : Int) : Writable ok (renderLocal ok n).1 := by
  have h := renderLoop_writable ok n 0 0 [] (by intro a e b h; simp at h)
  unfold renderLocal
  dsimp only
  split_ifs with h1 h2
  · exact writable_snoc h _ fun _ => h2
  · exact h
  · exact h

/-- An error of the third write, the image of the second batch. -/
example : (renderLocal (fun log => decide (log.length ≠ 4)) 5).1 = [sample 1, image, ppm, sample 2] := by
  decide +kernel

/-- In numbers: at least the requested passes, and fewer than the last batch too many. The batches hold
`k(k+1)/2` passes. -/
theorem C55_count (ok : List RenderEvent → Bool) (n : Int) (hn : 0 < n) (h : (renderLocal ok n).2 = true) :
    ∃ k : Nat, n ≤ passes (renderLocal ok n).1 ∧ (passes (renderLocal ok n).1 : Int) < n + k ∧
      2 * passes (renderLocal ok n).1 = k * (k + 1) := by
  obtain ⟨k, hk, e⟩ := C55_completed ok n h
  have hp : passes (renderLocal ok n).1 = passes (batches k) := by rw [e, passes_append]; rfl
  refine ⟨k, hp ▸ hk.1, ?_, hp ▸ two_mul_passes k⟩
  rw [hp]
  cases k with
  | zero => have := hk.1; simp [batches, passes] at this; omega
  | succ k => have := hk.2 k (by omega); rw [passes_batches_succ]; push_cast; omega

/-- If every file can be written, the render ends normally. -/
theorem C55_completes (n : Int) (ok : List RenderEvent → Bool) (hok : ∀ log, ok log = true) :
    (renderLocal ok n).2 = true := by
  obtain ⟨-, -, h3⟩ := renderLoop_spec ok n 0 0 [] rfl rfl (by omega)
  unfold renderLocal
  dsimp only
  cases h : (renderLoop ok n 0 0 []).2 with
  | true => simp [hok]
  | false => have := (h3 h).1; rw [hok] at this; cases this

/-- A render ended by a failed write has done an initial part of the same work, and the write that failed is the next
one: everything before it was written. -/
theorem C55_interrupted (ok : List RenderEvent → Bool) (n : Int) (h : (renderLocal ok n).2 = false) :
    ∃ k, Enough n k ∧ (renderLocal ok n).1 <+: batches k ∧ ok (renderLocal ok n).1 = false := by
  obtain ⟨h1, ⟨k, hk, h2⟩, h3⟩ := renderLoop_spec ok n 0 0 [] rfl rfl (by omega)
  unfold renderLocal at h ⊢
  dsimp only at h ⊢
  split_ifs at h ⊢ with h4 h5
  · exact ⟨k, hk, h2, by simpa using h5⟩
  · exact ⟨k, hk, h2, (h3 (by simpa using h4)).1⟩

/-- Zero or fewer passes: nothing is sampled. -/
theorem C55_none (ok : List RenderEvent → Bool) (n : Int) (hn : n ≤ 0) : passes (renderLocal ok n).1 = 0 := by
  unfold renderLocal renderLoop
  rw [if_neg (by omega)]
  dsimp only
  split_ifs <;> rfl

/-- Non-vacuity: 5 requested passes give batches of 1, 2 and 3. -/
example : Enough 5 3 ∧ passes (batches 3) = 6 ∧ (renderLocal (fun _ => true) 5).1 = batches 3 ++ [ppm] := by
  have he : Enough 5 3 := ⟨by decide, by decide⟩
  refine ⟨he, by decide, ?_⟩
  obtain ⟨k, hk, e⟩ := C55_completed (fun _ => true) 5 (C55_completes 5 _ fun _ => rfl)
  rw [e, enough_unique hk he]

end BR
