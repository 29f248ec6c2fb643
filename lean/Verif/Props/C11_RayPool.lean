import Verif.Lemmas.ScenePool
import Verif.Lemmas.GoM
import Mathlib.Data.List.Nodup
import Mathlib.Tactic.Common

/-!
# C11 Ray pool

Holds for every number type.
-/

namespace BR

set_option linter.unusedSectionVars false

variable {F : Type} [Add F] [Sub F] [Mul F] [Div F] [Neg F] [GoFloat F]

/-- Histories of a context: `held` lists the rays obtained and not yet returned. Only held rays are
written or returned. -/
inductive PoolHist : RayHeap F → List Nat → Prop
  | new (heap) : PoolHist ⟨⟨[], 0⟩, heap⟩ []
  | ray {s held} : PoolHist s held → PoolHist s.ray.2 (s.ray.1 :: held)
  | put {s held} (r : Nat) : PoolHist s held → r ∈ held → PoolHist (s.putRay r) (held.erase r)
  | write {s held} (r : Nat) (v : Ray F) : PoolHist s held → r ∈ held → PoolHist (s.write r v) held

theorem PoolHist.inv {s : RayHeap F} {held : List Nat} (h : PoolHist s held) :
    (held ++ s.pool.free).Nodup ∧ ∀ r ∈ held ++ s.pool.free, r < s.pool.next := by
  induction h with
  | new heap => simp
  | @ray s held _ ih =>
    unfold RayHeap.ray Pool.get
    cases hf : s.pool.free with
    | nil =>
      rw [hf] at ih
      simp only [List.append_nil] at ih
      simp only [List.append_nil, List.nodup_cons, List.mem_cons]
      refine ⟨⟨fun hm => Nat.lt_irrefl _ (ih.2 _ hm), ih.1⟩, ?_⟩
      rintro r (rfl | hr)
      · omega
      · have := ih.2 r hr; omega
    | cons a l =>
      rw [hf] at ih
      simp only [List.cons_append]
      have hp : (held ++ a :: l).Perm (a :: (held ++ l)) := List.perm_middle
      exact ⟨hp.nodup_iff.1 ih.1, fun r hr => ih.2 r (hp.mem_iff.2 hr)⟩
  | @put s held r _ hr ih =>
    simp only [RayHeap.putRay, Pool.put]
    have hp : (held.erase r ++ r :: s.pool.free).Perm (held ++ s.pool.free) :=
      List.perm_middle.trans ((List.perm_cons_erase hr).symm.append_right _)
    exact ⟨hp.nodup_iff.2 ih.1, fun q hq => ih.2 q (hp.mem_iff.1 hq)⟩
  | write r v _ hr ih => exact ih

/-- A ray obtained from the context is none of the rays still in use. -/
theorem C11_fresh {s : RayHeap F} {held : List Nat} (h : PoolHist s held) : s.ray.1 ∉ held := by
  have := (PoolHist.ray h).inv.1
  simp only [List.cons_append, List.nodup_cons, List.mem_append] at this
  exact fun hm => this.1 (.inl hm)

/-- It is zeroed. -/
theorem C11_zeroed (s : RayHeap F) : s.ray.2.heap s.ray.1 = ⟨.zero, .zero⟩ := by
  simp [RayHeap.ray]

/-- And no ray still in use is modified by obtaining or returning a ray, or by writing another. -/
theorem C11_undisturbed {s : RayHeap F} {held : List Nat} (h : PoolHist s held) (r : Nat)
    (hr : r ∈ held) : s.ray.2.heap r = s.heap r ∧ (∀ q, (s.putRay q).heap r = s.heap r) ∧
    ∀ q v, q ≠ r → (s.write q v).heap r = s.heap r := by
  refine ⟨?_, fun q => rfl, ?_⟩
  · have : r ≠ s.ray.1 := fun e => C11_fresh h (e ▸ hr)
    have h2 : s.ray.2.heap r = if r = s.ray.1 then ⟨.zero, .zero⟩ else s.heap r := rfl
    rw [h2, if_neg this]
  · intro q v hq
    simp [RayHeap.write, hq.symm]

/-- **Whole renderings.** Every evaluation of the light field of any scene follows this discipline: the rays
held before (`held`, for example by the materials further up) are held afterwards, and every other ray ever
allocated is in the pool, exactly once. So nothing leaks and no ray is returned twice. -/
theorem C11_scene {S : Type} (rng : Rng F S) (s : Scene F) (fuel : Nat) (f : Field) (r : Ray F) (held : List Nat)
    (c c' : Ctx F S) (col : Color F) (h : s.lightField rng fuel f r c = .ok (col, c'))
    (hh : (held ++ c.rays.free).Perm (List.range c.rays.next)) :
    (held ++ c'.rays.free).Perm (List.range c'.rays.next) :=
  lightField_rays fuel f r held c col c' h hh

/-- In particular from a fresh context: after any number of completed evaluations all rays are back. -/
theorem C11_all_returned {S : Type} (rng : Rng F S) (s : Scene F) (fuel : Nat) (queries : List (Field × Ray F))
    (shifts : List (F × F)) (seed : S) (c' : Ctx F S)
    (h : queries.foldlM (fun c q => do return (← s.lightField rng fuel q.1 q.2 c).2) (Ctx.new shifts seed) = .ok c') :
    c'.rays.free.Perm (List.range c'.rays.next) := by
  have key : ∀ (qs : List (Field × Ray F)) (c : Ctx F S), c.rays.Own [] →
      qs.foldlM (fun c q => do return (← s.lightField rng fuel q.1 q.2 c).2) c = .ok c' → c'.rays.Own [] := by
    intro qs
    induction qs with
    | nil => intro c hc e; simp only [List.foldlM_nil, pure_ok, Except.ok.injEq] at e; rw [← e]; exact hc
    | cons q qs ih =>
      intro c hc e
      rw [List.foldlM_cons] at e
      obtain ⟨c1, e1, e⟩ := bind_eq_ok.1 e
      obtain ⟨⟨x, c2⟩, e2, e1⟩ := bind_eq_ok.1 e1
      simp only [pure_ok, Except.ok.injEq] at e1
      subst e1
      exact ih _ (lightField_rays _ _ _ _ _ _ _ e2 hc) e
  exact key queries _ (by simp [Pool.Own, Ctx.new]) h

/-- Non-vacuity: get, get, put the first, get again recycles it while the second is still held. -/
example (heap : Nat → Ray F) : PoolHist (F := F)
    ((((⟨⟨[], 0⟩, heap⟩ : RayHeap F).ray.2.ray.2).putRay 0).ray.2) [0, 1] :=
  .ray (.put (held := [1, 0]) 0 (.ray (.ray (.new heap))) (by simp))

/-- Without the precondition (returning a ray twice) the guarantee fails: the same ray is handed
out twice. -/
example (heap : Nat → Ray F) :
    let s := ((⟨⟨[], 0⟩, heap⟩ : RayHeap F).ray.2.putRay 0).putRay 0
    s.ray.1 = s.ray.2.ray.1 := rfl

end BR
