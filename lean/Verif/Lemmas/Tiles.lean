import Verif.Model.Sampler
import Mathlib.Data.List.Nodup
import Mathlib.Data.List.Basic
import Mathlib.Data.List.Pairwise
import Mathlib.Tactic.Ring
import Mathlib.Tactic.Linarith
import Mathlib.Data.Nat.ModEq

/-! Helper lemmas about tile lists. -/

namespace BR

theorem mem_stepRange {ts : Nat} (hts : 0 < ts) (w : Nat) :
    ∀ x0 x, x ∈ stepRange x0 w ts ↔ x < w ∧ ∃ k, x = x0 + k * ts := by
  intro x0
  induction x0 using stepRange.induct w ts with
  | case1 x0 h ih =>
    intro x
    rw [stepRange, dif_pos h, List.mem_cons, ih]
    constructor
    · rintro (rfl | ⟨hx, k, rfl⟩)
      · exact ⟨h.1, 0, by simp⟩
      · exact ⟨hx, k + 1, by ring⟩
    · rintro ⟨hx, k, rfl⟩
      rcases k with _ | k
      · left; simp
      · right; exact ⟨hx, k, by ring⟩
  | case2 x0 h =>
    intro x
    rw [stepRange, dif_neg h]
    have : ¬ x0 < w := fun h' => h ⟨h', hts⟩
    constructor
    · simp
    · rintro ⟨hx, k, rfl⟩
      exact absurd (by omega : x0 < w) this

theorem stepRange_nodup (x0 w ts : Nat) : (stepRange x0 w ts).Nodup := by
  induction x0 using stepRange.induct w ts with
  | case1 x0 h ih =>
    rw [stepRange, dif_pos h, List.nodup_cons]
    refine ⟨?_, ih⟩
    rw [mem_stepRange h.2]
    rintro ⟨_, k, hk⟩
    have := h.2
    nlinarith [Nat.zero_le (k * ts)]
  | case2 x0 h => rw [stepRange, dif_neg h]; simp

theorem stepRange_length {ts : Nat} (hts : 0 < ts) (w : Nat) :
    ∀ x0, (stepRange x0 w ts).length = (w - x0 + ts - 1) / ts := by
  intro x0
  induction x0 using stepRange.induct w ts with
  | case1 x0 h ih =>
    rw [stepRange, dif_pos h, List.length_cons, ih]
    have e : w - x0 + ts - 1 = (w - x0 - 1) + ts := by omega
    rw [e, Nat.add_div_right _ h.2]
    congr 1
    by_cases h' : ts ≤ w - x0
    · congr 1; omega
    · have a : w - (x0 + ts) + ts - 1 = ts - 1 := by omega
      rw [a, Nat.div_eq_of_lt (by omega), Nat.div_eq_of_lt (by omega)]
  | case2 x0 h =>
    rw [stepRange, dif_neg h]
    have : ¬ x0 < w := fun h' => h ⟨h', hts⟩
    rw [Nat.div_eq_of_lt (by omega)]; rfl

theorem mem_pixels (t : Tile) (p : Nat × Nat) :
    p ∈ t.pixels ↔ (t.x0 ≤ p.1 ∧ p.1 < t.x1) ∧ (t.y0 ≤ p.2 ∧ p.2 < t.y1) := by
  obtain ⟨x, y⟩ := p
  simp only [Tile.pixels, List.mem_flatMap, List.mem_map, List.mem_range'_1, Prod.mk.injEq]
  constructor
  · rintro ⟨iy, hy, ix, hx, rfl, rfl⟩
    omega
  · rintro ⟨hx, hy⟩
    exact ⟨y, by omega, x, by omega, rfl, rfl⟩

theorem pixels_nodup (t : Tile) : t.pixels.Nodup := by
  unfold Tile.pixels
  rw [List.nodup_flatMap]
  constructor
  · intro iy _
    exact (List.nodup_range').map fun a b h => (Prod.mk.inj h).1
  · refine (List.nodup_range').imp ?_
    intro a b hab p hp hq
    simp only [List.mem_map] at hp hq
    obtain ⟨_, _, rfl⟩ := hp
    obtain ⟨_, _, h⟩ := hq
    exact hab (Prod.mk.inj h).2.symm

theorem mem_tessellate {w h ts : Nat} (hts : 0 < ts) (t : Tile) :
    t ∈ tessellate w h ts ↔ ∃ i j, i * ts < w ∧ j * ts < h ∧
      t = ⟨i * ts, j * ts, min (i * ts + ts) w, min (j * ts + ts) h⟩ := by
  simp only [tessellate, List.mem_flatMap, List.mem_map, mem_stepRange hts, Nat.zero_add]
  constructor
  · rintro ⟨_, ⟨hx, i, rfl⟩, _, ⟨hy, j, rfl⟩, rfl⟩
    exact ⟨i, j, hx, hy, rfl⟩
  · rintro ⟨i, j, hx, hy, rfl⟩
    exact ⟨_, ⟨hx, i, rfl⟩, _, ⟨hy, j, rfl⟩, rfl⟩

/-- The grid cell of a coordinate is determined by division. -/
theorem cell_unique {ts i x : Nat} (h1 : i * ts ≤ x) (h2 : x < i * ts + ts) : i = x / ts := by
  have hts : 0 < ts := by omega
  symm
  rw [Nat.div_eq_iff hts]
  constructor
  · linarith
  · have : 0 < ts := hts
    omega

end BR
