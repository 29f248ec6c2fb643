import Verif.Lemmas.Tiles

/-!
# C01 Tiles partition the image
-/

namespace BR

/-- Every tile lies inside the image, is non-empty and at most `ts` wide and high. -/
theorem C01_inside {w h ts : Nat} (hts : 0 < ts) (t : Tile) (ht : t ∈ tessellate w h ts) :
    t.x0 < t.x1 ∧ t.x1 ≤ w ∧ t.x1 ≤ t.x0 + ts ∧ t.y0 < t.y1 ∧ t.y1 ≤ h ∧ t.y1 ≤ t.y0 + ts := by
  obtain ⟨i, j, hi, hj, rfl⟩ := (mem_tessellate hts t).1 ht
  simp only
  omega

/-- Every pixel of the image is in exactly one tile, and no other pixel is in any. -/
theorem C01_unique {w h ts : Nat} (hts : 0 < ts) (x y : Nat) :
    (x < w ∧ y < h) ↔ ∃! t, t ∈ tessellate w h ts ∧
      (t.x0 ≤ x ∧ x < t.x1) ∧ (t.y0 ≤ y ∧ y < t.y1) := by
  constructor
  · rintro ⟨hx, hy⟩
    have ex := Nat.div_add_mod x ts
    have mx := Nat.mod_lt x hts
    have ey := Nat.div_add_mod y ts
    have my := Nat.mod_lt y hts
    rw [Nat.mul_comm] at ex ey
    refine ⟨⟨x / ts * ts, y / ts * ts, min (x / ts * ts + ts) w, min (y / ts * ts + ts) h⟩,
      ⟨(mem_tessellate hts _).2 ⟨x / ts, y / ts, by omega, by omega, rfl⟩, ?_⟩, ?_⟩
    · simp only; omega
    · rintro t ⟨ht, hxt, hyt⟩
      obtain ⟨i, j, hi, hj, rfl⟩ := (mem_tessellate hts t).1 ht
      simp only at hxt hyt
      have hi' : i = x / ts := cell_unique hxt.1 (by omega)
      have hj' : j = y / ts := cell_unique hyt.1 (by omega)
      subst hi' hj'
      rfl
  · rintro ⟨t, ⟨ht, hx, hy⟩, _⟩
    have := C01_inside hts t ht
    omega

/-- One pass over all tiles visits exactly the pixels of the image, each exactly once. -/
theorem C01_once {w h ts : Nat} (hts : 0 < ts) :
    ((tessellate w h ts).flatMap Tile.pixels).Nodup ∧
    ∀ p, p ∈ (tessellate w h ts).flatMap Tile.pixels ↔ p.1 < w ∧ p.2 < h := by
  constructor
  · rw [List.nodup_flatMap]
    refine ⟨fun t _ => pixels_nodup t, ?_⟩
    have hnd : (tessellate w h ts).Nodup := by
      unfold tessellate
      rw [List.nodup_flatMap]
      refine ⟨fun x0 _ => (stepRange_nodup 0 h ts).map fun a b hab => (Tile.mk.inj hab).2.1, ?_⟩
      refine (stepRange_nodup 0 w ts).imp ?_
      intro a b hab t ht ht'
      simp only [List.mem_map] at ht ht'
      obtain ⟨_, _, rfl⟩ := ht
      obtain ⟨_, _, h⟩ := ht'
      exact hab (Tile.mk.inj h).1.symm
    refine hnd.pairwise_of_forall_ne ?_
    intro t ht t' ht' hne p hp hp'
    rw [mem_pixels] at hp hp'
    have hin := C01_inside hts t ht
    obtain ⟨_, _, hu⟩ := (C01_unique (w := w) (h := h) hts p.1 p.2).1 (by omega)
    exact hne ((hu t ⟨ht, hp⟩).trans (hu t' ⟨ht', hp'⟩).symm)
  · intro p
    rw [List.mem_flatMap, C01_unique hts]
    constructor
    · rintro ⟨t, ht, hp⟩
      rw [mem_pixels] at hp
      have hin := C01_inside hts t ht
      exact (C01_unique hts p.1 p.2).1 (by omega)
    · rintro ⟨t, ⟨ht, hp⟩, _⟩
      exact ⟨t, ht, (mem_pixels t p).2 hp⟩

/-- Non-vacuity: a 20x17 image with the tile size of the code has four tiles, clipped at the border. -/
example : tessellate 20 17 16 = [⟨0, 0, 16, 16⟩, ⟨0, 16, 16, 17⟩, ⟨16, 0, 20, 16⟩, ⟨16, 16, 20, 17⟩] := by
  simp [tessellate, stepRange]

/-- The queue has room for all tiles (also for empty images), so filling it never blocks. -/
theorem C02_capacity (w h : Nat) {ts : Nat} (hts : 0 < ts) :
    ((tessellate w h ts).length : Int) ≤ tileCap w h ts := by
  have hlen : (tessellate w h ts).length
      = (stepRange 0 w ts).length * (stepRange 0 h ts).length := by
    unfold tessellate
    induction stepRange 0 w ts with
    | nil => simp
    | cons a l ih => simp only [List.flatMap_cons, List.length_append, ih, List.length_map,
        List.length_cons]; ring
  have hdiv : ∀ x : Nat, ((stepRange 0 x ts).length : Int) ≤ divUp x ts := by
    intro x
    rw [stepRange_length hts]
    unfold divUp
    rcases Nat.eq_zero_or_pos x with rfl | hx
    · have h0 : (0 - 0 + ts - 1) / ts = 0 := Nat.div_eq_of_lt (by omega)
      rw [h0]
      rcases Nat.lt_or_ge 1 ts with h1 | h1
      · have : Int.tdiv (((0 : Nat) : Int) - 1) ts = 0 := by
          rw [show (((0 : Nat) : Int) - 1) = -1 by rfl, Int.neg_tdiv,
            Int.tdiv_eq_zero_of_lt (by norm_num) (by exact_mod_cast h1)]
          rfl
        rw [this]; simp
      · have : ts = 1 := by omega
        subst this; simp
    · have e : x - 0 + ts - 1 = (x - 1) + ts := by omega
      rw [e, Nat.add_div_right _ hts]
      have : ((x : Int) - 1) = ((x - 1 : Nat) : Int) := by omega
      rw [this, Int.tdiv_eq_ediv_of_nonneg (Int.natCast_nonneg _)]
      push_cast; rfl
  have hnn : ∀ x : Nat, 0 ≤ ((stepRange 0 x ts).length : Int) := fun x => Int.natCast_nonneg _
  rw [hlen, tileCap]
  push_cast
  exact mul_le_mul (hdiv w) (hdiv h) (hnn h) ((hnn w).trans (hdiv w))

/-- For a non-empty image the capacity is exactly the number of tiles. -/
theorem C02_capacity_exact {w h ts : Nat} (hts : 0 < ts) (hw : 0 < w) (hh : 0 < h) :
    ((tessellate w h ts).length : Int) = tileCap w h ts := by
  have hlen : (tessellate w h ts).length
      = (stepRange 0 w ts).length * (stepRange 0 h ts).length := by
    unfold tessellate
    induction stepRange 0 w ts with
    | nil => simp
    | cons a l ih => simp only [List.flatMap_cons, List.length_append, ih, List.length_map,
        List.length_cons]; ring
  have hdiv : ∀ x : Nat, 0 < x → ((stepRange 0 x ts).length : Int) = divUp x ts := by
    intro x hx
    rw [stepRange_length hts]
    unfold divUp
    have e : x - 0 + ts - 1 = (x - 1) + ts := by omega
    rw [e, Nat.add_div_right _ hts]
    have : ((x : Int) - 1) = ((x - 1 : Nat) : Int) := by omega
    rw [this, Int.tdiv_eq_ediv_of_nonneg (Int.natCast_nonneg _)]
    push_cast; rfl
  rw [hlen, tileCap, ← hdiv w hw, ← hdiv h hh]
  push_cast; rfl

end BR
