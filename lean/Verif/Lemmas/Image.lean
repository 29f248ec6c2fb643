import Verif.Spec.Image
import Verif.Lemmas.GoM
import Mathlib.Tactic.Linarith
import Mathlib.Data.Nat.Init
import Mathlib.Tactic.Push
import Mathlib.Tactic.Ring
import Mathlib.Tactic.Positivity

/-! Lemmas about images on the heap. -/

namespace BR

/-- A loop over `0 .. n-1` with an invariant. -/
theorem foldlM_range {α : Type} (P : Nat → α → Prop) (g : α → Nat → GoM α) (n : Nat) (a : α) (h0 : P 0 a)
    (step : ∀ k < n, ∀ a, P k a → ∃ a', g a k = .ok a' ∧ P (k + 1) a') :
    ∃ a', (List.range n).foldlM g a = .ok a' ∧ P n a' := by
  induction n with
  | zero => exact ⟨a, rfl, h0⟩
  | succ n ih =>
    obtain ⟨a', e, h⟩ := ih fun k hk => step k (by omega)
    obtain ⟨a'', e', h'⟩ := step n (by omega) a' h
    refine ⟨a'', ?_, h'⟩
    rw [List.range_succ, List.foldlM_append, e, ok_bind, List.foldlM_cons, e', ok_bind]
    rfl

namespace Img

variable {C : Type} {H : Heap C} {img : Img} {w h : Nat}

theorem Valid.cell (v : Valid H img w h) {x y : Nat} (hx : x < w) (hy : y < h) :
    ∃ r ∈ img, img.cell x y = .ok (r.arr, r.off + x) ∧ img[y]? = some r := by
  have hl : y < img.length := by rw [v.rows]; exact hy
  refine ⟨img[y], List.getElem_mem hl, ?_, List.getElem?_eq_getElem hl⟩
  have hr := (v.row _ (List.getElem_mem hl)).1
  unfold Img.cell
  rw [if_neg (by omega), Int.toNat_natCast, List.getElem?_eq_getElem hl]
  dsimp only
  rw [if_neg (by omega), Int.toNat_natCast]

theorem Valid.cell_out (v : Valid H img w h) {i j : Int} (ho : i < 0 ∨ j < 0 ∨ (w : Int) ≤ i ∨ (h : Int) ≤ j) :
    img.cell i j = .error .indexOutOfRange := by
  unfold Img.cell
  by_cases hj : j < 0
  · rw [if_pos hj]
  rw [if_neg hj]
  cases e : img[j.toNat]? with
  | none => rfl
  | some r =>
    dsimp only
    have hm := List.mem_of_getElem? e
    have hl := (List.getElem?_eq_some_iff.1 e).1
    rw [v.rows] at hl
    have := (v.row r hm).1
    rw [if_pos (by omega)]

/-- Where an index is in range, and only there, there is a cell. -/
theorem Valid.cell_iff (v : Valid H img w h) {i j : Int} {c : Nat × Nat} (e : img.cell i j = .ok c) :
    ∃ x y : Nat, i = x ∧ j = y ∧ x < w ∧ y < h := by
  by_cases ho : i < 0 ∨ j < 0 ∨ (w : Int) ≤ i ∨ (h : Int) ≤ j
  · rw [v.cell_out ho] at e; cases e
  · push Not at ho
    exact ⟨i.toNat, j.toNat, by omega, by omega, by omega, by omega⟩

theorem Valid.inb (v : Valid H img w h) {i j : Int} {c : Nat × Nat} (e : img.cell i j = .ok c) :
    c.2 < (H.getD c.1 []).length := by
  obtain ⟨x, y, rfl, rfl, hx, hy⟩ := v.cell_iff e
  obtain ⟨r, hm, e', -⟩ := v.cell hx hy
  rw [e'] at e
  cases e
  have := (v.row r hm).2
  dsimp only; omega

theorem load_ok {c : Nat × Nat} (hc : c.2 < (H.getD c.1 []).length) : load H c = .ok ((H.getD c.1 [])[c.2]) := by
  unfold load
  rw [List.getElem?_eq_getElem hc]

theorem store_len (c : Nat × Nat) (x : C) (a : Nat) : ((store H c x).getD a []).length = (H.getD a []).length := by
  unfold store
  simp only [List.getD_eq_getElem?_getD, List.getElem?_modify]
  cases H[a]? with
  | none => simp
  | some l => simp only [Option.map_eq_map, Option.map_some, Option.getD_some]; split_ifs <;> simp

theorem load_store_same {c : Nat × Nat} (hc : c.2 < (H.getD c.1 []).length) (x : C) : load (store H c x) c = .ok x := by
  unfold load store
  simp only [List.getD_eq_getElem?_getD, List.getElem?_modify] at hc ⊢
  cases e : H[c.1]? with
  | none => rw [e] at hc; simp at hc
  | some l =>
    rw [e] at hc
    simp only [Option.getD_some] at hc
    simp [hc]

theorem load_store_ne {c c' : Nat × Nat} (hc : c' ≠ c) (x : C) : load (store H c x) c' = load H c' := by
  unfold load store
  simp only [List.getD_eq_getElem?_getD, List.getElem?_modify]
  cases e : H[c'.1]? with
  | none => simp
  | some l =>
    simp only [Option.map_eq_map, Option.map_some, Option.getD_some]
    by_cases h1 : c.1 = c'.1
    · rw [if_pos h1, List.getElem?_set_ne]
      intro h2
      exact hc (Prod.ext h1.symm h2.symm)
    · rw [if_neg h1]

theorem Valid.store (v : Valid H img w h) (c : Nat × Nat) (x : C) : Valid (store H c x) img w h :=
  ⟨v.rows, fun r hr => by rw [store_len]; exact v.row r hr⟩

/-- A valid image shows some picture. -/
theorem Valid.shows [Inhabited C] (v : Valid H img w h) : ∃ f, Shows H img w h f := by
  refine ⟨fun x y => match get H img x y with | .ok c => c | .error _ => default, fun i j => ⟨?_, fun ho => ?_⟩⟩
  · rintro x y rfl rfl hx hy
    obtain ⟨r, hm, e, -⟩ := v.cell hx hy
    have hg : get H img (x : Int) (y : Int) = load H (r.arr, r.off + x) := by unfold get; rw [e]; rfl
    rw [load_ok (v.inb e)] at hg
    dsimp only
    rw [hg]
  · unfold get; rw [v.cell_out ho]; rfl

theorem Shows.get {f : Nat → Nat → C} (s : Shows H img w h f) {x y : Nat} (hx : x < w) (hy : y < h) :
    get H img x y = .ok (f x y) := (s x y).1 x y rfl rfl hx hy

theorem Shows.congr {f g : Nat → Nat → C} (s : Shows H img w h f) (e : ∀ x y, x < w → y < h → f x y = g x y) :
    Shows H img w h g :=
  fun i j => ⟨fun x y hi hj hx hy => by rw [(s i j).1 x y hi hj hx hy, e x y hx hy], (s i j).2⟩

/-- Writing a pixel of an image without sharing. -/
theorem set_shows (v : Valid H img w h) (sm : Simple img) {f : Nat → Nat → C} (s : Shows H img w h f) {x y : Nat}
    (hx : x < w) (hy : y < h) (c : C) :
    ∃ H', set H img x y c = .ok H' ∧ Valid H' img w h ∧
      Shows H' img w h (fun x' y' => if x' = x ∧ y' = y then c else f x' y') ∧
      (∀ (b : Img) (w' h' : Nat) (g : Nat → Nat → C), Valid H b w' h' → Apart img b → Shows H b w' h' g →
        Valid H' b w' h' ∧ Shows H' b w' h' g) := by
  obtain ⟨r, hm, e, -⟩ := v.cell hx hy
  refine ⟨store H (r.arr, r.off + x) c, ?_, v.store _ _, fun i j => ⟨?_, fun ho => ?_⟩, ?_⟩
  · unfold set; rw [e]; rfl
  · rintro x' y' rfl rfl hx' hy'
    obtain ⟨r', hm', e', -⟩ := v.cell hx' hy'
    unfold Img.get
    dsimp only
    rw [e', ok_bind]
    by_cases hxy : x' = x ∧ y' = y
    · obtain ⟨rfl, rfl⟩ := hxy
      rw [e] at e'
      injection e' with e'
      rw [← e', load_store_same (v.inb e), if_pos ⟨rfl, rfl⟩]
    · rw [load_store_ne, if_neg hxy]
      · have := s.get hx' hy'
        unfold Img.get at this
        rwa [e', ok_bind] at this
      · intro hE
        rw [hE] at e'
        have := sm _ _ _ _ _ e' e
        omega
  · unfold Img.get; rw [v.cell_out ho]; rfl
  · intro b w' h' g vb ap sb
    refine ⟨vb.store _ _, fun i j => ⟨?_, fun ho => ?_⟩⟩
    · rintro x' y' rfl rfl hx' hy'
      obtain ⟨r', hm', e', -⟩ := vb.cell hx' hy'
      have := sb.get hx' hy'
      unfold Img.get at this ⊢
      rw [e', ok_bind] at this ⊢
      rw [load_store_ne]
      · exact this
      · exact (ap _ _ _ _ _ _ e e').symm
    · unfold Img.get; rw [vb.cell_out ho]; rfl

/-- A new image. -/
theorem make_spec (zero : C) (w h : Nat) (H : Heap C) :
    ∃ img H', make zero w h H = .ok (img, H') ∧ Valid H' img w h ∧ Simple img ∧ Shows H' img w h (fun _ _ => zero) ∧
      (∀ i j c, img.cell i j = .ok c → c.1 = H.length) ∧
      (∀ (b : Img) (w' h' : Nat) (g : Nat → Nat → C), Valid H b w' h' → Shows H b w' h' g →
        Valid H' b w' h' ∧ Shows H' b w' h' g ∧ Apart img b ∧ Apart b img) := by
  have hcellR : ∀ (r : Slice), r ∈ ((List.range h).map fun i => (⟨H.length, i * w, w⟩ : Slice)) →
      ∃ k < h, r = ⟨H.length, k * w, w⟩ := by
    intro r hr
    obtain ⟨k, hk, rfl⟩ := List.mem_map.1 hr
    exact ⟨k, List.mem_range.1 hk, rfl⟩
  have hnew : (H ++ [List.replicate (w * h) zero]).getD H.length [] = List.replicate (w * h) zero := by
    simp [List.getD_eq_getElem?_getD]
  have v : Valid (H ++ [List.replicate (w * h) zero]) ((List.range h).map fun i => (⟨H.length, i * w, w⟩ : Slice)) w h := by
    refine ⟨by simp, fun r hr => ?_⟩
    obtain ⟨k, hk, rfl⟩ := hcellR r hr
    refine ⟨rfl, ?_⟩
    dsimp only
    rw [hnew, List.length_replicate]
    calc k * w + w = (k + 1) * w := by ring
      _ ≤ h * w := Nat.mul_le_mul_right _ hk
      _ = w * h := Nat.mul_comm _ _
  have hcell : ∀ {x y : Nat}, x < w → y < h →
      Img.cell ((List.range h).map fun i => (⟨H.length, i * w, w⟩ : Slice)) x y = .ok (H.length, y * w + x) := by
    intro x y hx hy
    obtain ⟨r, hm, e, hr⟩ := v.cell hx hy
    rw [e]
    simp only [List.getElem?_map, List.getElem?_range hy, Option.map_some, Option.some.injEq] at hr
    rw [← hr]
  refine ⟨_, _, ?_, v, ?_, ?_, ?_, ?_⟩
  · unfold make
    rw [if_neg (not_lt.2 (by positivity)), if_neg (by omega), Int.toNat_natCast, Int.toNat_natCast,
      show ((w : Int) * (h : Int)).toNat = w * h by rw [← Int.natCast_mul, Int.toNat_natCast]]
  · intro i j i' j' c e e'
    obtain ⟨x, y, rfl, rfl, hx, hy⟩ := v.cell_iff e
    obtain ⟨x', y', rfl, rfl, hx', hy'⟩ := v.cell_iff e'
    rw [hcell hx hy] at e
    rw [hcell hx' hy', ← e] at e'
    simp only [Except.ok.injEq, Prod.mk.injEq, true_and] at e'
    have hy0 : y = y' := by
      have h1 : (y' * w + x') / w = y' := by
        rw [Nat.mul_comm, Nat.mul_add_div (by omega), Nat.div_eq_of_lt hx']; rfl
      have h2 : (y * w + x) / w = y := by
        rw [Nat.mul_comm, Nat.mul_add_div (by omega), Nat.div_eq_of_lt hx]; rfl
      rw [← h1, ← h2, e']
    subst hy0
    omega
  · intro i j
    refine ⟨?_, fun ho => ?_⟩
    · rintro x y rfl rfl hx hy
      have hc := v.inb (hcell hx hy)
      unfold Img.get
      rw [hcell hx hy, ok_bind, load_ok hc]
      simp only [hnew, List.getElem_replicate]
    · unfold Img.get; rw [v.cell_out ho]; rfl
  · intro i j c e
    obtain ⟨x, y, rfl, rfl, hx, hy⟩ := v.cell_iff e
    rw [hcell hx hy] at e
    cases e; rfl
  · intro b w' h' g vb sb
    have hold : ∀ {i j : Int} {c : Nat × Nat}, b.cell i j = .ok c → c.1 < H.length := by
      intro i j c e
      have := vb.inb e
      by_contra hn
      rw [List.getD_eq_getElem?_getD, List.getElem?_eq_none (by omega)] at this
      simp at this
    have hsame : ∀ a < H.length, (H ++ [List.replicate (w * h) zero]).getD a [] = H.getD a [] := by
      intro a ha
      simp only [List.getD_eq_getElem?_getD, List.getElem?_append_left ha]
    have hap : Apart ((List.range h).map fun i => (⟨H.length, i * w, w⟩ : Slice)) b := by
      intro i j i' j' c c' e e' hcc
      obtain ⟨x, y, rfl, rfl, hx, hy⟩ := v.cell_iff e
      rw [hcell hx hy] at e
      cases e
      have := hold e'
      rw [← hcc] at this
      exact lt_irrefl _ this
    refine ⟨⟨vb.rows, fun r hr => ⟨(vb.row r hr).1, ?_⟩⟩, fun i j => ⟨?_, fun ho => ?_⟩, hap, ?_⟩
    · have h1 := (vb.row r hr).2
      by_cases ha : r.arr < H.length
      · rw [hsame _ ha]; exact h1
      · rw [List.getD_eq_getElem?_getD, List.getElem?_eq_none (by omega)] at h1
        simp only [Option.getD_none, List.length_nil] at h1
        omega
    · rintro x y rfl rfl hx hy
      obtain ⟨r, hm, e, -⟩ := vb.cell hx hy
      have := sb.get hx hy
      unfold Img.get at this ⊢
      rw [e, ok_bind] at this ⊢
      unfold load at this ⊢
      rwa [hsame _ (hold e)]
    · unfold Img.get
      rw [vb.cell_out ho]; rfl
    · intro i j i' j' c c' e e'
      exact (hap _ _ _ _ _ _ e' e).symm

theorem Valid.size (v : Valid H img w h) (hh : 0 < h) : img.size = (w, h) := by
  cases img with
  | nil => have := v.rows; simp at this; omega
  | cons r rs =>
    have h1 := v.rows
    have h2 := (v.row r (by simp)).1
    unfold Img.size
    dsimp only
    rw [h1, h2]

/-- A copy of a valid image; nothing else changes. -/
theorem copy_frame (zero : C) (v : Valid H img w h) (hh : 0 < h) {f : Nat → Nat → C} (s : Shows H img w h f) :
    ∃ cpy H', copy zero img H = .ok (cpy, H') ∧ Valid H' cpy w h ∧ Simple cpy ∧ Shows H' cpy w h f ∧
      (∀ (b : Img) (w' h' : Nat) (g : Nat → Nat → C), Valid H b w' h' → Shows H b w' h' g →
        Valid H' b w' h' ∧ Shows H' b w' h' g ∧ Apart cpy b ∧ Apart b cpy) := by
  obtain ⟨cpy, H1, e1, v1, sm, s1, -, hold⟩ := make_spec zero w h H
  have loop : ∃ H', (List.range h).foldlM (fun H (iy : Nat) => copyRow img cpy w iy H) H1 = .ok H' ∧
      ((∀ (b : Img) (w' h' : Nat) (g : Nat → Nat → C), Valid H b w' h' → Shows H b w' h' g →
        Valid H' b w' h' ∧ Shows H' b w' h' g) ∧ Valid H' cpy w h ∧
        Shows H' cpy w h (fun x y => if y < h then f x y else zero)) := by
    refine foldlM_range (fun k H' => (∀ (b : Img) (w' h' : Nat) (g : Nat → Nat → C), Valid H b w' h' → Shows H b w' h' g →
        Valid H' b w' h' ∧ Shows H' b w' h' g) ∧ Valid H' cpy w h ∧
        Shows H' cpy w h (fun x y => if y < k then f x y else zero)) _ h H1
        ⟨fun b w' h' g vb sb => ⟨(hold b w' h' g vb sb).1, (hold b w' h' g vb sb).2.1⟩, v1, ?_⟩ ?_
    · simpa using s1
    · rintro k hk Hk ⟨fr, vb, sb⟩
      obtain ⟨H', e, fr', vb', sb'⟩ := foldlM_range (fun m H' => (∀ (b : Img) (w' h' : Nat) (g : Nat → Nat → C),
          Valid H b w' h' → Shows H b w' h' g → Valid H' b w' h' ∧ Shows H' b w' h' g) ∧ Valid H' cpy w h ∧
        Shows H' cpy w h (fun x y => if y < k ∨ (y = k ∧ x < m) then f x y else zero))
        (fun H (ix : Nat) => do set H cpy ix k (← get H img ix k)) w Hk ⟨fr, vb, by simpa using sb⟩ (by
          rintro m hm Hm ⟨fr, vb, sb⟩
          obtain ⟨H', e, vb', sb', hoth⟩ := set_shows vb sm sb hm hk (f m k)
          refine ⟨H', ?_, fun b w' h' g vb sb => hoth b w' h' g (fr b w' h' g vb sb).1 (hold b w' h' g vb sb).2.2.1
            (fr b w' h' g vb sb).2, vb', sb'.congr fun x y hx hy => ?_⟩
          · rw [(fr img w h f v s).2.get hm hk, ok_bind]; exact e
          · by_cases h1 : x = m ∧ y = k
            · obtain ⟨rfl, rfl⟩ := h1
              rw [if_pos ⟨rfl, rfl⟩, if_pos (by omega)]
            · rw [if_neg h1]
              by_cases h2 : y < k ∨ (y = k ∧ x < m)
              · rw [if_pos h2, if_pos (by omega)]
              · rw [if_neg h2, if_neg (by omega)])
      refine ⟨H', e, fr', vb', sb'.congr fun x y hx hy => ?_⟩
      by_cases h2 : y < k ∨ (y = k ∧ x < w)
      · rw [if_pos h2, if_pos (by omega)]
      · rw [if_neg h2, if_neg (by omega)]
  obtain ⟨H', e, fr, vb, sb⟩ := loop
  refine ⟨cpy, H', ?_, vb, sm, sb.congr fun x y _ hy => if_pos hy, fun b w' h' g vb sb =>
    ⟨(fr b w' h' g vb sb).1, (fr b w' h' g vb sb).2, (hold b w' h' g vb sb).2.2⟩⟩
  unfold copy
  simp only [v.size hh, e1, ok_bind, e]
  rfl

/-- A copy of a valid image. -/
theorem copy_spec (zero : C) (v : Valid H img w h) (hh : 0 < h) {f : Nat → Nat → C} (s : Shows H img w h f) :
    ∃ cpy H', copy zero img H = .ok (cpy, H') ∧ Valid H' cpy w h ∧ Simple cpy ∧ Shows H' cpy w h f ∧
      Apart cpy img ∧ Apart img cpy ∧ Valid H' img w h ∧ Shows H' img w h f := by
  obtain ⟨cpy, H', e, v1, sm, s1, fr⟩ := copy_frame zero v hh s
  obtain ⟨v2, s2, ap, ap'⟩ := fr img w h f v s
  exact ⟨cpy, H', e, v1, sm, s1, ap, ap', v2, s2⟩

end Img

end BR
