import Verif.Lemmas.Image

/-! C39: image containers. -/

namespace BR.Img

variable {C : Type}

/-- A new image has the requested number of rows and columns, shows the zero colour everywhere, is
not readable elsewhere, and no two of its pixels share memory. Existing images keep their contents
and share no pixel with it. -/
theorem C39_make (zero : C) (w h : Nat) (H : Heap C) :
    ∃ img H', make zero w h H = .ok (img, H') ∧ img.length = h ∧ (0 < h → img.size = (w, h)) ∧
      Simple img ∧ Shows H' img w h (fun _ _ => zero) ∧
      ∀ (b : Img) (w' h' : Nat) (g : Nat → Nat → C), Valid H b w' h' → Shows H b w' h' g →
        Shows H' b w' h' g ∧ Apart img b := by
  obtain ⟨img, H', e, v, sm, s, -, hold⟩ := make_spec zero w h H
  refine ⟨img, H', e, v.rows, v.size, sm, s, fun b w' h' g vb sb => ?_⟩
  obtain ⟨-, sb', ap, -⟩ := hold b w' h' g vb sb
  exact ⟨sb', ap⟩

/-- A negative size panics, except that the width does not matter when there are no rows. -/
theorem C39_make_negative (zero : C) (w h : Int) (H : Heap C) (hn : h < 0 ∨ (w < 0 ∧ 0 < h)) :
    ∃ p, make zero w h H = .error p := by
  unfold make
  split_ifs with h1 h2
  · exact ⟨_, rfl⟩
  · exact ⟨_, rfl⟩
  · exfalso
    rcases hn with hn | hn
    · exact h2 hn
    · exact h1 (Int.mul_neg_of_neg_of_pos hn.1 hn.2)

/-- Pixels are independent: after writing one, it reads as written and the others as before. -/
theorem C39_set (H : Heap C) (img : Img) (w h : Nat) (v : Valid H img w h) (sm : Simple img) (f : Nat → Nat → C)
    (s : Shows H img w h f) (x y : Nat) (hx : x < w) (hy : y < h) (c : C) :
    ∃ H', set H img x y c = .ok H' ∧ Shows H' img w h (fun x' y' => if x' = x ∧ y' = y then c else f x' y') := by
  obtain ⟨H', e, -, s', -⟩ := set_shows v sm s hx hy c
  exact ⟨H', e, s'⟩

/-- Histories of writes to two images that share no pixel: each image shows exactly the writes
addressed to it. -/
theorem C39_histories (H : Heap C) (a b : Img) (w h w' h' : Nat) (va : Valid H a w h) (vb : Valid H b w' h')
    (sa : Simple a) (sb : Simple b) (ab : Apart a b) (ba : Apart b a) (f g : Nat → Nat → C)
    (ha : Shows H a w h f) (hb : Shows H b w' h' g) (ws : List (Write C))
    (hin : ∀ p ∈ ws, if p.first then p.x < w ∧ p.y < h else p.x < w' ∧ p.y < h') :
    ∃ H', writes a b ws H = .ok H' ∧ Shows H' a w h (paint true ws f) ∧ Shows H' b w' h' (paint false ws g) := by
  induction ws generalizing H f g with
  | nil => exact ⟨H, rfl, ha, hb⟩
  | cons p ps ih =>
    have hp := hin p (by simp)
    have hps : ∀ q ∈ ps, if q.first then q.x < w ∧ q.y < h else q.x < w' ∧ q.y < h' := fun q hq => hin q (by simp [hq])
    cases hf : p.first with
    | true =>
      rw [hf] at hp
      obtain ⟨H1, e, va1, ha1, hoth⟩ := set_shows va sa ha hp.1 hp.2 p.c
      obtain ⟨vb1, hb1⟩ := hoth b w' h' g vb ab hb
      obtain ⟨H', e', r1, r2⟩ := ih H1 va1 vb1 _ _ ha1 hb1 hps
      refine ⟨H', ?_, ?_, ?_⟩
      · rw [writes, List.foldlM_cons, hf, if_pos rfl, e, ok_bind]; exact e'
      · simpa [paint, hf] using r1
      · simpa [paint, hf] using r2
    | false =>
      rw [hf] at hp
      simp only [Bool.false_eq_true, if_false] at hp
      obtain ⟨H1, e, vb1, hb1, hoth⟩ := set_shows vb sb hb hp.1 hp.2 p.c
      obtain ⟨va1, ha1⟩ := hoth a w h f va ba ha
      obtain ⟨H', e', r1, r2⟩ := ih H1 va1 vb1 _ _ ha1 hb1 hps
      refine ⟨H', ?_, ?_, ?_⟩
      · rw [writes, List.foldlM_cons, hf, if_neg (by simp), e, ok_bind]; exact e'
      · simpa [paint, hf] using r1
      · simpa [paint, hf] using r2

/-- A copy shows what its source shows; the source is not changed by copying; and after any history of
writes to the source (`true`) and the copy (`false`), each shows only the writes to itself. -/
theorem C39_copy (zero : C) (H : Heap C) (img : Img) (w h : Nat) (v : Valid H img w h) (sm : Simple img) (hh : 0 < h)
    (f : Nat → Nat → C) (s : Shows H img w h f) :
    ∃ cpy H', copy zero img H = .ok (cpy, H') ∧ cpy.size = img.size ∧ Shows H' cpy w h f ∧ Shows H' img w h f ∧
      ∀ ws : List (Write C), (∀ p ∈ ws, p.x < w ∧ p.y < h) →
        ∃ H'', writes img cpy ws H' = .ok H'' ∧ Shows H'' img w h (paint true ws f) ∧
          Shows H'' cpy w h (paint false ws f) := by
  obtain ⟨cpy, H', e, vc, smc, sc, ap, ap', vi, si⟩ := copy_spec zero v hh s
  refine ⟨cpy, H', e, ?_, sc, si, fun ws hin => ?_⟩
  · rw [vc.size hh, v.size hh]
  · exact C39_histories H' img cpy w h w h vi vc sm smc ap' ap f f si sc ws fun p hp => by
      split_ifs <;> exact hin p hp

/-- The hypotheses are met by a new 3 by 2 image with one pixel written. -/
example : ∃ (H : Heap Nat) (img : Img), Valid H img 3 2 ∧ Simple img ∧
    Shows H img 3 2 (fun x y => if x = 2 ∧ y = 1 then 7 else 0) := by
  obtain ⟨img, H, -, v, sm, s, -⟩ := make_spec 0 3 2 ([] : Heap Nat)
  obtain ⟨H', -, v', s', -⟩ := set_shows v sm s (show 2 < 3 by omega) (show 1 < 2 by omega) 7
  exact ⟨H', img, v', sm, s'⟩

end BR.Img
