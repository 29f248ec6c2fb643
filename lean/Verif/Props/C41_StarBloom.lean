import Verif.Props.C40_Bloom

/-! C41: star bloom of a finite image is finite for every positive radius.

This is true when the radius is at least four pixels. For smaller radii the star kernel is empty, its total is zero, and
the normalisation divides by it: every pixel at or above the threshold becomes NaN. -/

namespace BR.Post

open Finset Img

/-- Horizontal or vertical distance from the centre. -/
def dist (p x : Nat) : Nat := if x ≤ p then p - x else x - p

/-- The star: eight arms, from distance 2 to distance `p - 2`, falling off quadratically, the diagonal ones weaker. -/
noncomputable def star (p m : Nat) (x y : Nat) (_ : Ch) : ℝ :=
  if dist p y = 0 ∧ 2 ≤ dist p x ∧ dist p x < m then ((p - dist p x : ℝ) / p) * ((p - dist p x : ℝ) / p)
  else if dist p x = 0 ∧ 2 ≤ dist p y ∧ dist p y < m then ((p - dist p y : ℝ) / p) * ((p - dist p y : ℝ) / p)
  else if dist p x = dist p y ∧ 2 ≤ dist p x ∧ dist p x < m then
    1 / Real.sqrt 2 * (((p - dist p x : ℝ) / p) * ((p - dist p x : ℝ) / p))
  else 0

private theorem dist_zero {p x : Nat} : dist p x = 0 ↔ x = p := by
  unfold dist
  split_ifs <;> omega

private theorem dist_eq {p x i : Nat} (hi : 0 < i) : dist p x = i ↔ x = p + i ∨ x + i = p := by
  unfold dist
  split_ifs <;> omega

/-- The eight writes of one step. -/
private theorem pick {C : Type} (old c1 c2 : C) {p i x y : Nat} (h2 : 2 ≤ i) (hi : i ≤ p) :
    (if x = p + i ∧ y = p - i then c2 else if x = p - i ∧ y = p + i then c2 else if x = p - i ∧ y = p - i then c2
      else if x = p + i ∧ y = p + i then c2 else if x = p ∧ y = p - i then c1 else if x = p ∧ y = p + i then c1
      else if x = p - i ∧ y = p then c1 else if x = p + i ∧ y = p then c1 else old) =
    if dist p y = 0 ∧ dist p x = i then c1 else if dist p x = 0 ∧ dist p y = i then c1
      else if dist p x = i ∧ dist p y = i then c2 else old := by
  simp only [dist_zero, dist_eq (show 0 < i by omega)]
  split_ifs <;> first | rfl | (exfalso; omega)

/-- Drawing the arms at one distance. -/
private theorem starArm_is {H : Heap (Color Ext)} {k : Img} {p i : Nat} (h2 : 2 ≤ i) (hi : i ≤ p)
    (v : Valid H k (2 * p + 1) (2 * p + 1)) (sm : Simple k) {f : Nat → Nat → Color Ext}
    (s : Shows H k (2 * p + 1) (2 * p + 1) f) (fin : Finite (2 * p + 1) (2 * p + 1) f (star p i)) :
    ∃ H', starArm k p i H = .ok H' ∧ Valid H' k (2 * p + 1) (2 * p + 1) ∧
      (∃ f', Shows H' k (2 * p + 1) (2 * p + 1) f' ∧ Finite (2 * p + 1) (2 * p + 1) f' (star p (i + 1))) ∧
      (∀ (b : Img) (w' h' : Nat) (g : Nat → Nat → Color Ext), Valid H b w' h' → Apart k b → Shows H b w' h' g →
        Valid H' b w' h' ∧ Shows H' b w' h' g) := by
  have hp : (p : ℝ) ≠ 0 := by
    have : 0 < p := by omega
    exact_mod_cast this.ne'
  have hv : (sqr (ofInt ((p : Int) - i) / ofInt (p : Int)) : Ext).Is (((p - i : ℝ) / p) * ((p - i : ℝ) / p)) := by
    have a : (ofInt ((p : Int) - i) : Ext).Is ((p : ℝ) - i) := ⟨_, by rw [Ext.ofInt_ext]; push_cast; rfl⟩
    have b : (ofInt (p : Int) : Ext).Is (p : ℝ) := ⟨_, by rw [Ext.ofInt_ext]; push_cast; rfl⟩
    exact (a.div b hp).mul (a.div b hp)
  have hs : (lit 1 / GoFloat.sqrt (lit 2) : Ext).Is (1 / Real.sqrt 2) := by
    have a : (lit 1 : Ext).Is 1 := by simpa using Ext.Is.lit 1
    have b : (GoFloat.sqrt (lit 2) : Ext).Is (Real.sqrt 2) := by
      refine ⟨false, ?_⟩
      change (if ((2 : ℚ) : ℝ) < 0 then Ext.nan else Ext.num (Real.sqrt ((2 : ℚ) : ℝ)) false) = _
      norm_num
    exact a.div b (by positivity)
  unfold starArm
  dsimp only
  generalize (sqr (ofInt ((p : Int) - i) / ofInt (p : Int)) : Ext) = val at hv ⊢
  generalize hc1 : (⟨val, val, val⟩ : Color Ext) = c1
  generalize hc2 : c1.mul (lit 1 / GoFloat.sqrt (lit 2) : Ext) = c2
  have e1 : (p : Int) + i = ((p + i : Nat) : Int) := by push_cast; rfl
  have e2 : (p : Int) - i = ((p - i : Nat) : Int) := by omega
  rw [e1, e2]
  obtain ⟨H1, q1, v1, s1, o1⟩ := set_shows v sm s (x := p + i) (y := p) (by omega) (by omega) c1
  obtain ⟨H2, q2, v2, s2, o2⟩ := set_shows v1 sm s1 (x := p - i) (y := p) (by omega) (by omega) c1
  obtain ⟨H3, q3, v3, s3, o3⟩ := set_shows v2 sm s2 (x := p) (y := p + i) (by omega) (by omega) c1
  obtain ⟨H4, q4, v4, s4, o4⟩ := set_shows v3 sm s3 (x := p) (y := p - i) (by omega) (by omega) c1
  obtain ⟨H5, q5, v5, s5, o5⟩ := set_shows v4 sm s4 (x := p + i) (y := p + i) (by omega) (by omega) c2
  obtain ⟨H6, q6, v6, s6, o6⟩ := set_shows v5 sm s5 (x := p - i) (y := p - i) (by omega) (by omega) c2
  obtain ⟨H7, q7, v7, s7, o7⟩ := set_shows v6 sm s6 (x := p - i) (y := p + i) (by omega) (by omega) c2
  obtain ⟨H8, q8, v8, s8, o8⟩ := set_shows v7 sm s7 (x := p + i) (y := p - i) (by omega) (by omega) c2
  refine ⟨H8, ?_, v8, ⟨_, s8, ?_⟩, ?_⟩
  · rw [q1, ok_bind, q2, ok_bind, q3, ok_bind, q4, ok_bind, q5, ok_bind, q6, ok_bind, q7, ok_bind, q8]
  · intro x y hx hy ch
    have g1 : (c1.at ch).Is (((p - i : ℝ) / p) * ((p - i : ℝ) / p)) := by subst hc1; cases ch <;> exact hv
    have g2 : (c2.at ch).Is (1 / Real.sqrt 2 * (((p - i : ℝ) / p) * ((p - i : ℝ) / p))) := by
      subst hc2
      rw [Color.at_mul]
      exact hs.mul g1
    have old := fin x y hx hy ch
    dsimp only
    rw [pick (f x y) c1 c2 h2 hi]
    by_cases ax : dist p y = 0 ∧ dist p x = i
    · have hst : star p (i + 1) x y ch = ((p - i : ℝ) / p) * ((p - i : ℝ) / p) := by
        unfold star
        rw [if_pos (by omega), ax.2]
      rw [hst, if_pos ax]
      exact g1
    by_cases ay : dist p x = 0 ∧ dist p y = i
    · have hst : star p (i + 1) x y ch = ((p - i : ℝ) / p) * ((p - i : ℝ) / p) := by
        unfold star
        rw [if_neg (by omega), if_pos (by omega), ay.2]
      rw [hst, if_neg ax, if_pos ay]
      exact g1
    by_cases ad : dist p x = i ∧ dist p y = i
    · have hst : star p (i + 1) x y ch = 1 / Real.sqrt 2 * (((p - i : ℝ) / p) * ((p - i : ℝ) / p)) := by
        unfold star
        rw [if_neg (by omega), if_neg (by omega), if_pos (by omega), ad.1]
      rw [hst, if_neg ax, if_neg ay, if_pos ad]
      exact g2
    · have hst : star p (i + 1) x y ch = star p i x y ch := by
        unfold star
        have c1 : (dist p y = 0 ∧ 2 ≤ dist p x ∧ dist p x < i + 1) ↔ (dist p y = 0 ∧ 2 ≤ dist p x ∧ dist p x < i) := by omega
        have c2 : (dist p x = 0 ∧ 2 ≤ dist p y ∧ dist p y < i + 1) ↔ (dist p x = 0 ∧ 2 ≤ dist p y ∧ dist p y < i) := by omega
        have c3 : (dist p x = dist p y ∧ 2 ≤ dist p x ∧ dist p x < i + 1) ↔ (dist p x = dist p y ∧ 2 ≤ dist p x ∧ dist p x < i) := by omega
        simp only [c1, c2, c3]
      rw [hst, if_neg ax, if_neg ay, if_neg ad]
      exact old
  · intro b w' h' g vb ap sb
    obtain ⟨a1, b1⟩ := o1 b w' h' g vb ap sb
    obtain ⟨a2, b2⟩ := o2 b w' h' g a1 ap b1
    obtain ⟨a3, b3⟩ := o3 b w' h' g a2 ap b2
    obtain ⟨a4, b4⟩ := o4 b w' h' g a3 ap b3
    obtain ⟨a5, b5⟩ := o5 b w' h' g a4 ap b4
    obtain ⟨a6, b6⟩ := o6 b w' h' g a5 ap b5
    obtain ⟨a7, b7⟩ := o7 b w' h' g a6 ap b6
    exact o8 b w' h' g a7 ap b7

/-- The star kernel. -/
private theorem starKernel_is (p : Nat) (H : Heap (Color Ext)) :
    ∃ k H', starKernel (p : Int) H = .ok (k, H') ∧ Displays H' k (2 * p + 1) (2 * p + 1) (star p (2 + (p - 3))) ∧
      (∀ (b : Img) (w' h' : Nat) (g : Nat → Nat → Color Ext), Valid H b w' h' → Shows H b w' h' g →
        Valid H' b w' h' ∧ Shows H' b w' h' g) := by
  obtain ⟨k, H1, e1, v1, sm, s1, -, hold⟩ := make_spec (Color.black : Color Ext) (2 * p + 1) (2 * p + 1) H
  obtain ⟨H', e, v', ⟨f', s', p'⟩, fr⟩ := foldlM_range (fun m H' => Valid H' k (2 * p + 1) (2 * p + 1) ∧
      (∃ f', Shows H' k (2 * p + 1) (2 * p + 1) f' ∧ Finite (2 * p + 1) (2 * p + 1) f' (star p (2 + m))) ∧
      (∀ (b : Img) (w' h' : Nat) (g : Nat → Nat → Color Ext), Valid H b w' h' → Shows H b w' h' g →
        Valid H' b w' h' ∧ Shows H' b w' h' g))
      (fun H (i : Nat) => starArm k p (2 + i) H) (p - 3) H1 ⟨v1, ⟨_, s1, by
        intro x y _ _ ch
        have hz : star p (2 + 0) x y ch = 0 := by
          unfold star
          rw [if_neg (by omega), if_neg (by omega), if_neg (by omega)]
        rw [hz]
        cases ch <;> simpa [Color.at, Color.black] using Ext.Is.lit 0⟩,
        fun b w' h' g vb sb => ⟨(hold b w' h' g vb sb).1, (hold b w' h' g vb sb).2.1⟩⟩ (by
    rintro i hi H2 ⟨v2, ⟨f2, s2, p2⟩, fr2⟩
    obtain ⟨H', e, v', pic, oth⟩ := starArm_is (by omega : 2 ≤ 2 + i) (by omega : 2 + i ≤ p) v2 sm s2 p2
    refine ⟨H', by push_cast at e; exact e, v', pic, fun b w' h' g vb sb => ?_⟩
    obtain ⟨v3, s3⟩ := fr2 b w' h' g vb sb
    exact oth b w' h' g v3 (hold b w' h' g vb sb).2.2.1 s3)
  refine ⟨k, H', ?_, ⟨v', f', s', p'⟩, fr⟩
  have hn : (2 * (p : Int) + 1) = ((2 * p + 1 : Nat) : Int) := by push_cast; ring
  have h3 : ((p : Int) - 3).toNat = p - 3 := by omega
  unfold starKernel
  dsimp only
  rw [hn, e1, ok_bind]
  dsimp only
  rw [h3, e, ok_bind]
  rfl

private theorem numPix_eq {radius pixelSize : Ext} {r p : ℝ} (hr : radius.Is r) (hp : pixelSize.Is p) (hr0 : 0 < r) (hp0 : 0 < p) :
    GoFloat.trunc (radius / pixelSize) = ((⌊r / p⌋₊ : Nat) : Int) := by
  obtain ⟨s, e⟩ := hr.div hp hp0.ne'
  rw [e]
  change realTrunc _ = _
  unfold realTrunc
  rw [if_pos (by positivity), ← Int.natCast_floor_eq_floor (by positivity)]

/-- **C41 (partial).** For a radius of at least four pixels, star bloom of a finite picture gives a finite picture:
the old one plus the glow of the star. Missing: smaller radii, where it is false (`C41_violated`). -/
theorem C41_partial (H : Heap (Color Ext)) (img : Img) (w h : Nat) (hh : 0 < h) (S : Nat → Nat → Ch → ℝ)
    (hs : Displays H img w h S) (pixelSize radius amplitude threshold : Ext) (p r A T : ℝ) (hp : pixelSize.Is p)
    (hr : radius.Is r) (hA : amplitude.Is A) (hT : threshold.Is T) (hp0 : 0 < p) (hr0 : 4 * p ≤ r) :
    ∃ img2 H', starBloom img pixelSize radius amplitude threshold H = .ok (img2, H') ∧
      Displays H' img2 w h (fun x y ch => S x y ch +
        Bloom.glow w h S (star ⌊r / p⌋₊ (⌊r / p⌋₊ - 1)) (2 * ⌊r / p⌋₊ + 1) (2 * ⌊r / p⌋₊ + 1) A T x y ch) ∧
      (∀ (b : Img) (w' h' : Nat) (P : Nat → Nat → Ch → ℝ), Displays H b w' h' P → Displays H' b w' h' P ∧ Apart img2 b) := by
  have hn := numPix_eq hr hp (by linarith) hp0
  have h4 : 4 ≤ ⌊r / p⌋₊ := Nat.le_floor (by rw [le_div_iff₀ hp0]; push_cast; exact hr0)
  obtain ⟨k, H1, e1, d1, fr1⟩ := starKernel_is ⌊r / p⌋₊ H
  generalize ⌊r / p⌋₊ = n at *
  have hidx : 2 + (n - 3) = n - 1 := by omega
  rw [hidx] at d1
  have hm : Bloom.mass (star n (n - 1)) (2 * n + 1) (2 * n + 1) ≠ 0 := by
    have pos : ∀ x y ch, 0 ≤ star n (n - 1) x y ch := by
      intro x y ch
      unfold star
      split_ifs
      · exact mul_self_nonneg _
      · exact mul_self_nonneg _
      · exact mul_nonneg (by positivity) (mul_self_nonneg _)
      · exact le_rfl
    have arm : ∀ ch, 0 < star n (n - 1) (n + 2) n ch := by
      intro ch
      have d0 : dist n n = 0 := by unfold dist; simp
      have d2 : dist n (n + 2) = 2 := by unfold dist; rw [if_neg (by omega)]; omega
      unfold star
      rw [d0, d2, if_pos ⟨rfl, le_rfl, by omega⟩]
      have a : (4 : ℝ) ≤ n := by exact_mod_cast h4
      have b : (0 : ℝ) < (n - (2 : Nat)) / n := div_pos (by push_cast; linarith) (by linarith)
      exact mul_pos b b
    refine ne_of_gt (Finset.sum_pos' (fun y _ => Finset.sum_nonneg fun x _ => ?_) ⟨n, by simp; omega,
      Finset.sum_pos' (fun x _ => ?_) ⟨n + 2, by simp; omega, ?_⟩⟩)
    · have := pos x y .r; have := pos x y .g; have := pos x y .b; positivity
    · have := pos x n .r; have := pos x n .g; have := pos x n .b; positivity
    · have := arm .r; have := arm .g; have := arm .b; positivity
  obtain ⟨img2, H', e, d, -, fr⟩ := bloom_with hh hs d1 fr1 hA hT hm
  refine ⟨img2, H', ?_, d, fr⟩
  unfold starBloom
  dsimp only
  rw [hn, e1, ok_bind]
  exact e

/-- Only the image may have changed, and the pixel is NaN if `done` holds. -/
private structure Bad (H0 : Heap (Color Ext)) (dst : Img) (w h : Nat) (x y : Nat) (done : Prop) (H : Heap (Color Ext)) : Prop where
  valid : Valid H dst w h
  nan : done → ∃ c, Img.get H dst x y = .ok c ∧ ∀ ch, c.at ch = .nan
  frame : ∀ (b : Img) (w' h' : Nat) (g : Nat → Nat → Color Ext), Valid H0 b w' h' → Apart dst b → Shows H0 b w' h' g →
    Valid H b w' h' ∧ Shows H b w' h' g

private theorem Bad.imp {H0 : Heap (Color Ext)} {dst : Img} {w h x y : Nat} {d d' : Prop} {H : Heap (Color Ext)}
    (b : Bad H0 dst w h x y d H) (hd : d' → d) : Bad H0 dst w h x y d' H := ⟨b.valid, fun h => b.nan (hd h), b.frame⟩

/-- A loop whose step number `t` makes the pixel NaN. -/
private theorem bad_loop {H0 : Heap (Color Ext)} {dst : Img} {w h x y : Nat} (g : Nat → Heap (Color Ext) → GoM (Heap (Color Ext)))
    (n : Nat) (d : Prop) (now : Nat → Prop)
    (hg : ∀ k < n, ∀ d H, Bad H0 dst w h x y d H → ∃ H', g k H = .ok H' ∧ Bad H0 dst w h x y (d ∨ now k) H')
    (H : Heap (Color Ext)) (b : Bad H0 dst w h x y d H) :
    ∃ H', (List.range n).foldlM (fun H k => g k H) H = .ok H' ∧ Bad H0 dst w h x y (d ∨ ∃ k < n, now k) H' := by
  refine foldlM_range (fun m H' => Bad H0 dst w h x y (d ∨ ∃ k < m, now k) H') _ n H (b.imp (by simp)) ?_
  intro k hk H' b'
  obtain ⟨H'', e, b''⟩ := hg k hk _ H' b'
  refine ⟨H'', e, b''.imp ?_⟩
  rintro (h | ⟨k', hk', h⟩)
  · exact Or.inl (Or.inl h)
  · rcases Nat.lt_succ_iff_lt_or_eq.1 hk' with h1 | rfl
    · exact Or.inl (Or.inr ⟨k', h1, h⟩)
    · exact Or.inr h

/-- **C41 violated.** For every finite picture and every radius below four pixels, star bloom succeeds, but every
pixel with a channel at or above the threshold becomes NaN in all channels. -/
theorem C41_violated (H : Heap (Color Ext)) (img : Img) (w h : Nat) (S : Nat → Nat → Ch → ℝ)
    (hs : Displays H img w h S) (pixelSize radius amplitude threshold : Ext) (p r A T : ℝ) (hp : pixelSize.Is p)
    (hr : radius.Is r) (hA : amplitude.Is A) (hT : threshold.Is T) (hp0 : 0 < p) (hr0 : 0 < r) (hr4 : r < 4 * p)
    (x y : Nat) (hx : x < w) (hy : y < h) (ch0 : Ch) (bright : T ≤ S x y ch0) :
    ∃ img2 H' c, starBloom img pixelSize radius amplitude threshold H = .ok (img2, H') ∧
      Img.get H' img2 x y = .ok c ∧ ∀ ch, c.at ch = .nan := by
  have hn := numPix_eq hr hp hr0 hp0
  have h4 : ⌊r / p⌋₊ < 4 := (Nat.floor_lt (by positivity)).2 (by rw [div_lt_iff₀ hp0]; push_cast; exact hr4)
  obtain ⟨k0, H1, e1, ⟨vk, fk, sk, pk⟩, fr1⟩ := starKernel_is ⌊r / p⌋₊ H
  generalize ⌊r / p⌋₊ = n at *
  have zero : ∀ x y ch, star n (2 + (n - 3)) x y ch = 0 := by
    intro x y ch
    unfold star
    rw [if_neg (by omega), if_neg (by omega), if_neg (by omega)]
  obtain ⟨vs, fs, ss, ps⟩ := hs
  obtain ⟨v1, s1⟩ := fr1 img w h fs vs ss
  have hh : 0 < h := by omega
  obtain ⟨img2, H2, e2, v2, sm2, s2, fr2⟩ := copy_frame Color.black v1 hh s1
  obtain ⟨va, sa, ap, -⟩ := fr2 img w h fs v1 s1
  obtain ⟨vk2, sk2, -, -⟩ := fr2 k0 _ _ fk vk sk
  obtain ⟨sum, e3, hsum⟩ := kernelSum_is vk2 sk2 pk
  have hm0 : Bloom.mass (star n (2 + (n - 3))) (2 * n + 1) (2 * n + 1) = 0 := by simp [Bloom.mass, zero]
  rw [hm0] at hsum
  obtain ⟨k, H3, e4, v3, sm3, s3, fr3⟩ := copy_frame Color.black vk2 (by omega) sk2
  obtain ⟨H4, e5, v4, s4, fr4⟩ := scale_is v3 sm3 s3 (amplitude / sum)
  -- the scaled kernel is NaN everywhere
  have nanK : ∀ a b, a < 2 * n + 1 → b < 2 * n + 1 → ∀ ch, (((fk a b).mul (amplitude / sum)).at ch) = .nan := by
    intro a b ha hb ch
    rw [Color.at_mul]
    obtain ⟨s, e⟩ := pk a b ha hb ch
    rw [e, zero]
    obtain ⟨s', e'⟩ := hA
    obtain ⟨t, e''⟩ := hsum
    rw [e', e'', Ext.num_div_zero]
    split_ifs
    · exact Ext.nan_mul _
    · rw [Ext.inf_mul_num, if_pos rfl]
  have up4 : ∀ (b : Img) (w' h' : Nat) (g : Nat → Nat → Color Ext), Valid H2 b w' h' → Shows H2 b w' h' g →
      Valid H4 b w' h' ∧ Shows H4 b w' h' g := by
    intro b w' h' g vb sb
    obtain ⟨va, sa, a1, -⟩ := fr3 b w' h' g vb sb
    exact fr4 b w' h' g va a1 sa
  have b0 : Bad H4 img2 w h x y False H4 := ⟨(up4 img2 w h fs v2 s2).1, False.elim, fun _ _ _ _ vb _ sb => ⟨vb, sb⟩⟩
  have apk : Apart img2 k := (fr3 img2 w h fs v2 s2).2.2.2
  have rs : ∀ d H', Bad H4 img2 w h x y d H' → ∀ x y, x < w → y < h → Img.get H' img x y = .ok (fs x y) := by
    intro d H' i x y hx hy
    obtain ⟨-, s⟩ := i.frame img w h fs (up4 img w h fs va sa).1 ap (up4 img w h fs va sa).2
    exact s.get hx hy
  have rk : ∀ d H', Bad H4 img2 w h x y d H' → ∀ x y, x < 2 * n + 1 → y < 2 * n + 1 →
      Img.get H' k x y = .ok ((fk x y).mul (amplitude / sum)) := by
    intro d H' i x y hx hy
    obtain ⟨-, s⟩ := i.frame k _ _ _ v4 apk s4
    exact s.get hx hy
  -- one write
  have cell : ∀ (c : Color Ext) sx iky (idy : Nat) ikx, iky < 2 * n + 1 → ikx < 2 * n + 1 → idy < h →
      ∀ d H', Bad H4 img2 w h x y d H' → ∃ H'', splatCell img2 k c w ((2 * n + 1) / 2) sx iky idy ikx H' = .ok H'' ∧
        Bad H4 img2 w h x y (d ∨ (sx = x ∧ idy = y ∧ ikx = n)) H'' := by
    intro c sx iky idy ikx hky hkx hidy d H' b
    unfold splatCell
    dsimp only
    split_ifs with hout
    · refine ⟨H', rfl, b.imp ?_⟩
      rintro (h | ⟨rfl, rfl, rfl⟩)
      · exact h
      · exfalso; omega
    · obtain ⟨px, hpx⟩ : ∃ px : Nat, (sx : Int) + ikx - ((2 * n + 1) / 2 : Nat) = px :=
        ⟨((sx : Int) + ikx - ((2 * n + 1) / 2 : Nat)).toNat, by omega⟩
      rw [hpx]
      have hpxw : px < w := by omega
      have : Inhabited (Color Ext) := ⟨Color.black⟩
      obtain ⟨fd, sd⟩ := b.valid.shows
      obtain ⟨H'', e, v', s', oth⟩ := set_shows b.valid sm2 sd hpxw hidy
        ((fd px idy).add (c.mul3 ((fk ikx iky).mul (amplitude / sum))))
      refine ⟨H'', ?_, v', ?_, ?_⟩
      · rw [sd.get hpxw hidy, ok_bind, rk d H' b ikx iky hkx hky, ok_bind]
        exact e
      · intro hd
        refine ⟨_, s'.get hx hy, fun ch => ?_⟩
        by_cases hxy : x = px ∧ y = idy
        · rw [if_pos hxy, Color.at_add, Color.at_mul3, nanK ikx iky hkx hky, Ext.mul_nan, Ext.add_nan]
        · rw [if_neg hxy]
          rcases hd with hd | ⟨h1, h2, h3⟩
          · obtain ⟨c', e', hc'⟩ := b.nan hd
            rw [sd.get hx hy] at e'
            rw [Except.ok.inj e']
            exact hc' ch
          · exfalso; omega
      · intro b' w' h' g vb apb sb
        obtain ⟨v5, s5⟩ := b.frame b' w' h' g vb apb sb
        exact oth b' w' h' g v5 apb s5
  have row : ∀ (c : Color Ext) sx sy iky, iky < 2 * n + 1 →
      ∀ d H', Bad H4 img2 w h x y d H' → ∃ H'', splatRow img2 k c w h (2 * n + 1) ((2 * n + 1) / 2) ((2 * n + 1) / 2) sx sy iky H' = .ok H'' ∧
        Bad H4 img2 w h x y (d ∨ (sx = x ∧ sy = y ∧ iky = n)) H'' := by
    intro c sx sy iky hky d H' b
    unfold splatRow
    dsimp only
    split_ifs with hout
    · refine ⟨H', rfl, b.imp ?_⟩
      rintro (h | ⟨rfl, rfl, rfl⟩)
      · exact h
      · exfalso; omega
    · obtain ⟨py, hpy⟩ : ∃ py : Nat, (sy : Int) + iky - ((2 * n + 1) / 2 : Nat) = py :=
        ⟨((sy : Int) + iky - ((2 * n + 1) / 2 : Nat)).toNat, by omega⟩
      rw [hpy]
      obtain ⟨H'', e, b''⟩ := bad_loop _ (2 * n + 1) d _ (fun ikx hkx => cell c sx iky py ikx hky hkx (by omega)) H' b
      refine ⟨H'', e, b''.imp ?_⟩
      rintro (h | ⟨rfl, rfl, rfl⟩)
      · exact Or.inl h
      · exact Or.inr ⟨iky, by omega, rfl, by omega, rfl⟩
  have pixel : ∀ sx sy, sx < w → sy < h → ∀ d H', Bad H4 img2 w h x y d H' →
      ∃ H'', splat img2 img k threshold w h (2 * n + 1) (2 * n + 1) ((2 * n + 1) / 2) ((2 * n + 1) / 2) sy sx H' = .ok H'' ∧
        Bad H4 img2 w h x y (d ∨ (sx = x ∧ sy = y)) H'' := by
    intro sx sy hsx hsy d H' b
    unfold splat
    rw [rs d H' b sx sy hsx hsy, ok_bind]
    split_ifs with hlt
    · refine ⟨H', rfl, b.imp ?_⟩
      rintro (h | ⟨rfl, rfl⟩)
      · exact h
      · exfalso
        have := Color.lt_of_max (ps sx sy hx hy) hT hlt ch0
        linarith
    · obtain ⟨H'', e, b''⟩ := bad_loop _ (2 * n + 1) d _ (fun iky hky => row (above (fs sx sy) threshold) sx sy iky hky) H' b
      refine ⟨H'', e, b''.imp ?_⟩
      rintro (h | ⟨rfl, rfl⟩)
      · exact Or.inl h
      · exact Or.inr ⟨n, by omega, rfl, rfl, rfl⟩
  obtain ⟨H', e6, b6⟩ := bad_loop _ h False _ (fun sy hsy d H' b => bad_loop _ w d _ (fun sx hsx => pixel sx sy hsx hsy) H' b) H4 b0
  obtain ⟨c, ec, hc⟩ := b6.nan (Or.inr ⟨y, hy, x, hx, rfl, rfl⟩)
  refine ⟨img2, H', c, ?_, ec, hc⟩
  unfold starBloom
  dsimp only
  rw [hn, e1, ok_bind]
  dsimp only
  rw [e2, ok_bind]
  dsimp only
  unfold addConvolution
  rw [va.size hh, vk2.size (by omega)]
  dsimp only
  rw [e3, ok_bind, e4, ok_bind]
  dsimp only
  rw [e5, ok_bind, e6]
  rfl

/-- Non-vacuity of both: radius 5 and radius 2 at pixel size 1. -/
example : (4 : ℝ) * 1 ≤ 5 ∧ (0 : ℝ) < 2 ∧ (2 : ℝ) < 4 * 1 := by norm_num

/-- **C40 (all three).** Post-processing with all three kinds of bloom adds the Gaussian bloom of the image, then the Airy
disk bloom of the result, then the star bloom of that, each with its own radius, amplitude and threshold. The images that
were there before are not changed. -/
theorem C40_all (j1 : Ext → Ext) (J : ℝ → ℝ) (hJ : ∀ (a : Ext) x, a.Is x → (j1 a).Is (J x)) (P : Params Ext)
    (H : Heap (Color Ext)) (img : Img) (w h : Nat) (hh : 0 < h) (S S1 S2 S3 : Nat → Nat → Ch → ℝ) (hs : Displays H img w h S)
    (pixelSize : Ext) (p r1 A1 T1 r2 A2 T2 r3 A3 T3 : ℝ) (hp : pixelSize.Is p) (hp0 : 0 < p)
    (h1 : P.gaussian.radius.Is r1) (hA1 : P.gaussian.amplitude.Is A1) (hT1 : P.gaussian.threshold.Is T1) (hr1 : 0 < r1)
    (h2 : P.airy.radius.Is r2) (hA2 : P.airy.amplitude.Is A2) (hT2 : P.airy.threshold.Is T2) (hr2 : 0 < r2)
    (h3 : P.star.radius.Is r3) (hA3 : P.star.amplitude.Is A3) (hT3 : P.star.threshold.Is T3) (hr3 : 4 * p ≤ r3)
    (e1 : S1 = fun x y ch => S x y ch + Bloom.glow w h S (gaussian (r1 / p) (⌊5 * (r1 / p)⌋₊ + 1))
      (2 * (⌊5 * (r1 / p)⌋₊ + 1) + 1) (2 * (⌊5 * (r1 / p)⌋₊ + 1) + 1) A1 T1 x y ch)
    (e2 : S2 = fun x y ch => S1 x y ch + Bloom.glow w h S1 (airyDisk J (r2 / p) (⌊8 * (r2 / p)⌋₊ + 1))
      (2 * (⌊8 * (r2 / p)⌋₊ + 1) + 1) (2 * (⌊8 * (r2 / p)⌋₊ + 1) + 1) A2 T2 x y ch)
    (e3 : S3 = fun x y ch => S2 x y ch + Bloom.glow w h S2 (star ⌊r3 / p⌋₊ (⌊r3 / p⌋₊ - 1)) (2 * ⌊r3 / p⌋₊ + 1)
      (2 * ⌊r3 / p⌋₊ + 1) A3 T3 x y ch) :
    ∃ img2 H', P.applyTo j1 img pixelSize H = .ok (img2, H') ∧ Displays H' img2 w h S3 ∧
      ∀ (b : Img) (w' h' : Nat) (Q : Nat → Nat → Ch → ℝ), Displays H b w' h' Q → Displays H' b w' h' Q ∧ Apart img2 b := by
  have key : ∀ {a : Ext} {r : ℝ}, a.Is r → 0 < r → (!(a ==. lit 0)) = true := by
    rintro a r ⟨s, rfl⟩ hr
    simp [hr.ne']
  obtain ⟨i1, H1, c1, d1, f1⟩ := C40_gaussian H img w h hh S hs pixelSize _ _ _ p r1 A1 T1 hp h1 hA1 hT1 hp0 hr1
  obtain ⟨i2, H2, c2, d2, f2⟩ := C40_airy j1 J hJ H1 i1 w h hh S1 (e1 ▸ d1) pixelSize _ _ _ p r2 A2 T2 hp h2 hA2 hT2 hp0 hr2
  obtain ⟨i3, H3, c3, d3, f3⟩ := C41_partial H2 i2 w h hh S2 (e2 ▸ d2) pixelSize _ _ _ p r3 A3 T3 hp h3 hA3 hT3 hp0 hr3
  refine ⟨i3, H3, ?_, e3 ▸ d3, fun b w' h' Q hb => f3 b w' h' Q (f2 b w' h' Q (f1 b w' h' Q hb).1).1⟩
  simp only [Params.applyTo, applyIf, key h1 hr1, key h2 hr2, key h3 (by linarith : 0 < r3), if_true, c1, c2, c3, ok_bind]

end BR.Post
