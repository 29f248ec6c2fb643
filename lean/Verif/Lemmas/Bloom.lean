import Verif.Model.Post
import Verif.Spec.Bloom
import Verif.Lemmas.Image
import Verif.Lemmas.ExtIs
import Mathlib.Algebra.BigOperators.Ring.Finset
import Mathlib.Algebra.BigOperators.Pi

/-! Lemmas for bloom. -/

namespace BR

open Finset

theorem Color.at_add (c d : Color Ext) (ch : Ch) : (c.add d).at ch = c.at ch + d.at ch := by cases ch <;> rfl
theorem Color.at_mul3 (c d : Color Ext) (ch : Ch) : (c.mul3 d).at ch = c.at ch * d.at ch := by cases ch <;> rfl
theorem Color.at_mul (c : Color Ext) (s : Ext) (ch : Ch) : (c.mul s).at ch = s * c.at ch := by cases ch <;> rfl

theorem Ext.Is.re {a : Ext} {x : ℝ} (h : a.Is x) : (fRe a).Is (max x 0) := by
  unfold fRe fmax
  have h0 : (BR.lit 0 : Ext).Is 0 := by simpa using Ext.Is.lit 0
  change (if (BR.lit 0 <. a) = true then a else BR.lit 0).Is _
  rw [h0.lt h]
  by_cases hx : 0 < x
  · simpa [hx, hx.le] using h
  · simpa [hx, not_lt.1 hx] using h0

theorem Color.above_is {c : Color Ext} {P : Ch → ℝ} (h : ∀ ch, (c.at ch).Is (P ch)) {o : Ext} {T : ℝ} (ho : o.Is T) (ch : Ch) :
    ((Post.above c o).at ch).Is (Bloom.excess T (P ch)) := by
  cases ch
  · exact ((h .r).sub ho).re
  · exact ((h .g).sub ho).re
  · exact ((h .b).sub ho).re

/-- A pixel that is skipped is below the threshold. -/
theorem Color.lt_of_max {c : Color Ext} {P : Ch → ℝ} (h : ∀ ch, (c.at ch).Is (P ch)) {o : Ext} {T : ℝ} (ho : o.Is T)
    (hm : (c.max <. o) = true) (ch : Ch) : P ch < T := by
  have hr : c.R.Is (P .r) := h .r
  have hg : c.G.Is (P .g) := h .g
  have hb : c.B.Is (P .b) := h .b
  have key : P .r < T ∧ P .g < T ∧ P .b < T := by
    unfold Color.max at hm
    dsimp only at hm
    rw [hr.lt hg] at hm
    by_cases h1 : P .r < P .g
    · simp only [h1, decide_true, if_true] at hm
      rw [hg.lt hb] at hm
      by_cases h2 : P .g < P .b
      · simp only [h2, decide_true, if_true] at hm
        rw [hb.lt ho, decide_eq_true_eq] at hm
        exact ⟨by linarith, by linarith, hm⟩
      · simp only [h2, decide_false, Bool.false_eq_true, if_false] at hm
        rw [hg.lt ho, decide_eq_true_eq] at hm
        exact ⟨by linarith, hm, by linarith⟩
    · simp only [h1, decide_false, Bool.false_eq_true, if_false] at hm
      rw [hr.lt hb] at hm
      by_cases h2 : P .r < P .b
      · simp only [h2, decide_true, if_true] at hm
        rw [hb.lt ho, decide_eq_true_eq] at hm
        exact ⟨by linarith, by linarith, hm⟩
      · simp only [h2, decide_false, Bool.false_eq_true, if_false] at hm
        rw [hr.lt ho, decide_eq_true_eq] at hm
        exact ⟨hm, by linarith, by linarith⟩
  cases ch <;> linarith [key.1, key.2.1, key.2.2]

/-- A pixel that is skipped has no excess. -/
theorem Color.max_lt {c : Color Ext} {P : Ch → ℝ} (h : ∀ ch, (c.at ch).Is (P ch)) {o : Ext} {T : ℝ} (ho : o.Is T)
    (hm : (c.max <. o) = true) (ch : Ch) : Bloom.excess T (P ch) = 0 := by
  unfold Bloom.excess
  apply max_eq_right
  linarith [Color.lt_of_max h ho hm ch]

namespace Post

open Img

variable {H0 : Heap (Color Ext)} {dst : Img} {w h : Nat}

/-- Starting from heap `H0`, only `dst` has changed, and it shows `D`. -/
structure Inv (H0 : Heap (Color Ext)) (dst : Img) (w h : Nat) (D : Nat → Nat → Ch → ℝ) (H : Heap (Color Ext)) : Prop where
  valid : Valid H dst w h
  pic : ∃ f, Shows H dst w h f ∧ Finite w h f D
  frame : ∀ (b : Img) (w' h' : Nat) (g : Nat → Nat → Color Ext), Valid H0 b w' h' → Apart dst b → Shows H0 b w' h' g →
    Valid H b w' h' ∧ Shows H b w' h' g

/-- The computation `g` adds `A` to the picture in `dst`. -/
def Adds (H0 : Heap (Color Ext)) (dst : Img) (w h : Nat) (g : Heap (Color Ext) → GoM (Heap (Color Ext)))
    (A : Nat → Nat → Ch → ℝ) : Prop :=
  ∀ D H, Inv H0 dst w h D H → ∃ H', g H = .ok H' ∧ Inv H0 dst w h (D + A) H'

theorem Inv.congr {D D' : Nat → Nat → Ch → ℝ} {H : Heap (Color Ext)} (i : Inv H0 dst w h D H)
    (e : ∀ x y, x < w → y < h → D x y = D' x y) : Inv H0 dst w h D' H := by
  obtain ⟨v, ⟨f, s, p⟩, fr⟩ := i
  exact ⟨v, ⟨f, s, fun x y hx hy ch => e x y hx hy ▸ p x y hx hy ch⟩, fr⟩

theorem adds_none : Adds H0 dst w h (fun H => .ok H) 0 := fun D H i => ⟨H, rfl, by simpa using i⟩

theorem adds_loop (g : Nat → Heap (Color Ext) → GoM (Heap (Color Ext))) (A : Nat → Nat → Nat → Ch → ℝ) (n : Nat)
    (hg : ∀ k < n, Adds H0 dst w h (g k) (A k)) :
    Adds H0 dst w h (fun H => (List.range n).foldlM (fun H k => g k H) H) (∑ k ∈ range n, A k) := by
  intro D H i
  refine foldlM_range (fun m H' => Inv H0 dst w h (D + ∑ k ∈ range m, A k) H') _ n H (by simpa using i) ?_
  intro k hk H' i'
  obtain ⟨H'', e, i''⟩ := hg k hk _ _ i'
  exact ⟨H'', e, by rw [Finset.sum_range_succ, ← add_assoc]; exact i''⟩

/-- The picture with value `v` at one place and zero elsewhere. -/
noncomputable def dot (i j : Int) (v : Ch → ℝ) (x y : Nat) (ch : Ch) : ℝ := if (x : Int) = i ∧ (y : Int) = j then v ch else 0

/-- Adding a colour to one pixel. -/
theorem adds_dot (sm : Simple dst) {x y : Nat} (hx : x < w) (hy : y < h) {k : Heap (Color Ext) → GoM (Color Ext)}
    {c q : Color Ext} {v : Ch → ℝ} (hk : ∀ D H, Inv H0 dst w h D H → k H = .ok q)
    (hc : ∀ ch, ((c.mul3 q).at ch).Is (v ch)) :
    Adds H0 dst w h (fun H => do
      let d ← get H dst x y
      let kc ← k H
      set H dst x y (d.add (c.mul3 kc))) (dot x y v) := by
  intro D H i
  obtain ⟨va, ⟨f, s, p⟩, fr⟩ := id i
  obtain ⟨H', e, v', s', oth⟩ := set_shows va sm s hx hy ((f x y).add (c.mul3 q))
  refine ⟨H', ?_, v', ⟨_, s', ?_⟩, fun b w' h' g vb ap sb => ?_⟩
  · dsimp only; rw [s.get hx hy, ok_bind, hk D H i, ok_bind]; exact e
  · intro x' y' hx' hy' ch
    simp only [Pi.add_apply, dot]
    by_cases hxy : x' = x ∧ y' = y
    · obtain ⟨rfl, rfl⟩ := hxy
      simp only [and_self, if_true]
      rw [Color.at_add]
      exact (p x' y' hx' hy' ch).add (hc ch)
    · rw [if_neg hxy, if_neg (by omega), add_zero]
      exact p x' y' hx' hy' ch
  · obtain ⟨v1, s1⟩ := fr b w' h' g vb ap sb
    exact oth b w' h' g v1 ap s1

/-- The sum over the kernel of dots is the kernel seen from the source pixel. -/
theorem sum_dots (kw kh w h : Nat) (sx sy : Nat) (e : Ch → ℝ) (q : Nat → Nat → Ch → ℝ) (x y : Nat) (hx : x < w) (hy : y < h)
    (ch : Ch) :
    (∑ iky ∈ range kh, if ((sy : Int) + iky - (kh / 2 : Nat) < 0 ∨ (sy : Int) + iky - (kh / 2 : Nat) ≥ h) then 0 else
      ∑ ikx ∈ range kw, if ((sx : Int) + ikx - (kw / 2 : Nat) < 0 ∨ (sx : Int) + ikx - (kw / 2 : Nat) ≥ w) then 0 else
        dot (sx + ikx - (kw / 2 : Nat)) (sy + iky - (kh / 2 : Nat)) (fun ch => e ch * q ikx iky ch) x y ch) =
      e ch * (if 0 ≤ (x : Int) - sx + kw / 2 ∧ (x : Int) - sx + kw / 2 < kw ∧ 0 ≤ (y : Int) - sy + kh / 2 ∧
          (y : Int) - sy + kh / 2 < kh then
        q ((x : Int) - sx + kw / 2).toNat ((y : Int) - sy + kh / 2).toNat ch else 0) := by
  have hw : ((kw / 2 : Nat) : Int) = (kw : Int) / 2 := by omega
  have hh : ((kh / 2 : Nat) : Int) = (kh : Int) / 2 := by omega
  rw [hw, hh]
  by_cases hin : 0 ≤ (x : Int) - sx + kw / 2 ∧ (x : Int) - sx + kw / 2 < kw ∧ 0 ≤ (y : Int) - sy + kh / 2 ∧
      (y : Int) - sy + kh / 2 < kh
  · rw [if_pos hin]
    rw [Finset.sum_eq_single ((y : Int) - sy + kh / 2).toNat]
    · rw [if_neg (by omega), Finset.sum_eq_single ((x : Int) - sx + kw / 2).toNat]
      · rw [if_neg (by omega)]
        unfold dot
        rw [if_pos (by omega)]
      · intro b _ hb
        unfold dot
        rw [if_neg (c := _ ∧ _) (by omega), ite_self]
      · intro hb
        rw [Finset.mem_range] at hb
        omega
    · intro b _ hb
      split_ifs with h1
      · rfl
      · refine Finset.sum_eq_zero fun a _ => ?_
        unfold dot
        rw [if_neg (c := _ ∧ _) (by omega), ite_self]
    · intro hb
      rw [Finset.mem_range] at hb
      omega
  · rw [if_neg hin, mul_zero]
    refine Finset.sum_eq_zero fun b hb => ?_
    split_ifs with h1
    · rfl
    · refine Finset.sum_eq_zero fun a ha => ?_
      rw [Finset.mem_range] at ha hb
      unfold dot
      rw [if_neg (c := _ ∧ _) (by omega), ite_self]

/-- The sum of a kernel. -/
theorem kernelSum_is {H : Heap (Color Ext)} {kern : Img} {kw kh : Nat} (v : Valid H kern kw kh) {f : Nat → Nat → Color Ext}
    (s : Shows H kern kw kh f) {K : Nat → Nat → Ch → ℝ} (hK : Finite kw kh f K) :
    ∃ S, kernelSum H kern = .ok S ∧ S.Is (Bloom.mass K kw kh) := by
  unfold kernelSum Bloom.mass
  rw [v.rows]
  have h3 : (lit 3 : Ext).Is 3 := by simpa using Ext.Is.lit 3
  refine foldlM_range (fun m (S : Ext) => S.Is (∑ y ∈ range m, ∑ x ∈ range kw, (K x y .r + K x y .g + K x y .b) / 3)) _ kh _
    (by simpa using Ext.Is.lit 0) ?_
  intro y hy S hS
  have hl : rowLen kern y = kw := by
    have hy' : y < kern.length := by rw [v.rows]; exact hy
    unfold rowLen
    rw [List.getElem?_eq_getElem hy']
    exact (v.row _ (List.getElem_mem hy')).1
  rw [hl, Finset.sum_range_succ]
  refine foldlM_range (fun m (S : Ext) => S.Is (∑ y ∈ range y, ∑ x ∈ range kw, (K x y .r + K x y .g + K x y .b) / 3 +
    ∑ x ∈ range m, (K x y .r + K x y .g + K x y .b) / 3)) _ kw _ (by simpa using hS) ?_
  intro x hx S' hS'
  refine ⟨S' + ((f x y).R + (f x y).G + (f x y).B) / lit 3, ?_, ?_⟩
  · rw [s.get hx hy, ok_bind]; rfl
  · rw [Finset.sum_range_succ, ← add_assoc]
    exact hS'.add ((((hK x y hx hy .r).add (hK x y hx hy .g)).add (hK x y hx hy .b)).div h3 (by norm_num))

theorem rowLen_valid {H : Heap (Color Ext)} {k : Img} {kw kh : Nat} (v : Valid H k kw kh) {y : Nat} (hy : y < kh) :
    rowLen k y = kw := by
  have hy' : y < k.length := by rw [v.rows]; exact hy
  unfold rowLen
  rw [List.getElem?_eq_getElem hy']
  exact (v.row _ (List.getElem_mem hy')).1

/-- Scaling the copied kernel. -/
theorem scale_is {H : Heap (Color Ext)} {k : Img} {kw kh : Nat} (v : Valid H k kw kh) (sm : Simple k)
    {f : Nat → Nat → Color Ext} (s : Shows H k kw kh f) (a : Ext) :
    ∃ H', scale k a H = .ok H' ∧ Valid H' k kw kh ∧ Shows H' k kw kh (fun x y => (f x y).mul a) ∧
      (∀ (b : Img) (w' h' : Nat) (g : Nat → Nat → Color Ext), Valid H b w' h' → Apart k b → Shows H b w' h' g →
        Valid H' b w' h' ∧ Shows H' b w' h' g) := by
  unfold scale
  rw [v.rows]
  obtain ⟨H', e, v', s', fr⟩ := foldlM_range (fun m H' => Valid H' k kw kh ∧
      Shows H' k kw kh (fun x y => if y < m then (f x y).mul a else f x y) ∧
      (∀ (b : Img) (w' h' : Nat) (g : Nat → Nat → Color Ext), Valid H b w' h' → Apart k b → Shows H b w' h' g →
        Valid H' b w' h' ∧ Shows H' b w' h' g))
      (fun H (iy : Nat) => (List.range (rowLen k iy)).foldlM (fun H (ix : Nat) => do
        let c ← Img.get H k ix iy
        Img.set H k ix iy (c.mul a)) H) kh H ⟨v, by simpa using s, fun _ _ _ _ vb _ sb => ⟨vb, sb⟩⟩ (by
    rintro y hy H1 ⟨v1, s1, fr1⟩
    rw [rowLen_valid v hy]
    obtain ⟨H', e, v', s', fr⟩ := foldlM_range (fun m H' => Valid H' k kw kh ∧
        Shows H' k kw kh (fun x' y' => if y' < y ∨ (y' = y ∧ x' < m) then (f x' y').mul a else f x' y') ∧
        (∀ (b : Img) (w' h' : Nat) (g : Nat → Nat → Color Ext), Valid H b w' h' → Apart k b → Shows H b w' h' g →
          Valid H' b w' h' ∧ Shows H' b w' h' g))
        (fun H (ix : Nat) => do
          let c ← Img.get H k ix y
          Img.set H k ix y (c.mul a)) kw H1 ⟨v1, by simpa using s1, fr1⟩ (by
      rintro x hx H2 ⟨v2, s2, fr2⟩
      obtain ⟨H', e, v', s', oth⟩ := set_shows v2 sm s2 hx hy ((f x y).mul a)
      refine ⟨H', ?_, v', s'.congr fun x' y' _ _ => ?_, fun b w' h' g vb ap sb => ?_⟩
      · rw [s2.get hx hy, ok_bind, if_neg (by omega)]; exact e
      · by_cases h1 : x' = x ∧ y' = y
        · obtain ⟨rfl, rfl⟩ := h1
          rw [if_pos ⟨rfl, rfl⟩, if_pos (by omega)]
        · rw [if_neg h1]
          by_cases h2 : y' < y ∨ (y' = y ∧ x' < x)
          · rw [if_pos h2, if_pos (by omega)]
          · rw [if_neg h2, if_neg (by omega)]
      · obtain ⟨v3, s3⟩ := fr2 b w' h' g vb ap sb
        exact oth b w' h' g v3 ap s3)
    refine ⟨H', e, v', s'.congr fun x' y' hx' _ => ?_, fr⟩
    by_cases h2 : y' < y ∨ (y' = y ∧ x' < kw)
    · rw [if_pos h2, if_pos (by omega)]
    · rw [if_neg h2, if_neg (by omega)])
  exact ⟨H', e, v', s'.congr fun x' y' _ hy' => if_pos hy', fr⟩

/-- A kernel made from a function. -/
theorem kernel_is (p : Nat) (f : Ext → Ext → Color Ext) (H : Heap (Color Ext)) :
    ∃ k H', kernel (p : Int) f H = .ok (k, H') ∧ Valid H' k (2 * p + 1) (2 * p + 1) ∧
      Shows H' k (2 * p + 1) (2 * p + 1) (fun x y => f (ofInt ((x : Int) - p)) (ofInt ((y : Int) - p))) ∧
      (∀ (b : Img) (w' h' : Nat) (g : Nat → Nat → Color Ext), Valid H b w' h' → Shows H b w' h' g →
        Valid H' b w' h' ∧ Shows H' b w' h' g) := by
  obtain ⟨k, H1, e1, v1, sm, s1, -, hold⟩ := make_spec (Color.black : Color Ext) (2 * p + 1) (2 * p + 1) H
  obtain ⟨H', e, v', s', fr⟩ := foldlM_range (fun m H' => Valid H' k (2 * p + 1) (2 * p + 1) ∧
      Shows H' k (2 * p + 1) (2 * p + 1) (fun x y => if y < m then f (ofInt ((x : Int) - p)) (ofInt ((y : Int) - p)) else Color.black) ∧
      (∀ (b : Img) (w' h' : Nat) (g : Nat → Nat → Color Ext), Valid H b w' h' → Shows H b w' h' g →
        Valid H' b w' h' ∧ Shows H' b w' h' g))
      (fun H (iky : Nat) => (List.range (2 * p + 1)).foldlM (fun H (ikx : Nat) =>
        Img.set H k ikx iky (f (ofInt ((ikx : Int) - p)) (ofInt ((iky : Int) - p)))) H) (2 * p + 1) H1
      ⟨v1, by simpa using s1, fun b w' h' g vb sb => ⟨(hold b w' h' g vb sb).1, (hold b w' h' g vb sb).2.1⟩⟩ (by
    rintro y hy H2 ⟨v2, s2, fr2⟩
    obtain ⟨H', e, v', s', fr⟩ := foldlM_range (fun m H' => Valid H' k (2 * p + 1) (2 * p + 1) ∧
        Shows H' k (2 * p + 1) (2 * p + 1) (fun x' y' => if y' < y ∨ (y' = y ∧ x' < m) then
          f (ofInt ((x' : Int) - p)) (ofInt ((y' : Int) - p)) else Color.black) ∧
        (∀ (b : Img) (w' h' : Nat) (g : Nat → Nat → Color Ext), Valid H b w' h' → Shows H b w' h' g →
          Valid H' b w' h' ∧ Shows H' b w' h' g))
        (fun H (ikx : Nat) => Img.set H k ikx y (f (ofInt ((ikx : Int) - p)) (ofInt ((y : Int) - p)))) (2 * p + 1) H2
        ⟨v2, by simpa using s2, fr2⟩ (by
      rintro x hx H3 ⟨v3, s3, fr3⟩
      obtain ⟨H', e, v', s', oth⟩ := set_shows v3 sm s3 hx hy (f (ofInt ((x : Int) - p)) (ofInt ((y : Int) - p)))
      refine ⟨H', e, v', s'.congr fun x' y' _ _ => ?_, fun b w' h' g vb sb => ?_⟩
      · by_cases h1 : x' = x ∧ y' = y
        · obtain ⟨rfl, rfl⟩ := h1
          rw [if_pos ⟨rfl, rfl⟩, if_pos (by omega)]
        · rw [if_neg h1]
          by_cases h2 : y' < y ∨ (y' = y ∧ x' < x)
          · rw [if_pos h2, if_pos (by omega)]
          · rw [if_neg h2, if_neg (by omega)]
      · obtain ⟨v4, s4⟩ := fr3 b w' h' g vb sb
        exact oth b w' h' g v4 (hold b w' h' g vb sb).2.2.1 s4)
    refine ⟨H', e, v', s'.congr fun x' y' hx' _ => ?_, fr⟩
    by_cases h2 : y' < y ∨ (y' = y ∧ x' < 2 * p + 1)
    · rw [if_pos h2, if_pos (by omega)]
    · rw [if_neg h2, if_neg (by omega)])
  refine ⟨k, H', ?_, v', s'.congr fun x y _ hy => if_pos hy, fr⟩
  have hn : (2 * (p : Int) + 1) = ((2 * p + 1 : Nat) : Int) := by push_cast; ring
  have hc : ((2 * p + 1 : Nat) : Int).tdiv 2 = p := by
    rw [Int.tdiv_eq_ediv_of_nonneg (by omega)]; omega
  unfold kernel
  dsimp only
  rw [hn, e1, ok_bind]
  dsimp only
  rw [hc, Int.toNat_natCast, e, ok_bind]
  rfl

end Post

/-- One direction of a kernel that fits into the image. -/
theorem Bloom.sum_fit {n w s d : Nat} (h0 : d ≤ s) (h1 : s + n ≤ w + d) (f : Nat → ℝ) :
    (∑ x ∈ range w, if 0 ≤ (x : Int) - s + d ∧ (x : Int) - s + d < n then f ((x : Int) - s + d).toNat else 0) =
      ∑ k ∈ range n, f k := by
  rw [← Finset.sum_filter]
  refine Finset.sum_nbij' (fun x => ((x : Int) - s + d).toNat) (fun k => k + s - d) ?_ ?_ ?_ ?_ ?_
  · intro x hx
    simp only [Finset.mem_filter, Finset.mem_range] at hx ⊢
    omega
  · intro k hk
    simp only [Finset.mem_filter, Finset.mem_range] at hk ⊢
    omega
  · intro x hx
    simp only [Finset.mem_filter, Finset.mem_range] at hx ⊢
    omega
  · intro k hk
    simp only [Finset.mem_range] at hk ⊢
    omega
  · intro x hx; rfl

end BR
