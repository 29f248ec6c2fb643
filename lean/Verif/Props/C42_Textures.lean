import Verif.Model.Texture
import Verif.Spec.Texture
import Verif.Lemmas.ExtIs
import Verif.Lemmas.GoM
import Verif.Num.Flo
import Mathlib.Algebra.BigOperators.Ring.Finset
import Mathlib.Algebra.BigOperators.Group.Finset.Piecewise

/-! C42: texture lookups. -/

namespace BR.Texture

open Finset

private theorem one_is : (lit 1 : Ext).Is 1 := by simpa using Ext.Is.lit 1
private theorem zero_is : (lit 0 : Ext).Is 0 := by simpa using Ext.Is.lit 0

private theorem eq_is {a b : Ext} {x y : ℝ} (ha : a.Is x) (hb : b.Is y) : (a ==. b) = decide (x = y) := by
  obtain ⟨s, rfl⟩ := ha; obtain ⟨t, rfl⟩ := hb; exact Ext.eq_num ..

private theorem frac_is {a : Ext} {x : ℝ} (h : a.Is x) : (frac a).Is (Int.fract x) := by
  obtain ⟨s, rfl⟩ := h
  have h1 : (Ext.num x s).Is x := ⟨s, rfl⟩
  have h2 : (GoFloat.floor (Ext.num x s)).Is (⌊x⌋ : ℝ) := ⟨_, rfl⟩
  exact h1.sub h2

private theorem warp_is {a : Ext} {x : ℝ} (h : a.Is x) : (warp a).Is (Int.fract x) := by
  unfold warp modfFrac
  dsimp only
  rw [h.lt zero_is]
  have f0 := Int.fract_nonneg x
  have f1 := Int.fract_lt_one x
  by_cases hx : x < 0
  · simp only [hx, decide_true, if_true]
    have hn := (frac_is h.neg).neg
    rw [hn.lt zero_is]
    have g0 := Int.fract_nonneg (-x)
    have g1 := Int.fract_lt_one (-x)
    by_cases hz : Int.fract (-x) = 0
    · have hz' : Int.fract x = 0 := Int.fract_neg_eq_zero.1 hz
      rw [hz, neg_zero] at hn
      simp only [hz, neg_zero, lt_irrefl, decide_false, Bool.false_eq_true, if_false]
      rw [eq_is hn one_is]
      simp only [zero_ne_one, decide_false, Bool.false_eq_true, if_false]
      rw [hz']
      exact hn
    · have hlt : -Int.fract (-x) < 0 := by
        have : 0 < Int.fract (-x) := lt_of_le_of_ne g0 (Ne.symm hz)
        linarith
      simp only [hlt, decide_true, if_true]
      have hs := one_is.add hn
      have hxne : Int.fract x ≠ 0 := fun h0 => hz (Int.fract_neg_eq_zero.2 h0)
      have e : (1 : ℝ) + -Int.fract (-x) = Int.fract x := by rw [Int.fract_neg hxne]; ring
      rw [e] at hs
      rw [eq_is hs one_is]
      simp only [f1.ne, decide_false, Bool.false_eq_true, if_false]
      exact hs
  · simp only [hx, decide_false, Bool.false_eq_true, if_false]
    have hn := frac_is h
    rw [hn.lt zero_is]
    simp only [not_lt.2 f0, decide_false, Bool.false_eq_true, if_false]
    rw [eq_is hn one_is]
    simp only [f1.ne, decide_false, Bool.false_eq_true, if_false]
    exact hn

private theorem Pixels.size {img : List (List (Color Ext))} {w h : Nat} {P : Nat → Nat → Ch → ℝ} (p : Pixels img w h P)
    (hh : 0 < h) : size img = (w, h) := by
  cases img with
  | nil => have := p.1; simp at this; omega
  | cons r rs =>
    have h1 := p.1
    have h2 := (p.2 0 r rfl).1
    unfold Texture.size
    dsimp only
    rw [h1, h2]

private theorem Pixels.at {img : List (List (Color Ext))} {w h : Nat} {P : Nat → Nat → Ch → ℝ} (p : Pixels img w h P)
    {x y : Nat} (hx : x < w) (hy : y < h) : ∃ c, atIndex img x y = .ok c ∧ ∀ ch, (c.at ch).Is (P x y ch) := by
  have hy' : y < img.length := by rw [p.1]; exact hy
  have e1 := List.getElem?_eq_getElem hy'
  obtain ⟨hw, hc⟩ := p.2 y _ e1
  have hx' : x < img[y].length := by rw [hw]; exact hx
  refine ⟨img[y][x], ?_, hc x _ (List.getElem?_eq_getElem hx')⟩
  unfold atIndex
  rw [if_neg (by omega), Int.toNat_natCast, e1]
  dsimp only
  rw [if_neg (by omega), Int.toNat_natCast, List.getElem?_eq_getElem hx']

private theorem trunc_is {a : Ext} {x : ℝ} (h : a.Is x) (h0 : 0 ≤ x) : GoFloat.trunc a = (⌊x⌋₊ : Int) := by
  obtain ⟨s, rfl⟩ := h
  change realTrunc x = _
  unfold realTrunc
  rw [if_pos h0, ← Int.natCast_floor_eq_floor h0]

private theorem bilin_is {a b c d x y : Ext} {A B C D X Y : ℝ} (ha : a.Is A) (hb : b.Is B) (hc : c.Is C) (hd : d.Is D)
    (hx : x.Is X) (hy : y.Is Y) :
    (bilin a b c d x y).Is (A * (1 - X) * (1 - Y) + C * X * (1 - Y) + B * (1 - X) * Y + D * X * Y) := by
  unfold bilin
  have o := one_is
  exact ((((ha.mul (o.sub hx)).mul (o.sub hy)).add ((hc.mul hx).mul (o.sub hy))).add ((hb.mul (o.sub hx)).mul hy)).add
    ((hd.mul hx).mul hy)

/-- Where the interpolation reads, in one direction. -/
private theorem index_is {w : Nat} (hw : 0 < w) {s : ℝ} (h0 : 0 ≤ s) (h1 : s < 1) :
    ⌊s * ((w : ℝ) - 1)⌋₊ < w ∧ ∃ n : Nat, n < w ∧ next (⌊s * ((w : ℝ) - 1)⌋₊ : Int) w = n ∧
      (n = ⌊s * ((w : ℝ) - 1)⌋₊ + 1 ∨ Int.fract (s * ((w : ℝ) - 1)) = 0) := by
  have hw1 : (1 : ℝ) ≤ w := by exact_mod_cast hw
  have hX0 : 0 ≤ s * ((w : ℝ) - 1) := mul_nonneg h0 (by linarith)
  rcases Nat.lt_or_ge 1 w with h2 | h2
  · have hw2 : (2 : ℝ) ≤ w := by exact_mod_cast h2
    have hX : s * ((w : ℝ) - 1) < ((w - 1 : Nat) : ℝ) := by
      rw [Nat.cast_sub hw, Nat.cast_one]; nlinarith
    have hf : ⌊s * ((w : ℝ) - 1)⌋₊ < w - 1 := (Nat.floor_lt hX0).2 hX
    refine ⟨by omega, ⌊s * ((w : ℝ) - 1)⌋₊ + 1, by omega, ?_, Or.inl rfl⟩
    unfold next
    rw [if_neg (by omega)]
    push_cast; rfl
  · have : w = 1 := by omega
    subst this
    simp [next]

/-- **C42 (bilinear lookup).** For every picture with at least one pixel and all finite coordinates, the lookup
succeeds (so it never reads outside the image), and its value is the interpolation of the picture at the fractional
parts of the coordinates. -/
theorem C42_bilinear (img : List (List (Color Ext))) (w h : Nat) (P : Nat → Nat → Ch → ℝ) (hp : Pixels img w h P)
    (hw : 0 < w) (hh : 0 < h) (u v : Ext) (s t : ℝ) (hu : u.Is s) (hv : v.Is t) :
    ∃ c, bilinear img u v = .ok c ∧
      ∀ ch, (c.at ch).Is (interp w h (fun x y => P x y ch) (Int.fract s) (Int.fract t)) := by
  have hw1 : (1 : ℝ) ≤ w := by exact_mod_cast hw
  have hh1 : (1 : ℝ) ≤ h := by exact_mod_cast hh
  have hX : (warp u * ofInt ((w : Int) - 1)).Is (Int.fract s * ((w : ℝ) - 1)) := by
    have : (ofInt ((w : Int) - 1) : Ext).Is ((w : ℝ) - 1) := ⟨_, by rw [Ext.ofInt_ext]; push_cast; rfl⟩
    exact (warp_is hu).mul this
  have hY : (warp v * ofInt ((h : Int) - 1)).Is (Int.fract t * ((h : ℝ) - 1)) := by
    have : (ofInt ((h : Int) - 1) : Ext).Is ((h : ℝ) - 1) := ⟨_, by rw [Ext.ofInt_ext]; push_cast; rfl⟩
    exact (warp_is hv).mul this
  have X0 : 0 ≤ Int.fract s * ((w : ℝ) - 1) := mul_nonneg (Int.fract_nonneg _) (by linarith)
  have Y0 : 0 ≤ Int.fract t * ((h : ℝ) - 1) := mul_nonneg (Int.fract_nonneg _) (by linarith)
  obtain ⟨hi, n, hn, en, cn⟩ := index_is hw (Int.fract_nonneg s) (Int.fract_lt_one s)
  obtain ⟨hj, m, hm, em, cm⟩ := index_is hh (Int.fract_nonneg t) (Int.fract_lt_one t)
  unfold bilinear
  rw [hp.size hh]
  dsimp only
  rw [eq_is hu hu, eq_is hv hv]
  simp only [decide_true, Bool.not_true, Bool.or_self, Bool.false_eq_true, if_false]
  rw [trunc_is hX X0, trunc_is hY Y0, en, em]
  have fx := frac_is hX
  have fy := frac_is hY
  unfold interp lerp
  generalize Int.fract s * ((w : ℝ) - 1) = X at *
  generalize Int.fract t * ((h : ℝ) - 1) = Y at *
  obtain ⟨c00, e00, p00⟩ := hp.at hi hj
  obtain ⟨c01, e01, p01⟩ := hp.at hi hm
  obtain ⟨c10, e10, p10⟩ := hp.at hn hj
  obtain ⟨c11, e11, p11⟩ := hp.at hn hm
  rw [e00, e01, e10, e11]
  refine ⟨_, rfl, fun ch => ?_⟩
  have key : ∀ ch, P ⌊X⌋₊ ⌊Y⌋₊ ch * (1 - Int.fract X) * (1 - Int.fract Y) + P n ⌊Y⌋₊ ch * Int.fract X * (1 - Int.fract Y) +
      P ⌊X⌋₊ m ch * (1 - Int.fract X) * Int.fract Y + P n m ch * Int.fract X * Int.fract Y =
      (1 - Int.fract Y) * ((1 - Int.fract X) * P ⌊X⌋₊ ⌊Y⌋₊ ch + Int.fract X * P (⌊X⌋₊ + 1) ⌊Y⌋₊ ch) +
      Int.fract Y * ((1 - Int.fract X) * P ⌊X⌋₊ (⌊Y⌋₊ + 1) ch + Int.fract X * P (⌊X⌋₊ + 1) (⌊Y⌋₊ + 1) ch) := by
    intro ch
    rcases cn with rfl | h0 <;> rcases cm with rfl | h1
    · ring
    · rw [h1]; ring
    · rw [h0]; ring
    · rw [h0, h1]; ring
  rw [← key ch]
  cases ch
  · exact bilin_is (p00 .r) (p01 .r) (p10 .r) (p11 .r) fx fy
  · exact bilin_is (p00 .g) (p01 .g) (p10 .g) (p11 .g) fx fy
  · exact bilin_is (p00 .b) (p01 .b) (p10 .b) (p11 .b) fx fy

/-- **C42 (tiling).** Coordinates that differ by whole numbers give the same colour. -/
theorem C42_periodic (img : List (List (Color Ext))) (w h : Nat) (P : Nat → Nat → Ch → ℝ) (hp : Pixels img w h P)
    (hw : 0 < w) (hh : 0 < h) (u v u' v' : Ext) (s t : ℝ) (m n : ℤ) (hu : u.Is s) (hv : v.Is t) (hu' : u'.Is (s + m))
    (hv' : v'.Is (t + n)) :
    ∃ c c', bilinear img u v = .ok c ∧ bilinear img u' v' = .ok c' ∧ ∀ ch, ∃ x, (c.at ch).Is x ∧ (c'.at ch).Is x := by
  obtain ⟨c, e, hc⟩ := C42_bilinear img w h P hp hw hh u v s t hu hv
  obtain ⟨c', e', hc'⟩ := C42_bilinear img w h P hp hw hh u' v' _ _ hu' hv'
  refine ⟨c, c', e, e', fun ch => ⟨_, hc ch, ?_⟩⟩
  have := hc' ch
  rwa [Int.fract_add_intCast, Int.fract_add_intCast] at this

private theorem lerp_weights {w : Nat} (hw : 0 < w) {s : ℝ} (h0 : 0 ≤ s) (h1 : s < 1) :
    ∃ a : Nat → ℝ, (∀ x, 0 ≤ a x) ∧ ∑ x ∈ range w, a x = 1 ∧
      ∀ f : Nat → ℝ, lerp f (s * ((w : ℝ) - 1)) = ∑ x ∈ range w, a x * f x := by
  obtain ⟨hi, n, hn, -, cn⟩ := index_is hw h0 h1
  unfold lerp
  generalize s * ((w : ℝ) - 1) = X at *
  have f0 := Int.fract_nonneg X
  have f1 := (Int.fract_lt_one X).le
  refine ⟨fun x => (if x = ⌊X⌋₊ then 1 - Int.fract X else 0) + (if x = n then Int.fract X else 0), ?_, ?_, ?_⟩
  · intro x
    refine add_nonneg ?_ ?_ <;> split_ifs <;> linarith
  · rw [Finset.sum_add_distrib, Finset.sum_ite_eq', Finset.sum_ite_eq', if_pos (Finset.mem_range.2 hi),
      if_pos (Finset.mem_range.2 hn)]
    ring
  · intro f
    have e : ∀ x ∈ range w, ((if x = ⌊X⌋₊ then 1 - Int.fract X else 0) + (if x = n then Int.fract X else 0)) * f x =
        (if x = ⌊X⌋₊ then (1 - Int.fract X) * f x else 0) + (if x = n then Int.fract X * f x else 0) := by
      intro x _
      split_ifs <;> ring
    rw [Finset.sum_congr rfl e, Finset.sum_add_distrib, Finset.sum_ite_eq', Finset.sum_ite_eq',
      if_pos (Finset.mem_range.2 hi), if_pos (Finset.mem_range.2 hn)]
    rcases cn with rfl | h0
    · rfl
    · rw [h0]; ring

/-- **C42 (convexity).** The colour looked up is a weighted mean of the colours of the image: the weights are
not negative, add up to one and are the same for the three channels. -/
theorem C42_convex (img : List (List (Color Ext))) (w h : Nat) (P : Nat → Nat → Ch → ℝ) (hp : Pixels img w h P)
    (hw : 0 < w) (hh : 0 < h) (u v : Ext) (s t : ℝ) (hu : u.Is s) (hv : v.Is t) :
    ∃ c, bilinear img u v = .ok c ∧ ∃ wt : Nat → Nat → ℝ, (∀ x y, 0 ≤ wt x y) ∧
      ∑ y ∈ range h, ∑ x ∈ range w, wt x y = 1 ∧
      ∀ ch, (c.at ch).Is (∑ y ∈ range h, ∑ x ∈ range w, wt x y * P x y ch) := by
  obtain ⟨c, e, hc⟩ := C42_bilinear img w h P hp hw hh u v s t hu hv
  obtain ⟨a, a0, a1, ha⟩ := lerp_weights hw (Int.fract_nonneg s) (Int.fract_lt_one s)
  obtain ⟨b, b0, b1, hb⟩ := lerp_weights hh (Int.fract_nonneg t) (Int.fract_lt_one t)
  refine ⟨c, e, fun x y => b y * a x, fun x y => mul_nonneg (b0 y) (a0 x), ?_, fun ch => ?_⟩
  · simp only [← Finset.mul_sum, a1, mul_one, b1]
  · have := hc ch
    unfold interp at this
    rw [hb] at this
    simp only [ha, Finset.mul_sum, ← mul_assoc] at this
    exact this

/-- **C42 (pixel centres).** At the centre of pixel `(i, j)`, other than the last column and row, the lookup gives that
pixel. -/
theorem C42_centres (img : List (List (Color Ext))) (w h : Nat) (P : Nat → Nat → Ch → ℝ) (hp : Pixels img w h P)
    (i j : Nat) (hi : i + 1 < w) (hj : j + 1 < h) (u v : Ext) (hu : u.Is (i / ((w : ℝ) - 1)))
    (hv : v.Is (j / ((h : ℝ) - 1))) : ∃ c, bilinear img u v = .ok c ∧ ∀ ch, (c.at ch).Is (P i j ch) := by
  obtain ⟨c, e, hc⟩ := C42_bilinear img w h P hp (by omega) (by omega) u v _ _ hu hv
  refine ⟨c, e, fun ch => ?_⟩
  have key : ∀ {k n : Nat}, k + 1 < n → Int.fract ((k : ℝ) / ((n : ℝ) - 1)) * ((n : ℝ) - 1) = k := by
    intro k n hk
    have h1 : (k : ℝ) + 1 < n := by exact_mod_cast hk
    have h2 : (0 : ℝ) ≤ k := Nat.cast_nonneg k
    have h3 : (0 : ℝ) < (n : ℝ) - 1 := by linarith
    rw [Int.fract_eq_self.2 ⟨div_nonneg h2 h3.le, by rw [div_lt_one h3]; linarith⟩, div_mul_cancel₀ _ h3.ne']
  have := hc ch
  unfold interp lerp at this
  rw [key hi, key hj] at this
  simpa using this

/-- **C42 (NaN).** A NaN coordinate gives black, for every number model and every image. -/
theorem C42_nan {F : Type} [Add F] [Sub F] [Mul F] [Div F] [Neg F] [GoFloat F] (img : List (List (Color F))) (u v : F)
    (h : (u ==. u) = false ∨ (v ==. v) = false) : bilinear img u v = .ok Color.black := by
  unfold bilinear
  rcases h with h | h <;> simp [h]

/-- A result rounded between two numbers with few bits stays between them. -/
private theorem rnd_mem {x L U : ℝ} {s : Bool} {m n : ℤ} (hL : L = m) (hU : U = n) (hm : |m| < 2 ^ 53) (hn : |n| < 2 ^ 53)
    (h0 : L ≤ x) (h1 : x ≤ U) : ∃ y, (Flo.rnd (.num x s)).e.Is y ∧ L ≤ y ∧ y ≤ U := by
  have rl : roundBits 53 L = L := by
    have := roundBits_exact 53 m 0 hm (by norm_num)
    rw [zpow_zero, mul_one] at this
    rw [hL]; exact this
  have ru : roundBits 53 U = U := by
    have := roundBits_exact 53 n 0 hn (by norm_num)
    rw [zpow_zero, mul_one] at this
    rw [hU]; exact this
  have b0 : L ≤ roundBits 53 x := by
    have := roundBits_mono 53 (by norm_num) h0
    rwa [rl] at this
  have b1 : roundBits 53 x ≤ U := by
    have := roundBits_mono 53 (by norm_num) h1
    rwa [ru] at this
  have big : |roundBits 53 x| < 2 ^ 1024 := by
    have hm' : |L| < 2 ^ 53 := by rw [hL]; exact_mod_cast hm
    have hn' : |U| < 2 ^ 53 := by rw [hU]; exact_mod_cast hn
    have h53 : (2 : ℝ) ^ 53 ≤ 2 ^ 1024 := pow_le_pow_right₀ (by norm_num) (by norm_num)
    rw [abs_lt] at hm' hn' ⊢
    exact ⟨lt_of_le_of_lt (neg_le_neg h53) (lt_of_lt_of_le hm'.1 b0), lt_of_le_of_lt b1 (lt_of_lt_of_le hn'.2 h53)⟩
  refine ⟨roundBits 53 x, ⟨if roundBits 53 x = 0 then (Ext.num x s).sgn else s, ?_⟩, b0, b1⟩
  unfold Flo.rnd Flo.roundTo
  dsimp only
  rw [if_neg (not_le.2 big)]

private theorem flo_lit (q : ℤ) (hq : |q| < 2 ^ 53) : (lit (q : ℚ) : Flo).e.Is q := by
  obtain ⟨y, hy, a, b⟩ := rnd_mem (x := (q : ℝ)) (s := false) (m := q) (n := q) rfl rfl hq hq le_rfl le_rfl
  rw [le_antisymm b a] at hy
  change (Flo.rnd (Ext.num ((q : ℚ) : ℝ) false)).e.Is q
  push_cast
  exact hy

private theorem flo_frac {a : Flo} {x : ℝ} (h : a.e.Is x) : ∃ y, (frac a).e.Is y ∧ 0 ≤ y ∧ y ≤ 1 := by
  obtain ⟨s, e⟩ := h
  have hd : a.e - (GoFloat.floor a).e = Ext.num x s - Ext.num (⌊x⌋ : ℝ) (Ext.sgn (.num x s)) := by
    change a.e - GoFloat.floor a.e = _
    rw [e]
    rfl
  unfold frac
  change ∃ y, (Flo.rnd (a.e - (GoFloat.floor a).e)).e.Is y ∧ _
  rw [hd, Ext.num_sub_num]
  refine rnd_mem (L := 0) (U := 1) (m := 0) (n := 1) (by simp) (by simp) (by norm_num) (by norm_num) ?_ ?_
  · have := Int.floor_le x; linarith
  · have := Int.lt_floor_add_one x; linarith

private theorem flo_warp {a : Flo} {x : ℝ} (h : a.e.Is x) : ∃ y, (warp a).e.Is y ∧ 0 ≤ y ∧ y ≤ 1 := by
  have l0 : (lit 0 : Flo).e.Is 0 := by simpa using flo_lit 0 (by norm_num)
  have l1 : (lit 1 : Flo).e.Is 1 := by simpa using flo_lit 1 (by norm_num)
  have hm : ∃ y, (modfFrac a).e.Is y ∧ -1 ≤ y ∧ y ≤ 1 := by
    unfold modfFrac
    split_ifs
    · have hn : (-a).e.Is (-x) := h.neg
      obtain ⟨y, hy, y0, y1⟩ := flo_frac hn
      exact ⟨-y, hy.neg, by linarith, by linarith⟩
    · obtain ⟨y, hy, y0, y1⟩ := flo_frac h
      exact ⟨y, hy, by linarith, y1⟩
  obtain ⟨y, hy, y0, y1⟩ := hm
  unfold warp
  dsimp only
  generalize modfFrac a = z at hy ⊢
  have hlt : (z <. lit 0) = decide (y < 0) := hy.lt l0
  have hz : ∃ y, (if (z <. lit 0) = true then lit 1 + z else z).e.Is y ∧ 0 ≤ y ∧ y ≤ 1 := by
    rw [hlt]
    by_cases hy0 : y < 0
    · simp only [hy0, decide_true, if_true]
      obtain ⟨σ, hs⟩ : ∃ σ, (lit 1 : Flo).e + z.e = Ext.num (1 + y) σ := by
        obtain ⟨s, e⟩ := hy; obtain ⟨t, e'⟩ := l1; rw [e, e', Ext.num_add_num]; exact ⟨_, rfl⟩
      change ∃ y, (Flo.rnd ((lit 1 : Flo).e + z.e)).e.Is y ∧ _
      rw [hs]
      exact rnd_mem (L := 0) (U := 1) (m := 0) (n := 1) (by simp) (by simp) (by norm_num) (by norm_num)
        (by linarith) (by linarith)
    · simp only [hy0, decide_false, Bool.false_eq_true, if_false]
      exact ⟨y, hy, not_lt.1 hy0, y1⟩
  split_ifs at hz ⊢ with h1 h2
  all_goals first
    | exact ⟨0, l0, le_rfl, zero_le_one⟩
    | exact hz

/-- **C42 (range, floats).** Also with rounded arithmetic the lookup never reads outside the image: for every
rectangular image with at least one pixel and fewer than `2^53` columns and rows, and all finite coordinates. -/
theorem C42_in_range (img : List (List (Color Flo))) (w h : Nat) (hl : img.length = h) (hr : ∀ r ∈ img, r.length = w)
    (hw : 0 < w) (hh : 0 < h) (hw53 : w < 2 ^ 53) (hh53 : h < 2 ^ 53) (u v : Flo) (s t : ℝ) (hu : u.e.Is s) (hv : v.e.Is t) :
    ∃ c, bilinear img u v = .ok c := by
  have hsz : size img = (w, h) := by
    cases img with
    | nil => simp at hl; omega
    | cons r rs => unfold Texture.size; dsimp only; rw [hl, hr r (by simp)]
  have hat : ∀ i j : Int, 0 ≤ i → i < w → 0 ≤ j → j < h → ∃ c, atIndex img i j = .ok c := by
    intro i j i0 i1 j0 j1
    unfold atIndex
    rw [if_neg (by omega)]
    have hj : j.toNat < img.length := by omega
    rw [List.getElem?_eq_getElem hj]
    dsimp only
    have hi : i.toNat < img[j.toNat].length := by rw [hr _ (List.getElem_mem hj)]; omega
    rw [if_neg (by omega), List.getElem?_eq_getElem hi]
    exact ⟨_, rfl⟩
  have hidx : ∀ (a : Flo) (x : ℝ) (n : Nat), a.e.Is x → 0 < n → n < 2 ^ 53 →
      0 ≤ GoFloat.trunc (warp a * ofInt ((n : Int) - 1)) ∧ GoFloat.trunc (warp a * ofInt ((n : Int) - 1)) < n := by
    intro a x n ha hn0 hn53
    obtain ⟨y, hy, y0, y1⟩ := flo_warp ha
    have hn1 : (1 : ℝ) ≤ n := by exact_mod_cast hn0
    have hq : |(n : ℤ) - 1| < 2 ^ 53 := by rw [abs_lt]; constructor <;> omega
    have hi : (ofInt ((n : Int) - 1) : Flo).e.Is ((n : ℝ) - 1) := by
      have := flo_lit ((n : ℤ) - 1) hq
      change (Flo.rnd (Ext.num _ false)).e.Is _
      change (Flo.rnd (Ext.num _ false)).e.Is _ at this
      push_cast at this ⊢
      exact this
    have hp : (warp a).e * (ofInt ((n : Int) - 1) : Flo).e = Ext.num (y * ((n : ℝ) - 1))
        (xor (Ext.sgn (warp a).e) (Ext.sgn (ofInt ((n : Int) - 1) : Flo).e)) := by
      obtain ⟨s, e⟩ := hy; obtain ⟨t, e'⟩ := hi; rw [e, e', Ext.num_mul_num]
    obtain ⟨z, hz, z0, z1⟩ := rnd_mem (x := y * ((n : ℝ) - 1)) (L := 0) (U := (n : ℝ) - 1)
      (s := xor (Ext.sgn (warp a).e) (Ext.sgn (ofInt ((n : Int) - 1) : Flo).e)) (m := 0) (n := (n : ℤ) - 1)
      (by simp) (by push_cast; rfl) (by norm_num) hq (mul_nonneg y0 (by linarith)) (by nlinarith)
    have ht : GoFloat.trunc (warp a * ofInt ((n : Int) - 1)) = ⌊z⌋ := by
      change GoFloat.trunc (Flo.rnd ((warp a).e * (ofInt ((n : Int) - 1) : Flo).e)).e = _
      rw [hp]
      obtain ⟨s, e⟩ := hz
      rw [e]
      change realTrunc z = _
      unfold realTrunc
      rw [if_pos z0]
    rw [ht]
    refine ⟨Int.floor_nonneg.2 z0, Int.floor_lt.2 ?_⟩
    push_cast
    linarith
  have hnext : ∀ (i : Int) (n : Nat), 0 ≤ i → 0 < n → 0 ≤ next i n ∧ next i n < n := by
    intro i n i0 n0
    unfold next
    split_ifs <;> omega
  have hus : (u ==. u) = true := by obtain ⟨b, e⟩ := hu; change (u.e ==. u.e) = true; rw [e]; simp
  have hvs : (v ==. v) = true := by obtain ⟨b, e⟩ := hv; change (v.e ==. v.e) = true; rw [e]; simp
  unfold bilinear
  rw [hsz]
  dsimp only
  rw [hus, hvs]
  simp only [Bool.not_true, Bool.or_self, Bool.false_eq_true, if_false]
  obtain ⟨a0, a1⟩ := hidx u s w hu hw hw53
  obtain ⟨b0, b1⟩ := hidx v t h hv hh hh53
  obtain ⟨c0, c1⟩ := hnext _ w a0 hw
  obtain ⟨d0, d1⟩ := hnext _ h b0 hh
  obtain ⟨c00, e00⟩ := hat _ _ a0 a1 b0 b1
  obtain ⟨c01, e01⟩ := hat _ _ a0 a1 d0 d1
  obtain ⟨c10, e10⟩ := hat _ _ c0 c1 b0 b1
  obtain ⟨c11, e11⟩ := hat _ _ c0 c1 d0 d1
  rw [e00, e01, e10, e11]
  exact ⟨_, rfl⟩

/-- **C42 (nearest, partial).** For coordinates between 0 and 1, nearest lookup gives a pixel whose centre is at most
half a pixel away in both directions. Missing: other coordinates, where the lookup can crash
(`C42_violated_nearest`). -/
theorem C42_nearest_partial (img : List (List (Color Ext))) (w h : Nat) (P : Nat → Nat → Ch → ℝ) (hp : Pixels img w h P)
    (hw : 0 < w) (hh : 0 < h) (u v : Ext) (s t : ℝ) (hu : u.Is s) (hv : v.Is t) (s0 : 0 ≤ s) (s1 : s ≤ 1) (t0 : 0 ≤ t)
    (t1 : t ≤ 1) :
    ∃ (i j : Nat) (c : Color Ext), i < w ∧ j < h ∧ |s * ((w : ℝ) - 1) - i| ≤ 1 / 2 ∧ |t * ((h : ℝ) - 1) - j| ≤ 1 / 2 ∧
      nearest img u v = .ok c ∧ ∀ ch, (c.at ch).Is (P i j ch) := by
  have half : (lit (1 / 2) : Ext).Is (1 / 2) := by have := Ext.Is.lit (1 / 2); push_cast at this; exact this
  have key : ∀ (a : Ext) (z : ℝ) (n : Nat), a.Is z → 0 ≤ z → z ≤ 1 → 0 < n → ∃ i : Nat, i < n ∧
      |z * ((n : ℝ) - 1) - i| ≤ 1 / 2 ∧ GoFloat.trunc (a * ofInt ((n : Int) - 1) + lit (1 / 2)) = i := by
    intro a z n ha z0 z1 hn
    have hn1 : (1 : ℝ) ≤ n := by exact_mod_cast hn
    have hi : (ofInt ((n : Int) - 1) : Ext).Is ((n : ℝ) - 1) := ⟨_, by rw [Ext.ofInt_ext]; push_cast; rfl⟩
    have hX := (ha.mul hi).add half
    have p0 : 0 ≤ z * ((n : ℝ) - 1) := mul_nonneg z0 (by linarith)
    refine ⟨⌊z * ((n : ℝ) - 1) + 1 / 2⌋₊, ?_, ?_, trunc_is hX (by positivity)⟩
    · rw [Nat.floor_lt (by positivity)]
      nlinarith
    · have a1 := Nat.floor_le (by positivity : 0 ≤ z * ((n : ℝ) - 1) + 1 / 2)
      have a2 := Nat.lt_floor_add_one (z * ((n : ℝ) - 1) + 1 / 2)
      rw [abs_le]
      constructor <;> linarith
  obtain ⟨i, hi, di, ei⟩ := key u s w hu s0 s1 hw
  obtain ⟨j, hj, dj, ej⟩ := key v t h hv t0 t1 hh
  obtain ⟨c, ec, hc⟩ := hp.at hi hj
  refine ⟨i, j, c, hi, hj, di, dj, ?_, hc⟩
  unfold nearest
  rw [hp.size hh]
  dsimp only
  rw [ei, ej]
  exact ec

/-- **C42 violated (nearest).** Unlike bilinear lookup, nearest lookup does not tile: on every image with at least two
columns it crashes for every first coordinate of 2 or more. -/
theorem C42_violated_nearest (img : List (List (Color Ext))) (w h : Nat) (P : Nat → Nat → Ch → ℝ) (hp : Pixels img w h P)
    (hw : 2 ≤ w) (hh : 0 < h) (u v : Ext) (s : ℝ) (hu : u.Is s) (s2 : 2 ≤ s) :
    nearest img u v = .error .indexOutOfRange := by
  have half : (lit (1 / 2) : Ext).Is (1 / 2) := by have := Ext.Is.lit (1 / 2); push_cast at this; exact this
  have hn1 : (2 : ℝ) ≤ w := by exact_mod_cast hw
  have hi : (ofInt ((w : Int) - 1) : Ext).Is ((w : ℝ) - 1) := ⟨_, by rw [Ext.ofInt_ext]; push_cast; rfl⟩
  have hX := (hu.mul hi).add half
  have big : (w : ℝ) ≤ s * ((w : ℝ) - 1) + 1 / 2 := by nlinarith
  have et := trunc_is hX (by linarith)
  have hge : w ≤ ⌊s * ((w : ℝ) - 1) + 1 / 2⌋₊ := Nat.le_floor big
  unfold nearest
  rw [hp.size hh]
  dsimp only
  rw [et]
  generalize ⌊s * ((w : ℝ) - 1) + 1 / 2⌋₊ = i at *
  generalize GoFloat.trunc (v * ofInt ((h : Int) - 1) + lit (1 / 2)) = j
  unfold atIndex
  by_cases hj : j < 0
  · rw [if_pos hj]
  · rw [if_neg hj]
    cases e : img[j.toNat]? with
    | none => rfl
    | some r =>
      have hl := (hp.2 _ r e).1
      dsimp only
      rw [if_neg (by omega), Int.toNat_natCast, List.getElem?_eq_none (by omega)]

/-- Non-vacuity: a two by one picture. -/
example : Pixels [[⟨.fin 0, .fin 0, .fin 0⟩, ⟨.fin 1, .fin 1, .fin 1⟩]] 2 1 (fun x _ _ => x) ∧ (Ext.fin (-7 / 4)).Is (-7 / 4) ∧
    interp 2 1 (fun x _ => (x : ℝ)) (Int.fract (-7 / 4)) 0 = 1 / 4 := by
  refine ⟨⟨rfl, ?_⟩, ⟨false, rfl⟩, ?_⟩
  · intro y r hr
    cases y with
    | succ n => simp at hr
    | zero =>
      simp only [List.getElem?_cons_zero, Option.some.injEq] at hr
      subst hr
      refine ⟨rfl, fun x c hc ch => ?_⟩
      rcases x with _ | _ | x
      · simp only [List.getElem?_cons_zero, Option.some.injEq] at hc
        subst hc; cases ch <;> exact ⟨false, by simp [Ext.fin, Color.at]⟩
      · simp only [List.getElem?_cons_succ, List.getElem?_cons_zero, Option.some.injEq] at hc
        subst hc; cases ch <;> exact ⟨false, by simp [Ext.fin, Color.at]⟩
      · simp at hc
  · have hf : Int.fract (-7 / 4 : ℝ) = 1 / 4 := by
      rw [Int.fract_eq_iff]
      exact ⟨by norm_num, by norm_num, -2, by norm_num⟩
    unfold interp lerp
    rw [hf]
    have e : (1 / 4 : ℝ) * ((2 : Nat) - 1) = 1 / 4 := by norm_num
    have e' : (0 : ℝ) * ((1 : Nat) - 1) = 0 := by norm_num
    have e2 : Int.fract (1 / 4 : ℝ) = 1 / 4 := Int.fract_eq_self.2 ⟨by norm_num, by norm_num⟩
    rw [e, e', e2, Int.fract_zero, show ⌊(1 / 4 : ℝ)⌋₊ = 0 from Nat.floor_eq_zero.2 (by norm_num)]
    norm_num

end BR.Texture
