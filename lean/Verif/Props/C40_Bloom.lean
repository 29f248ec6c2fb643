import Verif.Lemmas.Bloom
import Mathlib.Algebra.Order.BigOperators.Group.Finset
import Mathlib.Tactic.FieldSimp

/-! C40: bloom adds the thresholded image convolved with the normalised kernel and does not change its
source.

Pictures are finite extended numbers with exact arithmetic. Where the kernel has total zero the program
divides by zero; that case is the subject of C41. -/

namespace BR.Post

open Finset Img

/-- The image `img` of the heap shows finite colours, given by `P`. -/
def Displays (H : Heap (Color Ext)) (img : Img) (w h : Nat) (P : Nat → Nat → Ch → ℝ) : Prop :=
  Valid H img w h ∧ ∃ f, Shows H img w h f ∧ Finite w h f P

private theorem Displays.mono {H H' : Heap (Color Ext)} {img : Img} {w h : Nat} {P : Nat → Nat → Ch → ℝ}
    (d : Displays H img w h P) (fr : ∀ g, Valid H img w h → Shows H img w h g → Valid H' img w h ∧ Shows H' img w h g) :
    Displays H' img w h P := by
  obtain ⟨v, f, s, p⟩ := d
  exact ⟨(fr f v s).1, f, (fr f v s).2, p⟩

/-- **C40.** For every source picture `S`, kernel `K` with non-zero total, amplitude and threshold, and every
destination of the same size that shares no pixel with the source, adding the convolution succeeds, and every
pixel of the destination has grown by the sum over the source pixels of the excess over the threshold times the
normalised kernel at the displacement. No image that shares no pixel with the destination changes. -/
theorem C40_convolution (H : Heap (Color Ext)) (dst src kern : Img) (w h kw kh : Nat) (hh : 0 < h)
    (D S K : Nat → Nat → Ch → ℝ) (hd : Displays H dst w h D) (hs : Displays H src w h S) (hk : Displays H kern kw kh K)
    (sm : Simple dst) (ap : Apart dst src) (amplitude offset : Ext) (A T : ℝ) (hA : amplitude.Is A)
    (hT : offset.Is T) (hm : Bloom.mass K kw kh ≠ 0) :
    ∃ H', addConvolution dst src kern amplitude offset H = .ok H' ∧
      Displays H' dst w h (fun x y ch => D x y ch + Bloom.glow w h S K kw kh A T x y ch) ∧
      (∀ (b : Img) (w' h' : Nat) (P : Nat → Nat → Ch → ℝ), Displays H b w' h' P → Apart dst b → Displays H' b w' h' P) := by
  obtain ⟨vd, fd, sd, pd⟩ := hd
  obtain ⟨vs, fs, ss, ps⟩ := hs
  obtain ⟨vk, fk, sk, pk⟩ := hk
  have hkh : 0 < kh := by
    rcases Nat.eq_zero_or_pos kh with rfl | h0
    · exact absurd (by simp [Bloom.mass]) hm
    · exact h0
  obtain ⟨sum, e1, hsum⟩ := kernelSum_is vk sk pk
  obtain ⟨k, H1, e2, v1, sm1, s1, fr1⟩ := copy_frame Color.black vk hkh sk
  obtain ⟨H2, e3, v2, s2, fr2⟩ := scale_is v1 sm1 s1 (amplitude / sum)
  have hfac : (amplitude / sum).Is (A / Bloom.mass K kw kh) := hA.div hsum hm
  -- all that was there before is still there
  have old : ∀ (b : Img) (w' h' : Nat) (g : Nat → Nat → Color Ext), Valid H b w' h' → Shows H b w' h' g →
      Valid H2 b w' h' ∧ Shows H2 b w' h' g := by
    intro b w' h' g vb sb
    obtain ⟨va, sa, a1, -⟩ := fr1 b w' h' g vb sb
    exact fr2 b w' h' g va a1 sa
  have apdk : Apart dst k := (fr1 dst w h fd vd sd).2.2.2
  have i0 : Inv H2 dst w h D H2 := ⟨(old dst w h fd vd sd).1, ⟨fd, (old dst w h fd vd sd).2, pd⟩, fun _ _ _ _ vb _ sb => ⟨vb, sb⟩⟩
  -- reading the source and the scaled kernel
  have rs : ∀ D' H', Inv H2 dst w h D' H' → ∀ x y, x < w → y < h → Img.get H' src x y = .ok (fs x y) := by
    intro D' H' i x y hx hy
    obtain ⟨-, s⟩ := i.frame src w h fs (old src w h fs vs ss).1 ap (old src w h fs vs ss).2
    exact s.get hx hy
  have rk : ∀ D' H', Inv H2 dst w h D' H' → ∀ x y, x < kw → y < kh →
      Img.get H' k x y = .ok ((fk x y).mul (amplitude / sum)) := by
    intro D' H' i x y hx hy
    obtain ⟨-, s⟩ := i.frame k kw kh _ v2 apdk s2
    exact s.get hx hy
  -- one source pixel
  have pixel : ∀ sx sy, sx < w → sy < h → Adds H2 dst w h (fun H => splat dst src k offset w h kw kh (kw / 2) (kh / 2) sy sx H)
      (fun x y ch => ∑ iky ∈ range kh, if ((sy : Int) + iky - (kh / 2 : Nat) < 0 ∨ (sy : Int) + iky - (kh / 2 : Nat) ≥ h) then 0 else
        ∑ ikx ∈ range kw, if ((sx : Int) + ikx - (kw / 2 : Nat) < 0 ∨ (sx : Int) + ikx - (kw / 2 : Nat) ≥ w) then 0 else
          dot (sx + ikx - (kw / 2 : Nat)) (sy + iky - (kh / 2 : Nat)) (fun ch => Bloom.excess T (S sx sy ch) *
            (A / Bloom.mass K kw kh * K ikx iky ch)) x y ch) := by
    intro sx sy hsx hsy
    by_cases hlt : ((fs sx sy).max <. offset) = true
    · intro D' H' i
      refine ⟨H', ?_, i.congr fun x y _ _ => ?_⟩
      · unfold splat
        dsimp only
        rw [rs D' H' i sx sy hsx hsy, ok_bind, if_pos hlt]
      · funext ch
        rw [Pi.add_apply, Pi.add_apply, Pi.add_apply, left_eq_add]
        refine Finset.sum_eq_zero fun iky _ => ?_
        split_ifs
        · rfl
        · refine Finset.sum_eq_zero fun ikx _ => ?_
          rw [dot, Color.max_lt (ps sx sy hsx hsy) hT hlt ch]
          simp
    · have body : Adds H2 dst w h (fun H => (List.range kh).foldlM (fun H iky =>
          splatRow dst k (above (fs sx sy) offset) w h kw (kw / 2) (kh / 2) sx sy iky H) H)
          (∑ iky ∈ range kh, fun x y ch => if ((sy : Int) + iky - (kh / 2 : Nat) < 0 ∨ (sy : Int) + iky - (kh / 2 : Nat) ≥ h) then 0 else
            ∑ ikx ∈ range kw, if ((sx : Int) + ikx - (kw / 2 : Nat) < 0 ∨ (sx : Int) + ikx - (kw / 2 : Nat) ≥ w) then 0 else
              dot (sx + ikx - (kw / 2 : Nat)) (sy + iky - (kh / 2 : Nat)) (fun ch => Bloom.excess T (S sx sy ch) *
                (A / Bloom.mass K kw kh * K ikx iky ch)) x y ch) := by
        refine adds_loop _ _ kh fun iky hiky => ?_
        unfold splatRow
        by_cases hy : (sy : Int) + iky - (kh / 2 : Nat) < 0 ∨ (sy : Int) + iky - (kh / 2 : Nat) ≥ h
        · simp only [if_pos hy]
          exact adds_none
        · simp only [if_neg hy]
          have row : Adds H2 dst w h (fun H => (List.range kw).foldlM (fun H ikx =>
              splatCell dst k (above (fs sx sy) offset) w (kw / 2) sx iky (sy + iky - (kh / 2 : Nat)) ikx H) H)
              (∑ ikx ∈ range kw, fun x y ch => if ((sx : Int) + ikx - (kw / 2 : Nat) < 0 ∨ (sx : Int) + ikx - (kw / 2 : Nat) ≥ w) then 0 else
                dot (sx + ikx - (kw / 2 : Nat)) (sy + iky - (kh / 2 : Nat)) (fun ch => Bloom.excess T (S sx sy ch) *
                  (A / Bloom.mass K kw kh * K ikx iky ch)) x y ch) := by
            refine adds_loop _ _ kw fun ikx hikx => ?_
            unfold splatCell
            by_cases hx : (sx : Int) + ikx - (kw / 2 : Nat) < 0 ∨ (sx : Int) + ikx - (kw / 2 : Nat) ≥ w
            · simp only [if_pos hx]
              exact adds_none
            · simp only [if_neg hx]
              obtain ⟨px, hpx⟩ : ∃ px : Nat, (sx : Int) + ikx - (kw / 2 : Nat) = px := ⟨((sx : Int) + ikx - (kw / 2 : Nat)).toNat, by omega⟩
              obtain ⟨py, hpy⟩ : ∃ py : Nat, (sy : Int) + iky - (kh / 2 : Nat) = py := ⟨((sy : Int) + iky - (kh / 2 : Nat)).toNat, by omega⟩
              rw [hpx, hpy]
              refine adds_dot sm (by omega) (by omega) (k := fun H => Img.get H k ikx iky)
                (fun D' H' i => rk D' H' i ikx iky hikx hiky) fun ch => ?_
              rw [Color.at_mul3, Color.at_mul]
              exact (Color.above_is (ps sx sy hsx hsy) hT ch).mul (hfac.mul (pk ikx iky hikx hiky ch))
          intro D' H' i
          obtain ⟨H'', e, i'⟩ := row D' H' i
          refine ⟨H'', e, i'.congr fun x y _ _ => ?_⟩
          funext ch
          simp only [Pi.add_apply, Finset.sum_apply]
      intro D' H' i
      obtain ⟨H'', e, i'⟩ := body D' H' i
      refine ⟨H'', ?_, i'.congr fun x y _ _ => ?_⟩
      · unfold splat
        dsimp only
        rw [rs D' H' i sx sy hsx hsy, ok_bind, if_neg hlt]
        exact e
      · funext ch
        simp only [Pi.add_apply, Finset.sum_apply]
  -- all source pixels
  have all : Adds H2 dst w h (fun H => (List.range h).foldlM (fun H iy =>
      (List.range w).foldlM (fun H ix => splat dst src k offset w h kw kh (kw / 2) (kh / 2) iy ix H) H) H) _ :=
    adds_loop _ _ h fun sy hsy => adds_loop _ _ w fun sx hsx => pixel sx sy hsx hsy
  obtain ⟨H', e, i⟩ := all D H2 i0
  refine ⟨H', ?_, ⟨i.valid, ?_⟩, fun b w' h' P hb apb => ?_⟩
  · unfold addConvolution
    rw [vs.size hh, vk.size hkh]
    dsimp only
    rw [e1, ok_bind, e2, ok_bind, e3, ok_bind]
    exact e
  · refine (i.congr fun x y hx hy => ?_).pic
    funext ch
    simp only [Pi.add_apply, Finset.sum_apply]
    congr 1
    unfold Bloom.glow
    refine Finset.sum_congr rfl fun sy _ => Finset.sum_congr rfl fun sx _ => ?_
    rw [sum_dots kw kh w h sx sy (fun ch => Bloom.excess T (S sx sy ch))
      (fun a b ch => A / Bloom.mass K kw kh * K a b ch) x y hx hy ch]
    rfl
  · refine hb.mono fun g vb sb => ?_
    exact i.frame b w' h' g (old b w' h' g vb sb).1 apb (old b w' h' g vb sb).2

private theorem spread_total (K : Nat → Nat → Ch → ℝ) (w h kw kh : Nat) (A : ℝ) (ch : Ch) (sx sy : Nat)
    (hx0 : kw / 2 ≤ sx) (hx1 : sx + kw ≤ w + kw / 2) (hy0 : kh / 2 ≤ sy) (hy1 : sy + kh ≤ h + kh / 2) :
    ∑ y ∈ range h, ∑ x ∈ range w, Bloom.spread K kw kh A ch (x - sx) (y - sy) =
      A / Bloom.mass K kw kh * ∑ y ∈ range kh, ∑ x ∈ range kw, K x y ch := by
  rw [← Bloom.sum_fit hy0 hy1 (fun y => ∑ x ∈ range kw, K x y ch), Finset.mul_sum]
  refine Finset.sum_congr rfl fun y _ => ?_
  have e1 : ((kh / 2 : Nat) : Int) = (kh : Int) / 2 := by omega
  have e2 : ((kw / 2 : Nat) : Int) = (kw : Int) / 2 := by omega
  rw [e1]
  by_cases hy : 0 ≤ (y : Int) - sy + kh / 2 ∧ (y : Int) - sy + kh / 2 < kh
  · rw [if_pos hy, ← Bloom.sum_fit hx0 hx1 (fun x => K x _ ch), Finset.mul_sum]
    refine Finset.sum_congr rfl fun x _ => ?_
    unfold Bloom.spread
    rw [e2]
    by_cases hx : 0 ≤ (x : Int) - sx + kw / 2 ∧ (x : Int) - sx + kw / 2 < kw
    · rw [if_pos ⟨hx.1, hx.2, hy.1, hy.2⟩, if_pos hx]
    · rw [if_neg (by tauto), if_neg hx, mul_zero]
  · rw [if_neg hy, mul_zero]
    refine Finset.sum_eq_zero fun x _ => ?_
    unfold Bloom.spread
    rw [if_neg (by tauto)]

/-- **C40 (energy).** If every source pixel with an excess is so far from the borders that the kernel fits, then
in each channel the total light added is the amplitude times the total excess times the share of that channel in the
kernel; the share is one for a grey kernel. -/
theorem C40_energy (w h kw kh : Nat) (S K : Nat → Nat → Ch → ℝ) (A T : ℝ) (ch : Ch)
    (inside : ∀ sx sy, sx < w → sy < h → Bloom.excess T (S sx sy ch) ≠ 0 →
      kw / 2 ≤ sx ∧ sx + kw ≤ w + kw / 2 ∧ kh / 2 ≤ sy ∧ sy + kh ≤ h + kh / 2) :
    ∑ y ∈ range h, ∑ x ∈ range w, Bloom.glow w h S K kw kh A T x y ch =
      A * ((∑ y ∈ range kh, ∑ x ∈ range kw, K x y ch) / Bloom.mass K kw kh) *
        ∑ y ∈ range h, ∑ x ∈ range w, Bloom.excess T (S x y ch) := by
  have swap : ∑ y ∈ range h, ∑ x ∈ range w, Bloom.glow w h S K kw kh A T x y ch =
      ∑ sy ∈ range h, ∑ sx ∈ range w, ∑ y ∈ range h, ∑ x ∈ range w,
        Bloom.excess T (S sx sy ch) * Bloom.spread K kw kh A ch (x - sx) (y - sy) := by
    unfold Bloom.glow
    have e1 : ∀ y ∈ range h, (∑ x ∈ range w, ∑ sy ∈ range h, ∑ sx ∈ range w,
        Bloom.excess T (S sx sy ch) * Bloom.spread K kw kh A ch (x - sx) (y - sy)) =
        ∑ sy ∈ range h, ∑ sx ∈ range w, ∑ x ∈ range w,
          Bloom.excess T (S sx sy ch) * Bloom.spread K kw kh A ch (x - sx) (y - sy) := by
      intro y _
      rw [Finset.sum_comm]
      exact Finset.sum_congr rfl fun sy _ => Finset.sum_comm
    rw [Finset.sum_congr rfl e1, Finset.sum_comm]
    exact Finset.sum_congr rfl fun sy _ => Finset.sum_comm
  rw [swap, Finset.mul_sum]
  refine Finset.sum_congr rfl fun sy hsy => ?_
  rw [Finset.mul_sum]
  refine Finset.sum_congr rfl fun sx hsx => ?_
  simp only [← Finset.mul_sum]
  by_cases h0 : Bloom.excess T (S sx sy ch) = 0
  · rw [h0, zero_mul, mul_zero]
  · obtain ⟨a, b, c, d⟩ := inside sx sy (Finset.mem_range.1 hsx) (Finset.mem_range.1 hsy) h0
    rw [spread_total K w h kw kh A ch sx sy a b c d]
    ring

/-- **C40 (energy, grey kernels).** -/
theorem C40_energy_grey (w h kw kh : Nat) (S K : Nat → Nat → Ch → ℝ) (A T : ℝ) (ch : Ch)
    (grey : ∀ x y ch', K x y ch' = K x y ch) (hm : Bloom.mass K kw kh ≠ 0)
    (inside : ∀ sx sy, sx < w → sy < h → Bloom.excess T (S sx sy ch) ≠ 0 →
      kw / 2 ≤ sx ∧ sx + kw ≤ w + kw / 2 ∧ kh / 2 ≤ sy ∧ sy + kh ≤ h + kh / 2) :
    ∑ y ∈ range h, ∑ x ∈ range w, Bloom.glow w h S K kw kh A T x y ch =
      A * ∑ y ∈ range h, ∑ x ∈ range w, Bloom.excess T (S x y ch) := by
  rw [C40_energy w h kw kh S K A T ch inside]
  have e : ∑ y ∈ range kh, ∑ x ∈ range kw, K x y ch = Bloom.mass K kw kh := by
    unfold Bloom.mass
    refine Finset.sum_congr rfl fun y _ => Finset.sum_congr rfl fun x _ => ?_
    rw [grey x y .r, grey x y .g, grey x y .b]
    ring
  rw [e, div_self hm, mul_one]

/-- The part common to the blooms: copy the image and add the convolution with a kernel made beforehand. -/
theorem bloom_with {H H1 : Heap (Color Ext)} {img kern : Img} {w h n : Nat} (hh : 0 < h) {S K : Nat → Nat → Ch → ℝ}
    (hs : Displays H img w h S) (hk : Displays H1 kern n n K)
    (fr : ∀ (b : Img) (w' h' : Nat) (g : Nat → Nat → Color Ext), Valid H b w' h' → Shows H b w' h' g →
        Valid H1 b w' h' ∧ Shows H1 b w' h' g) {amplitude offset : Ext} {A T : ℝ} (hA : amplitude.Is A)
    (hT : offset.Is T) (hm : Bloom.mass K n n ≠ 0) :
    ∃ img2 H', (do
        let (img2, H) ← Img.copy Color.black img H1
        let H ← addConvolution img2 img kern amplitude offset H
        return (img2, H) : GoM (Img × Heap (Color Ext))) = .ok (img2, H') ∧
      Displays H' img2 w h (fun x y ch => S x y ch + Bloom.glow w h S K n n A T x y ch) ∧ Simple img2 ∧
      (∀ (b : Img) (w' h' : Nat) (P : Nat → Nat → Ch → ℝ), Displays H b w' h' P → Displays H' b w' h' P ∧ Apart img2 b) := by
  have up : ∀ (b : Img) (w' h' : Nat) (P : Nat → Nat → Ch → ℝ), Displays H b w' h' P → Displays H1 b w' h' P :=
    fun b w' h' P d => d.mono fun g vb sb => fr b w' h' g vb sb
  obtain ⟨v1, f1, s1, p1⟩ := up img w h S hs
  obtain ⟨img2, H2, e2, v2, sm2, s2, fr2⟩ := copy_frame Color.black v1 hh s1
  have up2 : ∀ (b : Img) (w' h' : Nat) (P : Nat → Nat → Ch → ℝ), Displays H1 b w' h' P → Displays H2 b w' h' P ∧ Apart img2 b := by
    intro b w' h' P d
    obtain ⟨vb, g, sb, pb⟩ := d
    obtain ⟨va, sa, ap, -⟩ := fr2 b w' h' g vb sb
    exact ⟨⟨va, g, sa, pb⟩, ap⟩
  obtain ⟨H', e, d, fr'⟩ := C40_convolution H2 img2 img kern w h n n hh S S K ⟨v2, f1, s2, p1⟩
    (up2 img w h S ⟨v1, f1, s1, p1⟩).1 (up2 kern n n K hk).1 sm2 (up2 img w h S ⟨v1, f1, s1, p1⟩).2 amplitude offset A T hA hT hm
  refine ⟨img2, H', ?_, d, sm2, fun b w' h' P db => ?_⟩
  · rw [e2, ok_bind]
    dsimp only
    rw [e, ok_bind]
    rfl
  · have := up2 b w' h' P (up b w' h' P db)
    exact ⟨fr' b w' h' P this.1 this.2, this.2⟩

/-- The Gaussian kernel of width `σ`, cut off at `p` pixels. -/
noncomputable def gaussian (σ : ℝ) (p : Nat) (x y : Nat) (_ : Ch) : ℝ :=
  Real.exp (-((((x : ℝ) - p) ^ 2 + ((y : ℝ) - p) ^ 2) / σ ^ 2))

/-- **C40 (Gaussian).** Gaussian bloom of a finite picture with positive radius and pixel size returns a new
picture of the same size, which is the old one plus the Gaussian glow. The source, and every other image, is not
modified. -/
theorem C40_gaussian (H : Heap (Color Ext)) (img : Img) (w h : Nat) (hh : 0 < h) (S : Nat → Nat → Ch → ℝ)
    (hs : Displays H img w h S) (pixelSize radius amplitude threshold : Ext) (p r A T : ℝ) (hp : pixelSize.Is p)
    (hr : radius.Is r) (hA : amplitude.Is A) (hT : threshold.Is T) (hp0 : 0 < p) (hr0 : 0 < r) :
    ∃ img2 H', gaussianBloom img pixelSize radius amplitude threshold H = .ok (img2, H') ∧
      Displays H' img2 w h (fun x y ch => S x y ch +
        Bloom.glow w h S (gaussian (r / p) (⌊5 * (r / p)⌋₊ + 1)) (2 * (⌊5 * (r / p)⌋₊ + 1) + 1) (2 * (⌊5 * (r / p)⌋₊ + 1) + 1) A T x y ch) ∧
      (∀ (b : Img) (w' h' : Nat) (P : Nat → Nat → Ch → ℝ), Displays H b w' h' P → Displays H' b w' h' P ∧ Apart img2 b) := by
  have hq0 : 0 < r / p := div_pos hr0 hp0
  have hq : (radius / pixelSize).Is (r / p) := hr.div hp hp0.ne'
  have hn : GoFloat.trunc (lit 5 * (radius / pixelSize)) + 1 = ((⌊5 * (r / p)⌋₊ + 1 : Nat) : Int) := by
    have h5 : (lit 5 : Ext).Is 5 := by simpa using Ext.Is.lit 5
    obtain ⟨s, e⟩ := h5.mul hq
    rw [e]
    change realTrunc _ + 1 = _
    unfold realTrunc
    rw [if_pos (by positivity), Nat.cast_add, Nat.cast_one, ← Int.natCast_floor_eq_floor (by positivity)]
  obtain ⟨k, H1, e1, v1, s1, fr1⟩ := kernel_is (⌊5 * (r / p)⌋₊ + 1) (gaussianAt (radius / pixelSize)) H
  generalize ⌊5 * (r / p)⌋₊ + 1 = n at *
  have hk : Displays H1 k (2 * n + 1) (2 * n + 1) (gaussian (r / p) n) := by
    refine ⟨v1, _, s1, fun x y _ _ ch => ?_⟩
    have hx : (ofInt ((x : Int) - n) : Ext).Is ((x : ℝ) - n) := ⟨_, by rw [Ext.ofInt_ext]; push_cast; rfl⟩
    have hy : (ofInt ((y : Int) - n) : Ext).Is ((y : ℝ) - n) := ⟨_, by rw [Ext.ofInt_ext]; push_cast; rfl⟩
    have hE : (GoFloat.exp (-((ofInt ((x : Int) - n) * ofInt ((x : Int) - n) + ofInt ((y : Int) - n) * ofInt ((y : Int) - n)) /
        ((radius / pixelSize) * (radius / pixelSize))) : Ext)).Is (gaussian (r / p) n x y ch) := by
      obtain ⟨s, e⟩ := ((((hx.mul hx).add (hy.mul hy)).div (hq.mul hq) (by positivity)).neg)
      rw [e]
      refine ⟨false, ?_⟩
      unfold gaussian
      rw [pow_two, pow_two, pow_two]
      rfl
    cases ch <;> exact hE
  have hm : Bloom.mass (gaussian (r / p) n) (2 * n + 1) (2 * n + 1) ≠ 0 := by
    refine ne_of_gt (Finset.sum_pos (fun y _ => Finset.sum_pos (fun x _ => ?_) ⟨0, by simp⟩) ⟨0, by simp⟩)
    unfold gaussian
    positivity
  obtain ⟨img2, H', e, d, -, fr⟩ := bloom_with hh hs hk fr1 hA hT hm
  refine ⟨img2, H', ?_, d, fr⟩
  unfold gaussianBloom
  dsimp only
  rw [hn, e1, ok_bind]
  exact e

/-- The Airy kernel of width `σ`, cut off at `p` pixels; `J` is the Bessel function. -/
noncomputable def airyDisk (J : ℝ → ℝ) (σ : ℝ) (p : Nat) (x y : Nat) (ch : Ch) : ℝ :=
  let r := Real.sqrt (((x : ℝ) - p) ^ 2 + ((y : ℝ) - p) ^ 2) / σ
  let s := match ch with | .r => 500 / 700 * r | .g => r | .b => 500 / 450 * r
  if r = 0 then 1 else (2 * J s / s) ^ 2

/-- **C40 (Airy).** The same for Airy bloom, for every Bessel function with finite values. -/
theorem C40_airy (j1 : Ext → Ext) (J : ℝ → ℝ) (hJ : ∀ (a : Ext) x, a.Is x → (j1 a).Is (J x))
    (H : Heap (Color Ext)) (img : Img) (w h : Nat) (hh : 0 < h) (S : Nat → Nat → Ch → ℝ)
    (hs : Displays H img w h S) (pixelSize radius amplitude threshold : Ext) (p r A T : ℝ) (hp : pixelSize.Is p)
    (hr : radius.Is r) (hA : amplitude.Is A) (hT : threshold.Is T) (hp0 : 0 < p) (hr0 : 0 < r) :
    ∃ img2 H', airyBloom j1 img pixelSize radius amplitude threshold H = .ok (img2, H') ∧
      Displays H' img2 w h (fun x y ch => S x y ch +
        Bloom.glow w h S (airyDisk J (r / p) (⌊8 * (r / p)⌋₊ + 1)) (2 * (⌊8 * (r / p)⌋₊ + 1) + 1) (2 * (⌊8 * (r / p)⌋₊ + 1) + 1) A T x y ch) ∧
      (∀ (b : Img) (w' h' : Nat) (P : Nat → Nat → Ch → ℝ), Displays H b w' h' P → Displays H' b w' h' P ∧ Apart img2 b) := by
  have hq0 : 0 < r / p := div_pos hr0 hp0
  have hq : (radius / pixelSize).Is (r / p) := hr.div hp hp0.ne'
  have hn : GoFloat.trunc (lit 8 * (radius / pixelSize)) + 1 = ((⌊8 * (r / p)⌋₊ + 1 : Nat) : Int) := by
    have h5 : (lit 8 : Ext).Is 8 := by simpa using Ext.Is.lit 8
    obtain ⟨s, e⟩ := h5.mul hq
    rw [e]
    change realTrunc _ + 1 = _
    unfold realTrunc
    rw [if_pos (by positivity), Nat.cast_add, Nat.cast_one, ← Int.natCast_floor_eq_floor (by positivity)]
  obtain ⟨k, H1, e1, v1, s1, fr1⟩ := kernel_is (⌊8 * (r / p)⌋₊ + 1) (airyAt j1 (radius / pixelSize)) H
  generalize ⌊8 * (r / p)⌋₊ + 1 = n at *
  have hk : Displays H1 k (2 * n + 1) (2 * n + 1) (airyDisk J (r / p) n) := by
    refine ⟨v1, _, s1, fun x y _ _ ch => ?_⟩
    have hx : (ofInt ((x : Int) - n) : Ext).Is ((x : ℝ) - n) := ⟨_, by rw [Ext.ofInt_ext]; push_cast; rfl⟩
    have hy : (ofInt ((y : Int) - n) : Ext).Is ((y : ℝ) - n) := ⟨_, by rw [Ext.ofInt_ext]; push_cast; rfl⟩
    have hsq : (GoFloat.sqrt ((ofInt ((x : Int) - n) * ofInt ((x : Int) - n) + ofInt ((y : Int) - n) * ofInt ((y : Int) - n)) : Ext)).Is
        (Real.sqrt (((x : ℝ) - n) ^ 2 + ((y : ℝ) - n) ^ 2)) := by
      obtain ⟨s, e⟩ := (hx.mul hx).add (hy.mul hy)
      rw [e, ← pow_two, ← pow_two]
      refine ⟨s, ?_⟩
      change (if _ < (0 : ℝ) then Ext.nan else _) = _
      rw [if_neg (not_lt.2 (by positivity))]
    have hR := hsq.div hq hq0.ne'
    have h0 : (lit 0 : Ext).Is 0 := by simpa using Ext.Is.lit 0
    have h1 : (lit 1 : Ext).Is 1 := by simpa using Ext.Is.lit 1
    have h2 : (lit 2 : Ext).Is 2 := by simpa using Ext.Is.lit 2
    have ha : (lit (500 / 700) : Ext).Is (500 / 700) := by have := Ext.Is.lit (500 / 700); push_cast at this; exact this
    have hb : (lit (500 / 500) : Ext).Is 1 := by have := Ext.Is.lit (500 / 500); norm_num at this ⊢; exact this
    have hc : (lit (500 / 450) : Ext).Is (500 / 450) := by have := Ext.Is.lit (500 / 450); push_cast at this; exact this
    unfold airyAt airyDisk
    dsimp only
    generalize GoFloat.sqrt ((ofInt ((x : Int) - n) * ofInt ((x : Int) - n) + ofInt ((y : Int) - n) * ofInt ((y : Int) - n)) : Ext) /
      (radius / pixelSize) = ρ at hR ⊢
    generalize Real.sqrt (((x : ℝ) - n) ^ 2 + ((y : ℝ) - n) ^ 2) / (r / p) = R at hR ⊢
    have hE : (ρ ==. lit 0) = decide (R = 0) := by
      obtain ⟨s, rfl⟩ := hR; obtain ⟨t, e⟩ := h0; rw [e]; exact Ext.eq_num ..
    rw [hE]
    have hai : ∀ {a : Ext} {z : ℝ}, a.Is z → z ≠ 0 → (airy j1 a).Is ((2 * J z / z) ^ 2) := by
      intro a z hz hz0
      unfold airy sqr
      rw [pow_two]
      have := (h2.mul (hJ a z hz)).div hz hz0
      exact this.mul this
    by_cases hR0 : R = 0
    · simp only [hR0, decide_true, if_true]
      cases ch <;> exact h1
    · simp only [hR0, decide_false, Bool.false_eq_true, if_false]
      cases ch
      · exact hai (ha.mul hR) (by positivity)
      · have := hai (hb.mul hR) (by simpa using hR0)
        rw [one_mul] at this
        exact this
      · exact hai (hc.mul hR) (by positivity)
  have hm : Bloom.mass (airyDisk J (r / p) n) (2 * n + 1) (2 * n + 1) ≠ 0 := by
    have pos : ∀ x y ch, 0 ≤ airyDisk J (r / p) n x y ch := by
      intro x y ch
      unfold airyDisk
      dsimp only
      split_ifs
      · exact zero_le_one
      · positivity
    have centre : ∀ ch, airyDisk J (r / p) n n n ch = 1 := by
      intro ch
      unfold airyDisk
      simp
    refine ne_of_gt (Finset.sum_pos' (fun y _ => Finset.sum_nonneg fun x _ => ?_) ⟨n, by simp; omega,
      Finset.sum_pos' (fun x _ => ?_) ⟨n, by simp; omega, ?_⟩⟩)
    · have := pos x y .r; have := pos x y .g; have := pos x y .b; positivity
    · have := pos x n .r; have := pos x n .g; have := pos x n .b; positivity
    · rw [centre, centre, centre]; norm_num
  obtain ⟨img2, H', e, d, -, fr⟩ := bloom_with hh hs hk fr1 hA hT hm
  refine ⟨img2, H', ?_, d, fr⟩
  unfold airyBloom
  dsimp only
  rw [hn, e1, ok_bind]
  exact e

/-- **C40 (no bloom).** With all radii zero, post-processing returns the image itself and touches nothing. -/
theorem C40_disabled (j1 : Ext → Ext) (P : Params Ext) (img : Img) (pixelSize : Ext) (H : Heap (Color Ext))
    (h1 : P.gaussian.radius.Is 0) (h2 : P.airy.radius.Is 0) (h3 : P.star.radius.Is 0) :
    P.applyTo j1 img pixelSize H = .ok (img, H) := by
  have key : ∀ {a : Ext}, a.Is 0 → (!(a ==. lit 0)) = false := by
    rintro a ⟨s, rfl⟩
    simp
  simp only [Params.applyTo, applyIf, key h1, key h2, key h3, Bool.false_eq_true, if_false, ok_bind]

/-- Non-vacuity: a new image displays black, so `C40_gaussian` applies to it with radius 1 and pixel size 1. -/
example : ∃ (H : Heap (Color Ext)) (img : Img), Displays H img 3 2 (fun _ _ _ => 0) ∧
    (Ext.fin 1).Is 1 ∧ (0 : ℝ) < 1 ∧ Bloom.excess (1 / 2) 1 = 1 / 2 := by
  obtain ⟨img, H, -, v, -, s, -, -⟩ := make_spec (Color.black : Color Ext) 3 2 []
  refine ⟨H, img, ⟨v, _, s, fun x y _ _ ch => ?_⟩, ⟨false, rfl⟩, one_pos, ?_⟩
  · cases ch <;> simpa [Color.at, Color.black] using Ext.Is.lit 0
  · unfold Bloom.excess; norm_num

end BR.Post
