import Verif.Lemmas.Cmp
import Verif.Spec.Box
import Mathlib.Data.EReal.Operations
import Mathlib.Tactic.Linarith

/-! One slab of the ray/box test, over extended numbers. -/

namespace BR

set_option linter.unusedSimpArgs false

open Ext

/-- `κ` is the parameter at which the ray `s + t*d` crosses the coordinate `μ`, looked at from
the sign of `d`. -/
structure Cross (κ μ : EReal) (s d : ℝ) (neg : Bool) : Prop where
  fwd : neg = false → ∀ t : ℝ, (κ ≤ t ↔ μ ≤ ((s + t * d : ℝ) : EReal)) ∧ ((t : EReal) ≤ κ ↔ ((s + t * d : ℝ) : EReal) ≤ μ)
  bwd : neg = true → ∀ t : ℝ, (κ ≤ t ↔ ((s + t * d : ℝ) : EReal) ≤ μ) ∧ ((t : EReal) ≤ κ ↔ μ ≤ ((s + t * d : ℝ) : EReal))

theorem cross_exists (m : Ext) (μ : EReal) (hm : Ext.key m = some μ) (s d : ℝ) (σ δ : Bool)
    (h0 : d = 0 → μ ≠ (s : EReal)) :
    ∃ κ, Ext.key ((m - num s σ) * (lit 1 / num d δ)) = some κ ∧ Cross κ μ s d (sgn (num d δ)) := by
  by_cases hd : d = 0
  · subst hd
    have hi : (lit 1 / num 0 δ : Ext) = inf δ := by
      rw [lit_ext, num_div_zero]; simp [sgn, not_lt.2 (zero_le_one (α := ℝ))]
    rw [hi]
    have hs : sgn (num 0 δ) = δ := by simp [sgn]
    rw [hs]
    cases m with
    | nan => simp [Ext.key] at hm
    | inf q =>
      simp only [inf_sub_num, inf_mul_inf]
      cases q <;> cases δ <;> simp [Ext.key] at hm ⊢ <;> subst hm <;>
        exact ⟨by simp, by simp⟩
    | num x q =>
      simp only [Ext.key, Option.some.injEq] at hm
      subst hm
      have hne : x - s ≠ 0 := fun h => h0 rfl (by rw [sub_eq_zero.1 h])
      rw [num_sub_num, num_mul_inf, if_neg hne]
      have hsg : ∀ z, sgn (num (x - s) z) = decide (x - s < 0) := by
        intro z; rw [sgn, if_neg hne]
      rw [hsg]
      rcases lt_or_gt_of_ne hne with h | h
      · have h1 : x < s := by linarith
        have h2 : ¬ s ≤ x := by linarith
        cases δ <;> simp [h, h1, h1.le, h2, Ext.key] <;>
          exact ⟨by simp [h1, h1.le, h2], by simp [h1, h1.le, h2]⟩
      · have h1 : s < x := by linarith
        have h2 : ¬ x ≤ s := by linarith
        have h3 : ¬ x - s < 0 := by linarith
        have h4 : ¬ x < s := by linarith
        cases δ <;> simp [h3, h4, h1, h1.le, h2, Ext.key] <;>
          exact ⟨by simp [h1, h1.le, h2], by simp [h1, h1.le, h2]⟩
  · have hs : sgn (num d δ) = decide (d < 0) := by rw [sgn, if_neg hd]
    have hi : ∃ ι, (lit 1 / num d δ : Ext) = num (1 / d) ι := by
      rw [lit_ext, num_div_num _ _ _ _ hd]; exact ⟨_, by rw [Rat.cast_one]⟩
    obtain ⟨ι, hi⟩ := hi
    rw [hi, hs]
    have hid : (1 / d) ≠ 0 := one_div_ne_zero hd
    have hsi : sgn (num (1 / d) ι) = decide (d < 0) := by
      rw [sgn, if_neg hid]; simp
    cases m with
    | nan => simp [Ext.key] at hm
    | inf q =>
      rw [inf_sub_num, inf_mul_num, if_neg hid, hsi]
      rcases lt_or_gt_of_ne hd with h | h
      · cases q <;> simp [Ext.key, h] at hm ⊢ <;> subst hm <;> exact ⟨by simp [-EReal.coe_add, -EReal.coe_mul], by simp [-EReal.coe_add, -EReal.coe_mul]⟩
      · have h' : ¬ d < 0 := by linarith
        cases q <;> simp [Ext.key, h'] at hm ⊢ <;> subst hm <;> exact ⟨by simp [-EReal.coe_add, -EReal.coe_mul], by simp [-EReal.coe_add, -EReal.coe_mul]⟩
    | num x q =>
      simp only [Ext.key, Option.some.injEq] at hm
      subst hm
      rw [num_sub_num, num_mul_num]
      refine ⟨_, rfl, ?_⟩
      have hmul : (x - s) * (1 / d) = (x - s) / d := by ring
      rw [hmul]
      rcases lt_or_gt_of_ne hd with h | h
      · simp only [h, decide_true]
        refine ⟨by simp, fun _ t => ?_⟩
        simp only [EReal.coe_le_coe_iff]
        constructor
        · rw [div_le_iff_of_neg h]; constructor <;> intro <;> linarith
        · rw [le_div_iff_of_neg h]; constructor <;> intro <;> linarith
      · have h' : ¬ d < 0 := by linarith
        simp only [h', decide_false]
        refine ⟨fun _ t => ?_, by simp⟩
        simp only [EReal.coe_le_coe_iff]
        constructor
        · rw [div_le_iff₀ h]; constructor <;> intro <;> linarith
        · rw [le_div_iff₀ h]; constructor <;> intro <;> linarith

/-- Entry and exit of one slab. -/
structure SlabSpec (en ex a b : EReal) (s d : ℝ) : Prop where
  mem : ∀ t : ℝ, (en ≤ t ∧ (t : EReal) ≤ ex) ↔ (a ≤ ((s + t * d : ℝ) : EReal) ∧ ((s + t * d : ℝ) : EReal) ≤ b)
  le : en ≤ ex
  /-- a finite entry or exit is on a face -/
  en_face : ∀ e : ℝ, en = e → ((s + e * d : ℝ) : EReal) = a ∨ ((s + e * d : ℝ) : EReal) = b
  ex_face : ∀ e : ℝ, ex = e → ((s + e * d : ℝ) : EReal) = a ∨ ((s + e * d : ℝ) : EReal) = b

private theorem cross_mono {κ₁ κ₂ a b : EReal} {s d : ℝ} (hab : a ≤ b) (h0 : d = 0 → a ≠ (s : EReal))
    (c1 : ∀ t : ℝ, (κ₁ ≤ t ↔ a ≤ ((s + t * d : ℝ) : EReal)) ∧ ((t : EReal) ≤ κ₁ ↔ ((s + t * d : ℝ) : EReal) ≤ a))
    (c2 : ∀ t : ℝ, (κ₂ ≤ t ↔ b ≤ ((s + t * d : ℝ) : EReal)) ∧ ((t : EReal) ≤ κ₂ ↔ ((s + t * d : ℝ) : EReal) ≤ b)) :
    κ₁ ≤ κ₂ := by
  by_contra hlt
  rw [not_le] at hlt
  obtain ⟨t, h1, h2⟩ := EReal.lt_iff_exists_real_btwn.1 hlt
  obtain ⟨t', h3, h4⟩ := EReal.lt_iff_exists_real_btwn.1 h2
  have e1 : ((s + t * d : ℝ) : EReal) = a := le_antisymm ((c1 t).2.1 h2.le) (hab.trans ((c2 t).1.1 h1.le))
  have e2 : ((s + t' * d : ℝ) : EReal) = a :=
    le_antisymm ((c1 t').2.1 h4.le) (hab.trans ((c2 t').1.1 (h1.le.trans h3.le)))
  have e3 : s + t * d = s + t' * d := EReal.coe_eq_coe_iff.1 (e1.trans e2.symm)
  have htt : t < t' := EReal.coe_lt_coe_iff.1 h3
  have hd : d = 0 := by
    have : (t' - t) * d = 0 := by linarith
    rcases mul_eq_zero.1 this with h | h
    · linarith
    · exact h
  subst hd
  exact h0 rfl (by rw [← e1]; simp)

private theorem cross_mono' {κ₁ κ₂ a b : EReal} {s d : ℝ} (hab : a ≤ b) (h0 : d = 0 → a ≠ (s : EReal))
    (c1 : ∀ t : ℝ, (κ₁ ≤ t ↔ ((s + t * d : ℝ) : EReal) ≤ a) ∧ ((t : EReal) ≤ κ₁ ↔ a ≤ ((s + t * d : ℝ) : EReal)))
    (c2 : ∀ t : ℝ, (κ₂ ≤ t ↔ ((s + t * d : ℝ) : EReal) ≤ b) ∧ ((t : EReal) ≤ κ₂ ↔ b ≤ ((s + t * d : ℝ) : EReal))) :
    κ₂ ≤ κ₁ := by
  by_contra hlt
  rw [not_le] at hlt
  obtain ⟨t, h1, h2⟩ := EReal.lt_iff_exists_real_btwn.1 hlt
  obtain ⟨t', h3, h4⟩ := EReal.lt_iff_exists_real_btwn.1 h2
  have e1 : ((s + t * d : ℝ) : EReal) = a := le_antisymm ((c1 t).1.1 h1.le) (hab.trans ((c2 t).2.1 h2.le))
  have e2 : ((s + t' * d : ℝ) : EReal) = a :=
    le_antisymm ((c1 t').1.1 (h1.le.trans h3.le)) (hab.trans ((c2 t').2.1 h4.le))
  have e3 : s + t * d = s + t' * d := EReal.coe_eq_coe_iff.1 (e1.trans e2.symm)
  have htt : t < t' := EReal.coe_lt_coe_iff.1 h3
  have hd : d = 0 := by
    have : (t' - t) * d = 0 := by linarith
    rcases mul_eq_zero.1 this with h | h
    · linarith
    · exact h
  subst hd
  exact h0 rfl (by rw [← e1]; simp)

theorem slab_spec (mn mx : Ext) (a b : EReal) (ha : Ext.key mn = some a) (hb : Ext.key mx = some b)
    (hab : a ≤ b) (s d : ℝ) (σ δ : Bool) (h0 : d = 0 → a ≠ (s : EReal) ∧ b ≠ (s : EReal)) :
    ∃ en ex, CmpModel.key (BBox.slab mn mx (num s σ) (num d δ)).1 = some en ∧
      CmpModel.key (BBox.slab mn mx (num s σ) (num d δ)).2 = some ex ∧ SlabSpec en ex a b s d := by
  obtain ⟨κ₁, k1, c1⟩ := cross_exists mn a ha s d σ δ (fun h => (h0 h).1)
  obtain ⟨κ₂, k2, c2⟩ := cross_exists mx b hb s d σ δ (fun h => (h0 h).2)
  refine ⟨min κ₁ κ₂, max κ₁ κ₂, key_fmin k1 k2, key_fmax k1 k2, ?_⟩
  cases hs : sgn (num d δ) with
  | false =>
    have d1 := c1.fwd hs
    have d2 := c2.fwd hs
    have hle := cross_mono hab (fun h => (h0 h).1) d1 d2
    rw [min_eq_left hle, max_eq_right hle]
    refine ⟨fun t => ?_, hle, ?_, ?_⟩
    · rw [(d1 t).1, (d2 t).2]
    · rintro e rfl
      exact .inl (le_antisymm ((d1 e).2.1 le_rfl) ((d1 e).1.1 le_rfl))
    · rintro e rfl
      exact .inr (le_antisymm ((d2 e).2.1 le_rfl) ((d2 e).1.1 le_rfl))
  | true =>
    have d1 := c1.bwd hs
    have d2 := c2.bwd hs
    have hle := cross_mono' hab (fun h => (h0 h).1) d1 d2
    rw [min_eq_right hle, max_eq_left hle]
    refine ⟨fun t => ?_, hle, ?_, ?_⟩
    · rw [(d2 t).1, (d1 t).2, and_comm]
    · rintro e rfl
      exact .inr (le_antisymm ((d2 e).1.1 le_rfl) ((d2 e).2.1 le_rfl))
    · rintro e rfl
      exact .inl (le_antisymm ((d1 e).1.1 le_rfl) ((d1 e).2.1 le_rfl))

/-! ## All three slabs -/

/-- The closed box with possibly infinite sides, as a set of points of real space. -/
structure EBox where
  x0 : EReal
  x1 : EReal
  y0 : EReal
  y1 : EReal
  z0 : EReal
  z1 : EReal

namespace EBox

/-- The point is in the box. -/
def Mem (b : EBox) (p : Vec ℝ) : Prop :=
  (b.x0 ≤ p.x ∧ (p.x : EReal) ≤ b.x1) ∧ (b.y0 ≤ p.y ∧ (p.y : EReal) ≤ b.y1) ∧
  (b.z0 ≤ p.z ∧ (p.z : EReal) ≤ b.z1)

/-- The corners are in order. -/
def Proper (b : EBox) : Prop := b.x0 ≤ b.x1 ∧ b.y0 ≤ b.y1 ∧ b.z0 ≤ b.z1

/-- The point has a coordinate in common with one of the faces. -/
def OnFacePlane (b : EBox) (p : Vec ℝ) : Prop :=
  (p.x : EReal) = b.x0 ∨ (p.x : EReal) = b.x1 ∨ (p.y : EReal) = b.y0 ∨ (p.y : EReal) = b.y1 ∨
  (p.z : EReal) = b.z0 ∨ (p.z : EReal) = b.z1

/-- `b` is this box. -/
def Of (B : EBox) (b : BBox Ext) : Prop :=
  Ext.key b.min.x = some B.x0 ∧ Ext.key b.max.x = some B.x1 ∧
  Ext.key b.min.y = some B.y0 ∧ Ext.key b.max.y = some B.y1 ∧
  Ext.key b.min.z = some B.z0 ∧ Ext.key b.max.z = some B.z1

/-- No component of the direction is zero while the start is in the plane of a face. -/
def NotInFace (B : EBox) (R : Ray ℝ) : Prop :=
  (R.dir.x = 0 → B.x0 ≠ (R.start.x : EReal) ∧ B.x1 ≠ (R.start.x : EReal)) ∧
  (R.dir.y = 0 → B.y0 ≠ (R.start.y : EReal) ∧ B.y1 ≠ (R.start.y : EReal)) ∧
  (R.dir.z = 0 → B.z0 ≠ (R.start.z : EReal) ∧ B.z1 ≠ (R.start.z : EReal))

end EBox

/-- What `ten` and `tex` of the box test are. -/
structure TenTex (B : EBox) (R : Ray ℝ) (ten tex : EReal) : Prop where
  mem : ∀ t : ℝ, (ten ≤ t ∧ (t : EReal) ≤ tex) ↔ B.Mem (R.at t)
  ten_face : ∀ e : ℝ, ten = e → B.OnFacePlane (R.at e)
  tex_face : ∀ e : ℝ, tex = e → B.OnFacePlane (R.at e)

theorem tenTex_spec (b : BBox Ext) (B : EBox) (hb : B.Of b) (hB : B.Proper) (r : Ray Ext) (R : Ray ℝ)
    (hr : r.Is R) (hn : B.NotInFace R) :
    ∃ ten tex, CmpModel.key (b.tenTex r).1 = some ten ∧ CmpModel.key (b.tenTex r).2 = some tex ∧
      TenTex B R ten tex ∧
      ∃ nx xx ny xy nz xz, ten = max (max nx ny) nz ∧ tex = min (min xx xy) xz ∧
        SlabSpec nx xx B.x0 B.x1 R.start.x R.dir.x ∧ SlabSpec ny xy B.y0 B.y1 R.start.y R.dir.y ∧
        SlabSpec nz xz B.z0 B.z1 R.start.z R.dir.z := by
  obtain ⟨⟨⟨σx, sx⟩, ⟨σy, sy⟩, ⟨σz, sz⟩⟩, ⟨δx, dx⟩, ⟨δy, dy⟩, ⟨δz, dz⟩⟩ := hr
  obtain ⟨hx0, hx1, hy0, hy1, hz0, hz1⟩ := hb
  obtain ⟨nx, xx, kx, kx', Sx⟩ := slab_spec _ _ _ _ hx0 hx1 hB.1 R.start.x R.dir.x σx δx hn.1
  obtain ⟨ny, xy, ky, ky', Sy⟩ := slab_spec _ _ _ _ hy0 hy1 hB.2.1 R.start.y R.dir.y σy δy hn.2.1
  obtain ⟨nz, xz, kz, kz', Sz⟩ := slab_spec _ _ _ _ hz0 hz1 hB.2.2 R.start.z R.dir.z σz δz hn.2.2
  rw [← sx, ← dx] at kx kx'
  rw [← sy, ← dy] at ky ky'
  rw [← sz, ← dz] at kz kz'
  refine ⟨_, _, key_max3 kx ky kz, key_min3 kx' ky' kz', ⟨fun t => ?_, fun e he => ?_, fun e he => ?_⟩,
    nx, xx, ny, xy, nz, xz, rfl, rfl, Sx, Sy, Sz⟩
  · have hx := Sx.mem t
    have hy := Sy.mem t
    have hz := Sz.mem t
    unfold EBox.Mem Ray.at Vec.madd
    dsimp only
    rw [← hx, ← hy, ← hz]
    simp only [max_le_iff, le_min_iff]
    tauto
  · unfold EBox.OnFacePlane Ray.at Vec.madd
    dsimp only
    rcases max_choice (max nx ny) nz with h | h
    · rcases max_choice nx ny with h' | h'
      · rcases Sx.en_face e (by rw [← h', ← h, he]) with h | h <;> simp only [h, true_or, or_true]
      · rcases Sy.en_face e (by rw [← h', ← h, he]) with h | h <;> simp only [h, true_or, or_true]
    · rcases Sz.en_face e (by rw [← h, he]) with h | h <;> simp only [h, true_or, or_true]
  · unfold EBox.OnFacePlane Ray.at Vec.madd
    dsimp only
    rcases min_choice (min xx xy) xz with h | h
    · rcases min_choice xx xy with h' | h'
      · rcases Sx.ex_face e (by rw [← h', ← h, he]) with h | h <;> simp only [h, true_or, or_true]
      · rcases Sy.ex_face e (by rw [← h', ← h, he]) with h | h <;> simp only [h, true_or, or_true]
    · rcases Sz.ex_face e (by rw [← h, he]) with h | h <;> simp only [h, true_or, or_true]

/-- On a finite slab that the ray crosses, entry and exit are finite. -/
theorem SlabSpec.finite {en ex : EReal} {a b s d : ℝ} (h : SlabSpec en ex a b s d) (hab : a ≤ b)
    (hd : d ≠ 0) : ex ≠ ⊤ ∧ en ≠ ⊥ := by
  have hin : ∀ t : ℝ, (en ≤ t ∧ (t : EReal) ≤ ex) ↔ (a ≤ s + t * d ∧ s + t * d ≤ b) := by
    intro t; rw [h.mem t, EReal.coe_le_coe_iff, EReal.coe_le_coe_iff]
  have h0 := (hin ((a - s) / d)).2 (by
    rw [div_mul_cancel₀ _ hd]; constructor <;> linarith)
  have hbig : ∀ k : ℝ, |k| > b - a → ¬ (en ≤ (((a - s) / d + k / d : ℝ) : EReal) ∧
      (((a - s) / d + k / d : ℝ) : EReal) ≤ ex) := by
    intro k hk hc
    have := (hin _).1 hc
    rw [add_mul, div_mul_cancel₀ _ hd, div_mul_cancel₀ _ hd] at this
    have h1 : 0 ≤ k := by linarith [this.1]
    rw [abs_of_nonneg h1] at hk
    linarith [this.2]
  constructor
  · rintro rfl
    refine hbig ((b - a + 1) * d / |d|) ?_ ⟨?_, le_top⟩
    · rw [abs_div, abs_mul, abs_abs, mul_div_assoc, div_self (abs_ne_zero.2 hd), mul_one]
      exact lt_of_lt_of_le (by linarith) (le_abs_self _)
    · refine h0.1.trans (EReal.coe_le_coe_iff.2 ?_)
      have : (b - a + 1) * d / |d| / d = (b - a + 1) / |d| := by field_simp
      rw [this]
      have : 0 ≤ (b - a + 1) / |d| := div_nonneg (by linarith) (abs_nonneg _)
      linarith
  · rintro rfl
    refine hbig (-((b - a + 1) * d / |d|)) ?_ ⟨bot_le, ?_⟩
    · rw [abs_neg, abs_div, abs_mul, abs_abs, mul_div_assoc, div_self (abs_ne_zero.2 hd), mul_one]
      exact lt_of_lt_of_le (by linarith) (le_abs_self _)
    · refine le_trans (EReal.coe_le_coe_iff.2 ?_) h0.2
      have : -((b - a + 1) * d / |d|) / d = -((b - a + 1) / |d|) := by field_simp
      rw [this]
      have : 0 ≤ (b - a + 1) / |d| := div_nonneg (by linarith) (abs_nonneg _)
      linarith

end BR
