import Verif.Lemmas.Slab
import Verif.Lemmas.GoM
import Verif.Lemmas.ExtIs
import Verif.Model.Object
import Mathlib.Tactic.NormNum

/-!
C19: the ray/box test succeeds exactly when the forward ray meets the box, and the reported distance
is where the ray crosses its surface, including for axis-parallel rays.

Numbers are extended numbers with signed zeros, infinities and NaN and exact finite arithmetic, so
that zero components of the direction behave as in the program. A ray is excluded when it is
parallel to a face and runs in the plane of that face.
-/

namespace BR

open Ext

/-- The real box as a box with possibly infinite sides. -/
def EBox.ofReal (B : BBox ℝ) : EBox :=
  ⟨B.min.x, B.max.x, B.min.y, B.max.y, B.min.z, B.max.z⟩

/-- No component of the direction is zero while the start is in the plane of a face perpendicular to
that component. -/
def BBox.NotInFace (B : BBox ℝ) (R : Ray ℝ) : Prop :=
  (R.dir.x = 0 → R.start.x ≠ B.min.x ∧ R.start.x ≠ B.max.x) ∧
  (R.dir.y = 0 → R.start.y ≠ B.min.y ∧ R.start.y ≠ B.max.y) ∧
  (R.dir.z = 0 → R.start.z ≠ B.min.z ∧ R.start.z ≠ B.max.z)

/-- The ray is about to enter the box: it starts in it, and was outside just before. -/
def BBox.EntersAtStart (B : BBox ℝ) (R : Ray ℝ) : Prop :=
  B.Mem (R.at 0) ∧ ∀ t < 0, ¬ B.Mem (R.at t)

private theorem mem_ofReal (B : BBox ℝ) (p : Vec ℝ) : (EBox.ofReal B).Mem p ↔ B.Mem p := by
  unfold EBox.Mem EBox.ofReal BBox.Mem
  simp only [EReal.coe_le_coe_iff, and_assoc]

private theorem face_ofReal (B : BBox ℝ) (p : Vec ℝ) :
    (EBox.ofReal B).OnFacePlane p ↔ B.OnFacePlane p := by
  unfold EBox.OnFacePlane EBox.ofReal BBox.OnFacePlane
  simp only [EReal.coe_eq_coe_iff]

private theorem of_ofReal {b : BBox Ext} {B : BBox ℝ} (h : b.Is B) : (EBox.ofReal B).Of b := by
  obtain ⟨⟨⟨_, a⟩, ⟨_, c⟩, ⟨_, d⟩⟩, ⟨_, e⟩, ⟨_, f⟩, ⟨_, g⟩⟩ := h
  unfold EBox.Of EBox.ofReal
  rw [a, c, d, e, f, g]
  exact ⟨rfl, rfl, rfl, rfl, rfl, rfl⟩

private theorem notInFace_ofReal {B : BBox ℝ} {R : Ray ℝ} (h : B.NotInFace R) :
    (EBox.ofReal B).NotInFace R := by
  unfold EBox.NotInFace EBox.ofReal
  simp only [ne_eq, EReal.coe_eq_coe_iff]
  obtain ⟨a, b, c⟩ := h
  exact ⟨fun h => ⟨fun e => (a h).1 e.symm, fun e => (a h).2 e.symm⟩,
    fun h => ⟨fun e => (b h).1 e.symm, fun e => (b h).2 e.symm⟩,
    fun h => ⟨fun e => (c h).1 e.symm, fun e => (c h).2 e.symm⟩⟩

private theorem key_intersect {b : BBox Ext} {r : Ray Ext} {ten tex : EReal}
    (h1 : CmpModel.key (b.tenTex r).1 = some ten) (h2 : CmpModel.key (b.tenTex r).2 = some tex) :
    CmpModel.key (b.intersect r) = some (if tex < ten then 0 else if ten < 0 then tex else ten) := by
  have h0 : CmpModel.key (lit 0 : Ext) = some (0 : EReal) := CmpModel.key_zero
  unfold BBox.intersect
  dsimp only
  rw [lt_key h2 h1, lt_key h1 h0]
  by_cases h : tex < ten
  · simp only [h, decide_true, if_true, h0]
  · by_cases h' : ten < 0
    · simp only [h, h', decide_true, decide_false, if_true, if_false, h2, Bool.false_eq_true]
    · simp only [h, h', decide_false, if_false, h1, Bool.false_eq_true]

private theorem intersects_iff {b : BBox Ext} {r : Ray Ext} {ten tex : EReal}
    (h1 : CmpModel.key (b.tenTex r).1 = some ten) (h2 : CmpModel.key (b.tenTex r).2 = some tex) :
    b.intersects r = true ↔ ten ≤ tex ∧ (ten < 0 ∧ 0 < tex ∨ 0 < ten) := by
  have h0 : CmpModel.key (lit 0 : Ext) = some (0 : EReal) := CmpModel.key_zero
  unfold BBox.intersects
  rw [lt_key h0 (key_intersect h1 h2), decide_eq_true_iff]
  by_cases h : tex < ten
  · simp [h, not_le.2 h]
  · rw [if_neg h]
    by_cases h' : ten < 0
    · simp [h', not_lt.2 h'.le, not_lt.1 h]
    · simp [h', not_lt.1 h]

private theorem at_zero (R : Ray ℝ) : R.at 0 = R.start := by
  simp [Ray.at, Vec.madd]

/-- For a proper finite box and a non-zero direction, `ten` and `tex` are finite when they are in
order. -/
private theorem finite_of (B : BBox ℝ) (hB : B.Proper) (R : Ray ℝ) (hd : R.dir ≠ ⟨0, 0, 0⟩)
    {ten tex nx xx ny xy nz xz : EReal} (e1 : ten = max (max nx ny) nz) (e2 : tex = min (min xx xy) xz)
    (Sx : SlabSpec nx xx B.min.x B.max.x R.start.x R.dir.x)
    (Sy : SlabSpec ny xy B.min.y B.max.y R.start.y R.dir.y)
    (Sz : SlabSpec nz xz B.min.z B.max.z R.start.z R.dir.z) :
    tex ≠ ⊤ ∧ ten ≠ ⊥ := by
  have : R.dir.x ≠ 0 ∨ R.dir.y ≠ 0 ∨ R.dir.z ≠ 0 := by
    by_contra h
    push Not at h
    exact hd (by ext <;> simp [h.1, h.2.1, h.2.2])
  subst e1 e2
  rcases this with h | h | h
  · have := Sx.finite hB.1 h
    refine ⟨fun e => this.1 ?_, fun e => this.2 ?_⟩
    · simp only [min_eq_top] at e; exact e.1.1
    · simp only [max_eq_bot] at e; exact e.1.1
  · have := Sy.finite hB.2.1 h
    refine ⟨fun e => this.1 ?_, fun e => this.2 ?_⟩
    · simp only [min_eq_top] at e; exact e.1.2
    · simp only [max_eq_bot] at e; exact e.1.2
  · have := Sz.finite hB.2.2 h
    refine ⟨fun e => this.1 ?_, fun e => this.2 ?_⟩
    · simp only [min_eq_top] at e; exact e.2
    · simp only [max_eq_bot] at e; exact e.2

private theorem ereal_real {x : EReal} (h1 : x ≠ ⊤) (h2 : x ≠ ⊥) : ∃ r : ℝ, x = r :=
  ⟨x.toReal, (EReal.coe_toReal h1 h2).symm⟩

private theorem finite_spec {b : BBox Ext} {B : BBox ℝ} (hb : b.Is B) (hB : B.Proper)
    {r : Ray Ext} {R : Ray ℝ} (hr : r.Is R) (hd : R.dir ≠ ⟨0, 0, 0⟩) (hn : B.NotInFace R) :
    ∃ ten tex : EReal, CmpModel.key (b.tenTex r).1 = some ten ∧ CmpModel.key (b.tenTex r).2 = some tex ∧
      (ten ≤ tex → (∃ e : ℝ, ten = e) ∧ (∃ x : ℝ, tex = x)) ∧
      (∀ t : ℝ, (ten ≤ t ∧ (t : EReal) ≤ tex) ↔ B.Mem (R.at t)) ∧
      (∀ e : ℝ, ten = e → B.OnFacePlane (R.at e)) ∧ (∀ e : ℝ, tex = e → B.OnFacePlane (R.at e)) := by
  have hP : (EBox.ofReal B).Proper :=
    ⟨EReal.coe_le_coe_iff.2 hB.1, EReal.coe_le_coe_iff.2 hB.2.1, EReal.coe_le_coe_iff.2 hB.2.2⟩
  obtain ⟨ten, tex, k1, k2, T, nx, xx, ny, xy, nz, xz, e1, e2, Sx, Sy, Sz⟩ :=
    tenTex_spec b _ (of_ofReal hb) hP r R hr (notInFace_ofReal hn)
  obtain ⟨f1, f2⟩ := finite_of B hB R hd e1 e2 Sx Sy Sz
  refine ⟨ten, tex, k1, k2, fun h => ⟨ereal_real (ne_top_of_le_ne_top f1 h) f2,
    ereal_real f1 (ne_bot_of_le_ne_bot f2 h)⟩, fun t => ?_, fun e he => ?_, fun e he => ?_⟩
  · rw [T.mem t, mem_ofReal]
  · exact (face_ofReal _ _).1 (T.ten_face e he)
  · exact (face_ofReal _ _).1 (T.tex_face e he)

/-- The test succeeds exactly when the ray meets the box at a positive distance, except when the ray
starts on the surface and enters the box there. -/
theorem C19_test_partial (b : BBox Ext) (B : BBox ℝ) (hb : b.Is B) (hB : B.Proper)
    (r : Ray Ext) (R : Ray ℝ) (hr : r.Is R) (hd : R.dir ≠ ⟨0, 0, 0⟩) (hn : B.NotInFace R) :
    b.intersects r = true ↔ (∃ t > 0, B.Mem (R.at t)) ∧ ¬ B.EntersAtStart R := by
  obtain ⟨ten, tex, k1, k2, hf, hm, -, -⟩ := finite_spec hb hB hr hd hn
  rw [intersects_iff k1 k2]
  constructor
  · rintro ⟨hle, h⟩
    obtain ⟨⟨e, rfl⟩, x, rfl⟩ := hf hle
    rcases h with ⟨h1, h2⟩ | h
    · refine ⟨⟨x, EReal.coe_pos.1 h2, (hm x).1 ⟨hle, le_rfl⟩⟩, fun ⟨_, hc⟩ => ?_⟩
      exact hc e (EReal.coe_neg'.1 h1) ((hm e).1 ⟨le_rfl, hle⟩)
    · refine ⟨⟨e, EReal.coe_pos.1 h, (hm e).1 ⟨le_rfl, hle⟩⟩, fun ⟨hc, _⟩ => ?_⟩
      exact absurd ((hm 0).2 hc).1 (not_le.2 h)
  · rintro ⟨⟨t, ht, hin⟩, hs⟩
    obtain ⟨h1, h2⟩ := (hm t).2 hin
    refine ⟨h1.trans h2, ?_⟩
    rcases lt_trichotomy ten 0 with h | h | h
    · exact .inl ⟨h, lt_of_lt_of_le (EReal.coe_pos.2 ht) h2⟩
    · exfalso
      subst h
      refine hs ⟨(hm 0).1 ⟨le_rfl, (EReal.coe_pos.2 ht).le.trans h2⟩, fun u hu hc => ?_⟩
      exact absurd ((hm u).2 hc).1 (not_le.2 (EReal.coe_neg'.2 hu))
    · exact .inr h

/-- The result of the box test is never NaN, so comparing it with zero in either direction is the same test. -/
theorem BBox.intersect_le_zero (b : BBox Ext) (B : BBox ℝ) (hb : b.Is B) (hB : B.Proper)
    (r : Ray Ext) (R : Ray ℝ) (hr : r.Is R) (hd : R.dir ≠ ⟨0, 0, 0⟩) (hn : B.NotInFace R)
    (h : b.intersects r = false) : (b.intersect r <=. lit 0) = true := by
  obtain ⟨ten, tex, h1, h2, -⟩ := finite_spec hb hB hr hd hn
  have hk := key_intersect h1 h2
  have h0 : CmpModel.key (lit 0 : Ext) = some (0 : EReal) := CmpModel.key_zero
  unfold BBox.intersects at h
  rw [lt_key h0 hk, decide_eq_false_iff_not, not_lt] at h
  rw [le_key hk h0, decide_eq_true_eq]
  exact h

/-- From a start that is not on the surface, the test succeeds exactly when the forward ray meets the
box. -/
theorem C19_off_surface (b : BBox Ext) (B : BBox ℝ) (hb : b.Is B) (hB : B.Proper)
    (r : Ray Ext) (R : Ray ℝ) (hr : r.Is R) (hd : R.dir ≠ ⟨0, 0, 0⟩) (hn : B.NotInFace R)
    (hs : ¬ B.OnSurface R.start) :
    b.intersects r = true ↔ ∃ t > 0, B.Mem (R.at t) := by
  rw [C19_test_partial b B hb hB r R hr hd hn, and_iff_left_iff_imp]
  rintro - ⟨h0, hneg⟩
  rw [at_zero] at h0
  obtain ⟨ten, tex, k1, k2, hf, hm, hfa, -⟩ := finite_spec hb hB hr hd hn
  have h0' := (hm 0).2 (by rw [at_zero]; exact h0)
  obtain ⟨⟨e, rfl⟩, x, rfl⟩ := hf (h0'.1.trans h0'.2)
  have he0 : e ≤ 0 := EReal.coe_le_coe_iff.1 h0'.1
  have : e = 0 := by
    rcases he0.lt_or_eq with h | h
    · exact absurd ((hm e).1 ⟨le_rfl, h0'.1.trans h0'.2⟩) (hneg e h)
    · exact h
  subst this
  exact hs ⟨h0, by simpa [at_zero] using hfa 0 rfl⟩

/-- When the test succeeds, the reported distance is a positive number at which the ray crosses the
surface: the first point in the box when the ray starts outside, the last one when it starts
inside. -/
theorem C19_distance (b : BBox Ext) (B : BBox ℝ) (hb : b.Is B) (hB : B.Proper)
    (r : Ray Ext) (R : Ray ℝ) (hr : r.Is R) (hd : R.dir ≠ ⟨0, 0, 0⟩) (hn : B.NotInFace R)
    (hi : b.intersects r = true) :
    ∃ t : ℝ, (b.intersect r).Is t ∧ 0 < t ∧ B.OnSurface (R.at t) ∧
      (¬ B.Mem R.start → ∀ u, 0 ≤ u → u < t → ¬ B.Mem (R.at u)) ∧
      (B.Mem R.start → ∀ u, t < u → ¬ B.Mem (R.at u)) := by
  obtain ⟨ten, tex, k1, k2, hf, hm, f1, f2⟩ := finite_spec hb hB hr hd hn
  obtain ⟨hle, h⟩ := (intersects_iff k1 k2).1 hi
  obtain ⟨⟨e, rfl⟩, x, rfl⟩ := hf hle
  have hk := key_intersect k1 k2
  rw [if_neg (not_lt.2 hle)] at hk
  rcases h with ⟨h1, h2⟩ | h
  · rw [if_pos h1] at hk
    have h1' : e < 0 := EReal.coe_neg'.1 h1
    have h2' : 0 < x := EReal.coe_pos.1 h2
    refine ⟨x, .of_key hk, h2', ⟨(hm x).1 ⟨hle, le_rfl⟩, f2 x rfl⟩, fun hs => ?_, fun _ u hu hc => ?_⟩
    · exact absurd ((hm 0).1 ⟨EReal.coe_le_coe_iff.2 h1'.le, EReal.coe_le_coe_iff.2 h2'.le⟩)
        (by rw [at_zero]; exact hs)
    · exact absurd ((hm u).2 hc).2 (not_le.2 (EReal.coe_lt_coe_iff.2 hu))
  · rw [if_neg (not_lt.2 h.le)] at hk
    have h' : 0 < e := EReal.coe_pos.1 h
    refine ⟨e, .of_key hk, h', ⟨(hm e).1 ⟨le_rfl, hle⟩, f1 e rfl⟩, fun _ u _ hu hc => ?_, fun hs => ?_⟩
    · exact absurd ((hm u).2 hc).1 (not_le.2 (EReal.coe_lt_coe_iff.2 hu))
    · exact absurd ((hm 0).2 (by rw [at_zero]; exact hs)).1 (not_le.2 h)

/-- `N` is the outward normal of a face whose plane is within 1e-8 of `p`. -/
def BBox.FaceNormal (B : BBox ℝ) (p N : Vec ℝ) : Prop :=
  (N = ⟨-1, 0, 0⟩ ∧ |p.x - B.min.x| < 1 / 10 ^ 8) ∨ (N = ⟨1, 0, 0⟩ ∧ |p.x - B.max.x| < 1 / 10 ^ 8) ∨
  (N = ⟨0, -1, 0⟩ ∧ |p.y - B.min.y| < 1 / 10 ^ 8) ∨ (N = ⟨0, 1, 0⟩ ∧ |p.y - B.max.y| < 1 / 10 ^ 8) ∨
  (N = ⟨0, 0, -1⟩ ∧ |p.z - B.min.z| < 1 / 10 ^ 8) ∨ (N = ⟨0, 0, 1⟩ ∧ |p.z - B.max.z| < 1 / 10 ^ 8)

private theorem approx_is {a b : Ext} {x y : ℝ} (ha : a.Is x) (hb : b.Is y) :
    BBox.approx a b = decide (|x - y| < 1 / 10 ^ 8) := by
  have := (ha.sub hb).abs.lt (Ext.Is.lit (1 / 10 ^ 8))
  rw [BBox.approx, this]
  push_cast
  rfl

private theorem normal_spec {b : BBox Ext} {B : BBox ℝ} (hb : b.Is B) {p : Vec Ext} {P : Vec ℝ}
    (hp : p.Is P) (h : B.OnFacePlane P) :
    ∃ n N, b.normal p = .ok n ∧ n.Is N ∧ B.FaceNormal P N := by
  unfold BBox.normal
  rw [approx_is hp.1 hb.1.1, approx_is hp.1 hb.2.1, approx_is hp.2.1 hb.1.2.1,
    approx_is hp.2.1 hb.2.2.1, approx_is hp.2.2 hb.1.2.2, approx_is hp.2.2 hb.2.2.2]
  have l0 : (lit 0 : Ext).Is 0 := by simpa using Ext.Is.lit 0
  have l1 : (lit 1 : Ext).Is 1 := by simpa using Ext.Is.lit 1
  have lm : (lit (-1) : Ext).Is (-1) := by simpa using Ext.Is.lit (-1)
  have hex : (Vec.ex : Vec Ext).Is ⟨1, 0, 0⟩ := ⟨l1, l0, l0⟩
  have hey : (Vec.ey : Vec Ext).Is ⟨0, 1, 0⟩ := ⟨l0, l1, l0⟩
  have hez : (Vec.ez : Vec Ext).Is ⟨0, 0, 1⟩ := ⟨l0, l0, l1⟩
  have mex : (Vec.ex.mul (lit (-1)) : Vec Ext).Is ⟨-1, 0, 0⟩ := by simpa [Vec.mul] using hex.mul lm
  have mey : (Vec.ey.mul (lit (-1)) : Vec Ext).Is ⟨0, -1, 0⟩ := by simpa [Vec.mul] using hey.mul lm
  have mez : (Vec.ez.mul (lit (-1)) : Vec Ext).Is ⟨0, 0, -1⟩ := by simpa [Vec.mul] using hez.mul lm
  simp only [decide_eq_true_eq]
  split_ifs with h1 h2 h3 h4 h5 h6
  · exact ⟨_, _, rfl, mex, .inl ⟨rfl, h1⟩⟩
  · exact ⟨_, _, rfl, hex, .inr (.inl ⟨rfl, h2⟩)⟩
  · exact ⟨_, _, rfl, mey, .inr (.inr (.inl ⟨rfl, h3⟩))⟩
  · exact ⟨_, _, rfl, hey, .inr (.inr (.inr (.inl ⟨rfl, h4⟩)))⟩
  · exact ⟨_, _, rfl, mez, .inr (.inr (.inr (.inr (.inl ⟨rfl, h5⟩))))⟩
  · exact ⟨_, _, rfl, hez, .inr (.inr (.inr (.inr (.inr ⟨rfl, h6⟩))))⟩
  · exfalso
    have hp : (0 : ℝ) < 1 / 10 ^ 8 := by norm_num
    rcases h with h | h | h | h | h | h
    · exact h1 (by rw [h, sub_self, abs_zero]; exact hp)
    · exact h2 (by rw [h, sub_self, abs_zero]; exact hp)
    · exact h3 (by rw [h, sub_self, abs_zero]; exact hp)
    · exact h4 (by rw [h, sub_self, abs_zero]; exact hp)
    · exact h5 (by rw [h, sub_self, abs_zero]; exact hp)
    · exact h6 (by rw [h, sub_self, abs_zero]; exact hp)

/-- The box object never panics (in exact arithmetic). It reports a hit exactly when the box test
succeeds, at a point of its surface, with the outward normal of a face at that point, its own
material and the point relative to its lower corner. -/
theorem C19_box_object {M : Type} (b : BBox Ext) (B : BBox ℝ) (hb : b.Is B) (hB : B.Proper)
    (r : Ray Ext) (R : Ray ℝ) (hr : r.Is R) (hd : R.dir ≠ ⟨0, 0, 0⟩) (hn : B.NotInFace R)
    (mat : Option M) :
    ∃ h, b.hit mat r = .ok h ∧
      (b.intersects r = false → h = HitRecord.miss) ∧
      (b.intersects r = true → ∃ (t : ℝ) (N : Vec ℝ), h.t.Is t ∧ 0 < t ∧ B.OnSurface (R.at t) ∧
        h.normal.Is N ∧ B.FaceNormal (R.at t) N ∧ h.mat = mat ∧
        h.loc.Is ((R.at t).sub B.min)) := by
  unfold BBox.hit
  dsimp only
  have e : (b.intersect r >. lit 0) = b.intersects r := rfl
  rw [e]
  cases hi : b.intersects r with
  | false => exact ⟨_, rfl, fun _ => rfl, fun h => by cases h⟩
  | true =>
    obtain ⟨t, ht, h0, hs, -, -⟩ := C19_distance b B hb hB r R hr hd hn hi
    obtain ⟨n, N, en, hN, hf⟩ := normal_spec hb (hr.at ht) hs.2
    refine ⟨⟨b.intersect r, n, (r.at (b.intersect r)).sub b.min, mat⟩, ?_, fun h => (by cases h), fun _ => ⟨t, N, ht, h0, hs, hN, hf, rfl, ?_⟩⟩
    · simp only [Bool.not_true, Bool.false_eq_true, if_false, en, ok_bind]; rfl
    · exact (hr.at ht).sub hb.1

/-- Boxes with infinite sides are never missed: if the ray meets the box at a positive distance and
does not enter it at its start, then the test succeeds. -/
theorem C19_unbounded (b : BBox Ext) (B : EBox) (hb : B.Of b) (hB : B.Proper)
    (r : Ray Ext) (R : Ray ℝ) (hr : r.Is R) (hn : B.NotInFace R)
    (h : ∃ t > 0, B.Mem (R.at t)) (hs : ¬ (B.Mem (R.at 0) ∧ ∀ t < 0, ¬ B.Mem (R.at t))) :
    b.intersects r = true := by
  obtain ⟨ten, tex, k1, k2, T, -⟩ := tenTex_spec b B hb hB r R hr hn
  rw [intersects_iff k1 k2]
  obtain ⟨t, ht, hin⟩ := h
  obtain ⟨h1, h2⟩ := (T.mem t).2 hin
  refine ⟨h1.trans h2, ?_⟩
  rcases lt_trichotomy ten 0 with h | h | h
  · exact .inl ⟨h, lt_of_lt_of_le (EReal.coe_pos.2 ht) h2⟩
  · exfalso
    subst h
    refine hs ⟨(T.mem 0).1 ⟨le_rfl, (EReal.coe_pos.2 ht).le.trans h2⟩, fun u hu hc => ?_⟩
    exact absurd ((T.mem u).2 hc).1 (not_le.2 (EReal.coe_neg'.2 hu))
  · exact .inr h

/-! ## Non-vacuity -/

/-- The unit cube. -/
noncomputable def unitCube : BBox Ext := ⟨⟨fin 0, fin 0, fin 0⟩, ⟨fin 1, fin 1, fin 1⟩⟩
/-- The unit cube, real. -/
noncomputable def unitCubeR : BBox ℝ := ⟨⟨0, 0, 0⟩, ⟨1, 1, 1⟩⟩

/-- A ray along x through the cube: two components of the direction are zero. -/
example : unitCube.Is unitCubeR ∧ unitCubeR.Proper ∧
    Ray.Is ⟨⟨fin (-1), fin (1 / 2), fin (1 / 2)⟩, ⟨fin 1, fin 0, num 0 true⟩⟩
      (⟨⟨-1, 1 / 2, 1 / 2⟩, ⟨1, 0, 0⟩⟩ : Ray ℝ) ∧
    unitCubeR.NotInFace ⟨⟨-1, 1 / 2, 1 / 2⟩, ⟨1, 0, 0⟩⟩ ∧
    ¬ unitCubeR.OnSurface (⟨-1, 1 / 2, 1 / 2⟩ : Vec ℝ) ∧
    ∃ t > 0, unitCubeR.Mem ((⟨⟨-1, 1 / 2, 1 / 2⟩, ⟨1, 0, 0⟩⟩ : Ray ℝ).at t) := by
  refine ⟨⟨⟨⟨_, rfl⟩, ⟨_, rfl⟩, ⟨_, rfl⟩⟩, ⟨_, rfl⟩, ⟨_, rfl⟩, ⟨_, rfl⟩⟩, ?_,
    ⟨⟨⟨_, rfl⟩, ⟨_, rfl⟩, ⟨_, rfl⟩⟩, ⟨_, rfl⟩, ⟨_, rfl⟩, ⟨_, rfl⟩⟩, ?_, ?_, 3 / 2, ?_, ?_⟩
  · norm_num [BBox.Proper, unitCubeR]
  · norm_num [BBox.NotInFace, unitCubeR]
  · norm_num [BBox.OnSurface, BBox.Mem, unitCubeR]
  · norm_num
  · norm_num [BBox.Mem, unitCubeR, Ray.at, Vec.madd]

/-! ## Violations -/

/-- A ray that starts on a face and enters the cube is reported as a miss. -/
theorem C19_violated_face :
    unitCube.intersects ⟨⟨fin 0, fin (1 / 2), fin (1 / 2)⟩, ⟨fin 1, fin 0, fin 0⟩⟩ = false ∧
    ∀ t, 0 < t → t < 1 → unitCubeR.Mem ((⟨⟨0, 1 / 2, 1 / 2⟩, ⟨1, 0, 0⟩⟩ : Ray ℝ).at t) := by
  constructor
  · simp only [BBox.intersects, BBox.intersect, BBox.tenTex, BBox.slab, unitCube, Ext.fin, lit_ext,
      fmin, fmax, BBox.max3, BBox.min3]
    norm_num [num_div_num, num_div_zero, num_sub_num, num_mul_inf, num_mul_num, sgn]
  · intro t h0 h1
    norm_num [BBox.Mem, unitCubeR, Ray.at, Vec.madd]
    exact ⟨h0.le, h1.le⟩

/-- A ray that runs in the plane of the face `y = 0` is reported as a miss (NaN), and in the plane of
the opposite face `y = 1` as a hit; both meet the closed cube. -/
theorem C19_violated_in_face :
    unitCube.intersects ⟨⟨fin (-1), fin 0, fin (1 / 2)⟩, ⟨fin 1, fin 0, fin 0⟩⟩ = false ∧
    unitCube.intersects ⟨⟨fin (-1), fin 1, fin (1 / 2)⟩, ⟨fin 1, fin 0, fin 0⟩⟩ = true ∧
    unitCubeR.Mem ((⟨⟨-1, 0, 1 / 2⟩, ⟨1, 0, 0⟩⟩ : Ray ℝ).at (3 / 2)) ∧
    unitCubeR.Mem ((⟨⟨-1, 1, 1 / 2⟩, ⟨1, 0, 0⟩⟩ : Ray ℝ).at (3 / 2)) := by
  refine ⟨?_, ?_, ?_, ?_⟩
  · simp only [BBox.intersects, BBox.intersect, BBox.tenTex, BBox.slab, unitCube, Ext.fin, lit_ext,
      fmin, fmax, BBox.max3, BBox.min3]
    norm_num [num_div_num, num_div_zero, num_sub_num, num_mul_inf, num_mul_num, sgn]
  · simp only [BBox.intersects, BBox.intersect, BBox.tenTex, BBox.slab, unitCube, Ext.fin, lit_ext,
      fmin, fmax, BBox.max3, BBox.min3]
    norm_num [num_div_num, num_div_zero, num_sub_num, num_mul_inf, num_mul_num, sgn]
  · norm_num [BBox.Mem, unitCubeR, Ray.at, Vec.madd]
  · norm_num [BBox.Mem, unitCubeR, Ray.at, Vec.madd]

end BR
