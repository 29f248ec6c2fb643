import Verif.Lemmas.RoomRay
import Mathlib.Analysis.Real.Pi.Bounds

/-! In double precision: rotation matrices. -/

namespace BR.Turn
open Bounce

theorem flo_cmp_eq {a b : Flo} {x y : ℝ} (ha : a.Is x) (hb : b.Is y) (h : (a ==. b) = true) : x = y := by
  obtain ⟨z, z', h1, h2, rfl⟩ := (CmpModel.eq_iff a b).1 h
  obtain ⟨s, ha⟩ := ha
  obtain ⟨t, hb⟩ := hb
  have e1 : CmpModel.key a = some (x : EReal) := by change Ext.key a.e = _; rw [ha]; rfl
  have e2 : CmpModel.key b = some (y : EReal) := by change Ext.key b.e = _; rw [hb]; rfl
  rw [e1] at h1
  rw [e2] at h2
  have := h1.trans h2.symm
  rw [Option.some.injEq] at this
  exact_mod_cast this

theorem sin_near {a : Flo} {x : ℝ} (ha : a.Is x) : (GoFloat.sin a).Near (Real.sin x) (1 / 2 ^ 52) 1 := by
  obtain ⟨s, ha⟩ := ha
  have h1 := Real.abs_sin_le_one x
  refine ⟨⟨roundBits 53 (Real.sin x), ?_, ?_⟩, h1⟩
  · change (Flo.rnd (GoFloat.sin a.e)).Is _
    rw [ha]
    exact Flo.rnd_is _ (h1.trans (by norm_num))
  · exact err_le (roundBits_err 53 (by norm_num) _) h1 (by norm_num)

theorem cos_near {a : Flo} {x : ℝ} (ha : a.Is x) : (GoFloat.cos a).Near (Real.cos x) (1 / 2 ^ 52) 1 := by
  obtain ⟨s, ha⟩ := ha
  have h1 := Real.abs_cos_le_one x
  refine ⟨⟨roundBits 53 (Real.cos x), ?_, ?_⟩, h1⟩
  · change (Flo.rnd (GoFloat.cos a.e)).Is _
    rw [ha]
    exact Flo.rnd_is _ (h1.trans (by norm_num))
  · exact err_le (roundBits_err 53 (by norm_num) _) h1 (by norm_num)

theorem pi_near : (GoFloat.pi : Flo).Near Real.pi (4 / 2 ^ 53) 3.15 := by
  have h1 : |Real.pi| ≤ 3.15 := by rw [abs_of_pos Real.pi_pos]; linarith [Real.pi_lt_d2]
  refine ⟨⟨roundBits 53 Real.pi, ?_, ?_⟩, h1⟩
  · change (Flo.rnd (GoFloat.pi)).Is _
    exact Flo.rnd_is _ (h1.trans (by norm_num))
  · exact err_le (roundBits_err 53 (by norm_num) _) h1 (by norm_num)

theorem neg_is {a : Flo} {x : ℝ} (ha : a.Is x) : (-a).Is (-x) := by
  obtain ⟨v, hv, he⟩ := (ha.near (le_refl |x|)).neg.1
  have : v = -x := by
    have := abs_nonpos_iff.1 he
    linarith
  exact this ▸ hv

theorem goSin_near {a : Flo} {x : ℝ} (ha : a.Is x) : (goSin a).Near (Real.sin x) (8 / 2 ^ 53) 1 := by
  unfold goSin
  by_cases h : (a ==. (GoFloat.pi : Flo) || a ==. -(GoFloat.pi : Flo)) = true
  · rw [if_pos h]
    obtain ⟨p, hp, he⟩ := pi_near.1
    refine ⟨⟨0, Ball.flo_zero, ?_⟩, Real.abs_sin_le_one x⟩
    have hs : |Real.sin x| ≤ |p - Real.pi| := by
      rw [Bool.or_eq_true] at h
      rcases h with h | h
      · have hx := flo_cmp_eq ha hp h
        rw [hx, show Real.sin p = -Real.sin (p - Real.pi) by rw [Real.sin_sub_pi, neg_neg], abs_neg]
        exact Real.abs_sin_le_abs
      · have hx := flo_cmp_eq ha (neg_is hp) h
        rw [hx, show Real.sin (-p) = Real.sin (p - Real.pi) by rw [Real.sin_sub_pi, Real.sin_neg]]
        exact Real.abs_sin_le_abs
    rw [zero_sub, abs_neg]
    exact (hs.trans he).trans (by norm_num)
  · rw [if_neg h]
    exact (sin_near ha).weaken (by norm_num) le_rfl

theorem goCos_near {a : Flo} {x : ℝ} (ha : a.Is x) : (goCos a).Near (Real.cos x) (8 / 2 ^ 53) 1 := by
  unfold goCos
  have i2 : (lit 2 : Flo).Is 2 := by exact_mod_cast flo_int_is 2 (by norm_num)
  by_cases h : (a ==. (GoFloat.pi / lit 2 : Flo) || a ==. (-GoFloat.pi / lit 2 : Flo)) = true
  · rw [if_pos h]
    obtain ⟨p, hp, he⟩ := (pi_near.div 2 (8 / 2 ^ 53) 1.6 (i2.near (b := 2) (by norm_num)) (by norm_num)).1
    obtain ⟨q, hq, hf⟩ := (pi_near.neg.div 2 (8 / 2 ^ 53) 1.6 (i2.near (b := 2) (by norm_num)) (by norm_num)).1
    refine ⟨⟨0, Ball.flo_zero, ?_⟩, Real.abs_cos_le_one x⟩
    rw [zero_sub, abs_neg]
    rw [Bool.or_eq_true] at h
    rcases h with h | h
    · have hx := flo_cmp_eq ha hp h
      rw [hx, show Real.cos p = -Real.sin (p - Real.pi / 2) by rw [Real.sin_sub_pi_div_two, neg_neg], abs_neg]
      exact Real.abs_sin_le_abs.trans he
    · have hx := flo_cmp_eq ha hq h
      rw [hx, show Real.cos q = Real.sin (q - -Real.pi / 2) by
        rw [show q - -Real.pi / 2 = q + Real.pi / 2 by ring, Real.sin_add_pi_div_two]]
      exact Real.abs_sin_le_abs.trans hf
  · rw [if_neg h]
    exact (cos_near ha).weaken (by norm_num) le_rfl

/-! ## Matrices -/

/-- Every number of `v` is within `e` of the number of `w` it stands for, which is at most 1. -/
def VNear (v : Vec Flo) (w : Vec ℝ) (e : ℝ) : Prop := v.x.Near w.x e 1 ∧ v.y.Near w.y e 1 ∧ v.z.Near w.z e 1

def MNear (M : Matrix Flo) (R : Matrix ℝ) (e : ℝ) : Prop := VNear M.c0 R.c0 e ∧ VNear M.c1 R.c1 e ∧ VNear M.c2 R.c2 e

/-- The columns are orthogonal unit vectors. -/
structure Orth (R : Matrix ℝ) : Prop where
  h00 : ip R.c0 R.c0 = 1
  h11 : ip R.c1 R.c1 = 1
  h22 : ip R.c2 R.c2 = 1
  h01 : ip R.c0 R.c1 = 0
  h02 : ip R.c0 R.c2 = 0
  h12 : ip R.c1 R.c2 = 0

theorem unit_within {v : Vec ℝ} (h : ip v v = 1) : Within 1 v := within_of_sq (by norm_num) (by rw [h]; norm_num)

theorem Orth.mulVec {R : Matrix ℝ} (h : Orth R) (v w : Vec ℝ) : ip (R.mulVec v) (R.mulVec w) = ip v w := by
  obtain ⟨h00, h11, h22, h01, h02, h12⟩ := h
  simp only [ip, Matrix.mulVec] at *
  linear_combination v.x * w.x * h00 + v.y * w.y * h11 + v.z * w.z * h22 + (v.x * w.y + v.y * w.x) * h01 +
    (v.x * w.z + v.z * w.x) * h02 + (v.y * w.z + v.z * w.y) * h12

theorem mulCol_real (R : Matrix ℝ) (v : Vec ℝ) : R.mulCol v = R.mulVec v := by
  unfold Matrix.mulCol Matrix.mulVec
  simp only [Vec.mk.injEq, lit_real]
  refine ⟨?_, ?_, ?_⟩ <;> push_cast <;> ring

theorem Orth.mul {R Q : Matrix ℝ} (h : Orth R) (k : Orth Q) : Orth (R.mul Q) := by
  obtain ⟨k00, k11, k22, k01, k02, k12⟩ := k
  constructor <;> simp only [Matrix.mul, mulCol_real, h.mulVec] <;> assumption

theorem VNear.weaken {v : Vec Flo} {w : Vec ℝ} {e e' : ℝ} (h : VNear v w e) (he : e ≤ e') : VNear v w e' :=
  ⟨h.1.weaken he le_rfl, h.2.1.weaken he le_rfl, h.2.2.weaken he le_rfl⟩

theorem MNear.weaken {M : Matrix Flo} {R : Matrix ℝ} {e e' : ℝ} (h : MNear M R e) (he : e ≤ e') : MNear M R e' :=
  ⟨h.1.weaken he, h.2.1.weaken he, h.2.2.weaken he⟩

theorem near_nonneg {a : Flo} {x e b : ℝ} (h : a.Near x e b) : 0 ≤ e := by
  obtain ⟨⟨v, -, hv⟩, -⟩ := h
  exact (abs_nonneg _).trans hv

/-- A sum of three products, as matrices are multiplied. -/
theorem sum3_near {a1 a2 a3 b1 b2 b3 : Flo} {x1 x2 x3 y1 y2 y3 e f : ℝ} (he : e ≤ 1 / 2 ^ 30) (hf : f ≤ 1 / 2 ^ 30)
    (ha1 : a1.Near x1 e 1) (ha2 : a2.Near x2 e 1) (ha3 : a3.Near x3 e 1) (hb1 : b1.Near y1 f 1) (hb2 : b2.Near y2 f 1)
    (hb3 : b3.Near y3 f 1) :
    (lit 0 + a1 * b1 + a2 * b2 + a3 * b3).Near (x1 * y1 + x2 * y2 + x3 * y3) (3.1 * (e + f) + 12 / 2 ^ 53) 3 := by
  have e0 := near_nonneg ha1
  have f0 := near_nonneg hb1
  have ef : e * f ≤ e / 2 ^ 30 := by
    have := mul_le_mul_of_nonneg_left hf e0
    rwa [mul_one_div] at this
  have ef0 : 0 ≤ e * f := mul_nonneg e0 f0
  have s : e * 1 + 1 * f + e * f ≤ 1.01 * (e + f) := by norm_num at ef ⊢; linarith
  have m : ∀ {a b : Flo} {x y : ℝ}, a.Near x e 1 → b.Near y f 1 → (a * b).Near (x * y) (1.02 * (e + f) + 1.1 / 2 ^ 53) 1 := by
    intro a b x y ha hb
    refine ha.mul _ _ hb (by norm_num) ?_ ?_
    · norm_num at s ⊢; linarith
    · norm_num at s he hf ⊢; linarith
  have z := Ball.flo_zero.near (b := 0) (by norm_num)
  have h1 := z.add (1.03 * (e + f) + 2.2 / 2 ^ 53) 1 (m ha1 hb1) (by norm_num) (by norm_num at he hf ⊢; linarith) (by norm_num at he hf ⊢; linarith)
  have h2 := h1.add (2.06 * (e + f) + 5.4 / 2 ^ 53) 2 (m ha2 hb2) (by norm_num) (by norm_num at he hf ⊢; linarith) (by norm_num at he hf ⊢; linarith)
  have h3 := h2.add (3.1 * (e + f) + 12 / 2 ^ 53) 3 (m ha3 hb3) (by norm_num) (by norm_num at he hf ⊢; linarith) (by norm_num at he hf ⊢; linarith)
  exact h3.of_eq (by ring)

theorem MNear.mul {M N : Matrix Flo} {R Q : Matrix ℝ} {e f : ℝ} (hM : MNear M R e) (hN : MNear N Q f) (hR : Orth R) (hQ : Orth Q)
    (he : e ≤ 1 / 2 ^ 30) (hf : f ≤ 1 / 2 ^ 30) : MNear (M.mul N) (R.mul Q) (3.1 * (e + f) + 12 / 2 ^ 53) := by
  obtain ⟨⟨a1, a2, a3⟩, ⟨b1, b2, b3⟩, c1, c2, c3⟩ := hM
  have col : ∀ {v : Vec Flo} {w : Vec ℝ}, VNear v w f → ip w w = 1 → VNear (M.mulCol v) (R.mulCol w) (3.1 * (e + f) + 12 / 2 ^ 53) := by
    rintro v w ⟨v1, v2, v3⟩ hw
    have hb : Within 1 (R.mulVec w) := unit_within (by rw [hR.mulVec, hw])
    rw [mulCol_real]
    refine ⟨?_, ?_, ?_⟩
    · refine ((sum3_near hf he v1 v2 v3 a1 b1 c1).of_eq ?_ |>.bound hb.1).weaken (by linarith) le_rfl
      simp only [Matrix.mulVec]; ring
    · refine ((sum3_near hf he v1 v2 v3 a2 b2 c2).of_eq ?_ |>.bound hb.2.1).weaken (by linarith) le_rfl
      simp only [Matrix.mulVec]; ring
    · refine ((sum3_near hf he v1 v2 v3 a3 b3 c3).of_eq ?_ |>.bound hb.2.2).weaken (by linarith) le_rfl
      simp only [Matrix.mulVec]; ring
  exact ⟨col hN.1 hQ.h00, col hN.2.1 hQ.h11, col hN.2.2 hQ.h22⟩

/-! ## Multiplying with the unit matrix -/

/-- The matrix stands for the unit matrix. -/
def IsOne (M : Matrix Flo) : Prop := (M.c0.x.Is 1 ∧ M.c0.y.Is 0 ∧ M.c0.z.Is 0) ∧ (M.c1.x.Is 0 ∧ M.c1.y.Is 1 ∧ M.c1.z.Is 0) ∧
  (M.c2.x.Is 0 ∧ M.c2.y.Is 0 ∧ M.c2.z.Is 1)

theorem isOne_unit : IsOne (Matrix.unit : Matrix Flo) :=
  ⟨⟨flo_lit_one, Ball.flo_zero, Ball.flo_zero⟩, ⟨Ball.flo_zero, flo_lit_one, Ball.flo_zero⟩, Ball.flo_zero, Ball.flo_zero, flo_lit_one⟩

/-- The three ways a sum of three products with one 1 and two 0 comes out. -/
theorem pick_near {a1 a2 a3 b1 b2 b3 : Flo} {x1 x2 x3 y1 y2 y3 e : ℝ} (he : e ≤ 1 / 2 ^ 30)
    (ha1 : a1.Near x1 e 1) (ha2 : a2.Near x2 e 1) (ha3 : a3.Near x3 e 1) (hb1 : b1.Is y1) (hb2 : b2.Is y2)
    (hb3 : b3.Is y3) (hy : |y1| + |y2| + |y3| = 1) :
    (lit 0 + a1 * b1 + a2 * b2 + a3 * b3).Near (x1 * y1 + x2 * y2 + x3 * y3) (e + 8 / 2 ^ 53) 1 ∧
    (lit 0 + b1 * a1 + b2 * a2 + b3 * a3).Near (x1 * y1 + x2 * y2 + x3 * y3) (e + 8 / 2 ^ 53) 1 := by
  have e0 := near_nonneg ha1
  have k1 := abs_nonneg y1
  have k2 := abs_nonneg y2
  have k3 := abs_nonneg y3
  have m : ∀ {a b : Flo} {x y : ℝ}, a.Near x e 1 → b.Is y → |y| ≤ 1 →
      (a * b).Near (x * y) (e * |y| + 1.1 / 2 ^ 53 * |y| + 1 / 2 ^ 200) |y| ∧
      (b * a).Near (x * y) (e * |y| + 1.1 / 2 ^ 53 * |y| + 1 / 2 ^ 200) |y| := by
    intro a b x y ha hb h1
    have hm : e * |y| ≤ 1 / 2 ^ 30 * |y| := mul_le_mul_of_nonneg_right he (abs_nonneg _)
    have h0 := abs_nonneg y
    constructor
    · refine ha.mul _ _ (hb.near le_rfl) (by linarith) ?_ ?_
      · norm_num at hm ⊢; linarith
      · norm_num at hm ⊢; linarith
    · refine ((hb.near le_rfl).mul _ _ ha (by linarith) ?_ ?_).of_eq (mul_comm _ _)
      · norm_num at hm ⊢; linarith
      · norm_num at hm ⊢; linarith
  have z := Ball.flo_zero.near (b := 0) (by norm_num)
  have hm1 : e * |y1| ≤ 1 / 2 ^ 30 * |y1| := mul_le_mul_of_nonneg_right he k1
  have hm2 : e * |y2| ≤ 1 / 2 ^ 30 * |y2| := mul_le_mul_of_nonneg_right he k2
  have hm3 : e * |y3| ≤ 1 / 2 ^ 30 * |y3| := mul_le_mul_of_nonneg_right he k3
  have n1 := mul_nonneg e0 k1
  have n2 := mul_nonneg e0 k2
  have n3 := mul_nonneg e0 k3
  have fin : e * |y1| + e * |y2| + e * |y3| = e := by rw [← mul_add, ← mul_add, hy, mul_one]
  have step : ∀ {p1 p2 p3 : Flo}, p1.Near (x1 * y1) (e * |y1| + 1.1 / 2 ^ 53 * |y1| + 1 / 2 ^ 200) |y1| →
      p2.Near (x2 * y2) (e * |y2| + 1.1 / 2 ^ 53 * |y2| + 1 / 2 ^ 200) |y2| →
      p3.Near (x3 * y3) (e * |y3| + 1.1 / 2 ^ 53 * |y3| + 1 / 2 ^ 200) |y3| →
      (lit 0 + p1 + p2 + p3).Near (x1 * y1 + x2 * y2 + x3 * y3) (e + 8 / 2 ^ 53) 1 := by
    intro p1 p2 p3 q1 q2 q3
    have h1 := z.add (e * |y1| + 2.2 / 2 ^ 53) |y1| q1 (by linarith) (by norm_num at hm1 ⊢; linarith) (by norm_num at hm1 ⊢; linarith)
    have h2 := h1.add (e * |y1| + e * |y2| + 5 / 2 ^ 53) (|y1| + |y2|) q2 le_rfl (by norm_num at hm1 hm2 ⊢; linarith) (by norm_num at hm1 hm2 ⊢; linarith)
    have h3 := h2.add (e * |y1| + e * |y2| + e * |y3| + 8 / 2 ^ 53) (|y1| + |y2| + |y3|) q3 le_rfl (by norm_num at hm1 hm2 hm3 ⊢; linarith)
      (by norm_num at hm1 hm2 hm3 ⊢; linarith)
    rw [fin, hy] at h3
    exact h3.of_eq (by ring)
  exact ⟨step (m ha1 hb1 (by linarith)).1 (m ha2 hb2 (by linarith)).1 (m ha3 hb3 (by linarith)).1,
    step (m ha1 hb1 (by linarith)).2 (m ha2 hb2 (by linarith)).2 (m ha3 hb3 (by linarith)).2⟩

theorem MNear.one_mul {M N : Matrix Flo} {Q : Matrix ℝ} {f : ℝ} (hM : IsOne M) (hN : MNear N Q f)
    (hf : f ≤ 1 / 2 ^ 30) : MNear (M.mul N) Q (f + 8 / 2 ^ 53) := by
  obtain ⟨⟨a1, a2, a3⟩, ⟨b1, b2, b3⟩, c1, c2, c3⟩ := hM
  have col : ∀ {v : Vec Flo} {w : Vec ℝ}, VNear v w f → VNear (M.mulCol v) w (f + 8 / 2 ^ 53) := by
    rintro v w ⟨v1, v2, v3⟩
    exact ⟨(pick_near hf v1 v2 v3 a1 b1 c1 (by norm_num)).1.of_eq (by ring), (pick_near hf v1 v2 v3 a2 b2 c2 (by norm_num)).1.of_eq (by ring),
      (pick_near hf v1 v2 v3 a3 b3 c3 (by norm_num)).1.of_eq (by ring)⟩
  exact ⟨col hN.1, col hN.2.1, col hN.2.2⟩

theorem MNear.mul_one {M N : Matrix Flo} {R : Matrix ℝ} {e : ℝ} (hM : MNear M R e) (hN : IsOne N)
    (he : e ≤ 1 / 2 ^ 30) : MNear (M.mul N) R (e + 8 / 2 ^ 53) := by
  obtain ⟨⟨a1, a2, a3⟩, ⟨b1, b2, b3⟩, c1, c2, c3⟩ := hN
  obtain ⟨⟨p1, p2, p3⟩, ⟨q1, q2, q3⟩, r1, r2, r3⟩ := hM
  refine ⟨⟨?_, ?_, ?_⟩, ⟨?_, ?_, ?_⟩, ?_, ?_, ?_⟩
  · exact (pick_near he p1 q1 r1 a1 a2 a3 (by norm_num)).2.of_eq (by ring)
  · exact (pick_near he p2 q2 r2 a1 a2 a3 (by norm_num)).2.of_eq (by ring)
  · exact (pick_near he p3 q3 r3 a1 a2 a3 (by norm_num)).2.of_eq (by ring)
  · exact (pick_near he p1 q1 r1 b1 b2 b3 (by norm_num)).2.of_eq (by ring)
  · exact (pick_near he p2 q2 r2 b1 b2 b3 (by norm_num)).2.of_eq (by ring)
  · exact (pick_near he p3 q3 r3 b1 b2 b3 (by norm_num)).2.of_eq (by ring)
  · exact (pick_near he p1 q1 r1 c1 c2 c3 (by norm_num)).2.of_eq (by ring)
  · exact (pick_near he p2 q2 r2 c1 c2 c3 (by norm_num)).2.of_eq (by ring)
  · exact (pick_near he p3 q3 r3 c1 c2 c3 (by norm_num)).2.of_eq (by ring)

theorem one_near {M : Matrix Flo} (h : IsOne M) : MNear M Matrix.unit 0 ∧ Orth Matrix.unit := by
  obtain ⟨⟨a1, a2, a3⟩, ⟨b1, b2, b3⟩, c1, c2, c3⟩ := h
  have z : ∀ {a : Flo}, a.Is 0 → a.Near (lit 0 : ℝ) 0 1 := fun h => (h.near (by norm_num)).of_eq (by simp [lit_real])
  have o : ∀ {a : Flo}, a.Is 1 → a.Near (lit 1 : ℝ) 0 1 := fun h => (h.near (by norm_num)).of_eq (by simp [lit_real])
  refine ⟨⟨⟨o a1, z a2, z a3⟩, ⟨z b1, o b2, z b3⟩, z c1, z c2, o c3⟩, ?_⟩
  constructor <;> simp [ip, Matrix.unit, Vec.ex, Vec.ey, Vec.ez, lit_real]

end BR.Turn
