import Verif.Props.C25_Quadric
import Verif.Lemmas.ExtFace
import Verif.Lemmas.Transform
import Verif.Lemmas.ExtNormals

/-! Quadrics in extended numbers: for finite data the hit is the one of exact arithmetic. -/

namespace BR

variable {M : Type}

/-- The quadric has the finite data of a real one. -/
def Quadric.Is (s : Quadric Ext M) (S : Quadric ℝ M) : Prop :=
  s.origin.Is S.origin ∧ s.a.Is S.a ∧ s.b.Is S.b ∧ s.bounds.Is S.bounds ∧ s.mat = S.mat

theorem BBox.Is.inside {b : BBox Ext} {B : BBox ℝ} (h : b.Is B) {p : Vec Ext} {P : Vec ℝ} (hp : p.Is P) :
    b.inside p = B.inside P := by
  unfold BBox.inside
  simp only [h.1.1.lt hp.1, h.1.2.1.lt hp.2.1, h.1.2.2.lt hp.2.2, hp.1.lt h.2.1, hp.2.1.lt h.2.2.1, hp.2.2.lt h.2.2.2,
    lt_real]

theorem quadric_accept {s : Quadric Ext M} {S : Quadric ℝ M} (hs : s.Is S) {r : Ray Ext} {R : Ray ℝ} (hr : r.Is R)
    {t : Ext} {T : ℝ} (ht : t.Is T) : s.accept r t = S.accept R T := by
  unfold Quadric.accept
  rw [hs.2.2.2.1.inside (hr.at ht), (Ext.Is.lit 0).lt ht]
  simp

/-- The hit in extended numbers follows the hit in real numbers. -/
theorem quadric_follows {s : Quadric Ext M} {S : Quadric ℝ M} (hs : s.Is S) {r : Ray Ext} {R : Ray ℝ} (hr : r.Is R)
    (hA : S.lead R.dir ≠ 0) :
    (s.hit r = HitRecord.miss ∧ S.hit R = HitRecord.miss) ∨
    ∃ t T, t.Is T ∧ s.hit r = s.record r t ∧ S.hit R = S.record R T := by
  obtain ⟨ho, ha, hb, hbox, -⟩ := id hs
  have s0 := hr.1.1.sub ho.1
  have s1 := hr.1.2.1.sub ho.2.1
  have s2 := hr.1.2.2.sub ho.2.2
  have hcA : (s.coeffs r).1.Is (S.coeffs R).1 :=
    (((ha.1.mul hr.2.1).mul hr.2.1).add ((ha.2.1.mul hr.2.2.1).mul hr.2.2.1)).add ((ha.2.2.mul hr.2.2.2).mul hr.2.2.2)
  have hcB : (s.coeffs r).2.1.Is (S.coeffs R).2.1 :=
    (Ext.Is.lit 2).mul ((((ha.1.mul hr.2.1).mul s0).add ((ha.2.1.mul hr.2.2.1).mul s1)).add ((ha.2.2.mul hr.2.2.2).mul s2))
  have hcC : (s.coeffs r).2.2.Is (S.coeffs R).2.2 :=
    ((((ha.1.mul s0).mul s0).add ((ha.2.1.mul s1).mul s1)).add ((ha.2.2.mul s2).mul s2)).sub hb
  have hA0 : (S.coeffs R).1 ≠ 0 := by
    have : (S.coeffs R).1 = S.lead R.dir := by simp only [Quadric.coeffs, Quadric.lead]; ring
    rwa [this]
  unfold Quadric.hit
  generalize s.coeffs r = cs at hcA hcB hcC ⊢
  generalize S.coeffs R = CS at hcA hcB hcC hA0 ⊢
  obtain ⟨a, b, c⟩ := cs
  obtain ⟨A, B, C⟩ := CS
  dsimp only at hcA hcB hcC hA0 ⊢
  have hD : (b * b - lit 4 * a * c : Ext).Is (B * B - lit 4 * A * C) :=
    (hcB.mul hcB).sub (((Ext.Is.lit 4).mul hcA).mul hcC)
  rw [hD.lt (Ext.Is.lit 0)]
  simp only [lt_real, decide_eq_true_eq, lit_real] at hD ⊢
  by_cases hneg : B * B - ((4 : ℚ) : ℝ) * A * C < ((0 : ℚ) : ℝ)
  · rw [if_pos hneg, if_pos hneg]; exact .inl ⟨rfl, rfl⟩
  rw [if_neg hneg, if_neg hneg]
  have hV := hD.sqrt (by simpa using not_lt.1 hneg)
  simp only [sqrt_real]
  have h2A : (((2 : ℚ) : ℝ) * A) ≠ 0 := mul_ne_zero (by norm_num) hA0
  have ht1 := (hcB.neg.sub hV).div ((Ext.Is.lit 2).mul hcA) h2A
  have ht2 := (hcB.neg.add hV).div ((Ext.Is.lit 2).mul hcA) h2A
  have main : ∀ {u v : Ext} {U W : ℝ}, u.Is U → v.Is W →
      ((if s.accept r u = true then s.record r u else if s.accept r v = true then s.record r v else HitRecord.miss) =
        HitRecord.miss ∧ (if S.accept R U = true then S.record R U else if S.accept R W = true then S.record R W
          else HitRecord.miss) = HitRecord.miss) ∨
      ∃ t T, t.Is T ∧ (if s.accept r u = true then s.record r u else if s.accept r v = true then s.record r v
          else HitRecord.miss) = s.record r t ∧
        (if S.accept R U = true then S.record R U else if S.accept R W = true then S.record R W
          else HitRecord.miss) = S.record R T := by
    intro u v U W hu hv
    rw [quadric_accept hs hr hu, quadric_accept hs hr hv]
    by_cases h1 : S.accept R U = true
    · rw [if_pos h1, if_pos h1]; exact .inr ⟨u, U, hu, rfl, rfl⟩
    rw [if_neg h1, if_neg h1]
    by_cases h2 : S.accept R W = true
    · rw [if_pos h2, if_pos h2]; exact .inr ⟨v, W, hv, rfl, rfl⟩
    rw [if_neg h2, if_neg h2]; exact .inl ⟨rfl, rfl⟩
  rw [ht2.lt ht1]
  simp only [decide_eq_true_eq]
  generalize (-b - GoFloat.sqrt (b * b - lit 4 * a * c)) / (lit 2 * a) = t1 at ht1 ⊢
  generalize (-b + GoFloat.sqrt (b * b - lit 4 * a * c)) / (lit 2 * a) = t2 at ht2 ⊢
  generalize (-B - √(B * B - ((4 : ℚ) : ℝ) * A * C)) / (((2 : ℚ) : ℝ) * A) = T1 at ht1 ⊢
  generalize (-B + √(B * B - ((4 : ℚ) : ℝ) * A * C)) / (((2 : ℚ) : ℝ) * A) = T2 at ht2 ⊢
  by_cases hlt : T2 < T1
  · simp only [if_pos hlt]; exact main ht2 ht1
  · simp only [if_neg hlt]; exact main ht1 ht2

end BR
