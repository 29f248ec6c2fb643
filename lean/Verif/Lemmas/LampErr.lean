import Verif.Lemmas.UnitErr
import Verif.Lemmas.Scaled
import Verif.Lemmas.TurnErr
import Verif.Lemmas.Room
import Verif.Spec.LitDouble

/-! Rounding errors in the light of a lamp: its distance, its direction and its strength. -/

namespace BR

open Flo

/-- The difference of two vectors is computed with a small relative error. -/
theorem sub_within {a b : Vec Flo} {A B : Vec ℝ} (ha : a.FIs A) (hb : b.FIs B) (hA : Within 1024 A) (hB : Within 1024 B) :
    ∃ w : Vec ℝ, (a.sub b).FIs w ∧ |w.x - (A.x - B.x)| ≤ |A.x - B.x| / 2 ^ 53 + 1 / 2 ^ 200 ∧
      |w.y - (A.y - B.y)| ≤ |A.y - B.y| / 2 ^ 53 + 1 / 2 ^ 200 ∧ |w.z - (A.z - B.z)| ≤ |A.z - B.z| / 2 ^ 53 + 1 / 2 ^ 200 := by
  have key : ∀ {e f : Flo} {x y : ℝ}, e.Is x → f.Is y → |x| ≤ 1024 → |y| ≤ 1024 →
      (e - f).Is (roundBits 53 (x - y)) := by
    intro e f x y he hf hx hy
    refine Flo.sub_is he hf ?_
    rw [abs_le] at *
    norm_num
    constructor <;> linarith
  exact ⟨⟨_, _, _⟩, ⟨key ha.1 hb.1 hA.1 hB.1, key ha.2.1 hb.2.1 hA.2.1 hB.2.1, key ha.2.2 hb.2.2 hA.2.2 hB.2.2⟩,
    round_rel _, round_rel _, round_rel _⟩

/-- The square of a number with a small relative error. -/
private theorem sq_off {w u : ℝ} (h : |w - u| ≤ |u| / 2 ^ 53 + 1 / 2 ^ 200) (hu : |u| ≤ 2048) :
    |w ^ 2 - u ^ 2| ≤ 2.1 / 2 ^ 53 * u ^ 2 + 1 / 2 ^ 180 := by
  have e : w ^ 2 - u ^ 2 = 2 * u * (w - u) + (w - u) ^ 2 := by ring
  have hsq : u ^ 2 = |u| ^ 2 := (sq_abs u).symm
  have h1 : |2 * u * (w - u)| ≤ 2 * |u| * (|u| / 2 ^ 53 + 1 / 2 ^ 200) := by
    rw [abs_mul, abs_mul, abs_two]
    exact mul_le_mul_of_nonneg_left h (by positivity)
  have h2 := pow_le_pow_left₀ (abs_nonneg _) h 2
  rw [sq_abs] at h2
  rw [e, hsq]
  refine (abs_add_le _ _).trans ?_
  rw [abs_of_nonneg (sq_nonneg (w - u))]
  refine (add_le_add h1 h2).trans ?_
  have h0 := abs_nonneg u
  generalize |u| = a at *
  have h3 := mul_nonneg h0 (sub_nonneg.2 hu)
  norm_num at *
  nlinarith

/-- The difference between two points that are neither close nor far, as computed. -/
theorem gap_is {a b : Vec Flo} {A B : Vec ℝ} (ha : a.FIs A) (hb : b.FIs B) (hA : Within 1024 A) (hB : Within 1024 B)
    (hg : 1 / 16 ≤ apart A B) : ∃ w : Vec ℝ, (a.sub b).FIs w ∧
      |w.x - (A.x - B.x)| ≤ apart A B / 2 ^ 52 ∧ |w.y - (A.y - B.y)| ≤ apart A B / 2 ^ 52 ∧ |w.z - (A.z - B.z)| ≤ apart A B / 2 ^ 52 ∧
      |(w.x ^ 2 + w.y ^ 2 + w.z ^ 2) - apart A B ^ 2| ≤ 3 / 2 ^ 53 * apart A B ^ 2 := by
  obtain ⟨w, hw, e1, e2, e3⟩ := sub_within ha hb hA hB
  have hsq : apart A B ^ 2 = (A.x - B.x) ^ 2 + (A.y - B.y) ^ 2 + (A.z - B.z) ^ 2 := Real.sq_sqrt (by positivity)
  have h0 : 0 ≤ apart A B := Real.sqrt_nonneg _
  have far : ∀ {x y : ℝ}, |x| ≤ 1024 → |y| ≤ 1024 → |x - y| ≤ 2048 := by
    intro x y h1 h2
    rw [abs_le] at *
    constructor <;> linarith
  have s1 := sq_off e1 (far hA.1 hB.1)
  have s2 := sq_off e2 (far hA.2.1 hB.2.1)
  have s3 := sq_off e3 (far hA.2.2 hB.2.2)
  have c1 : |A.x - B.x| ≤ apart A B := abs_le_of_sq_le_sq (by nlinarith [sq_nonneg (A.y - B.y), sq_nonneg (A.z - B.z)]) h0
  have c2 : |A.y - B.y| ≤ apart A B := abs_le_of_sq_le_sq (by nlinarith [sq_nonneg (A.x - B.x), sq_nonneg (A.z - B.z)]) h0
  have c3 : |A.z - B.z| ≤ apart A B := abs_le_of_sq_le_sq (by nlinarith [sq_nonneg (A.y - B.y), sq_nonneg (A.x - B.x)]) h0
  have hgg : 1 / 256 ≤ apart A B ^ 2 := by
    have := pow_le_pow_left₀ (by norm_num) hg 2
    exact le_trans (by norm_num) this
  refine ⟨w, hw, e1.trans ?_, e2.trans ?_, e3.trans ?_, ?_⟩
  · norm_num at *; linarith
  · norm_num at *; linarith
  · norm_num at *; linarith
  · rw [hsq] at hgg ⊢
    rw [abs_le] at *
    norm_num at *
    constructor <;> linarith

/-- No two points within 1024 of the origin are farther apart than this. -/
theorem apart_far {A B : Vec ℝ} (hA : Within 1024 A) (hB : Within 1024 B) : apart A B ≤ 3600 := by
  refine Real.sqrt_le_iff.2 ⟨by norm_num, ?_⟩
  have far : ∀ {x y : ℝ}, |x| ≤ 1024 → |y| ≤ 1024 → (x - y) ^ 2 ≤ 2048 ^ 2 := by
    intro x y h1 h2
    rw [abs_le] at *
    exact sq_le_sq' (by linarith) (by linarith)
  have h1 := far hA.1 hB.1
  have h2 := far hA.2.1 hB.2.1
  have h3 := far hA.2.2 hB.2.2
  norm_num at *
  linarith

/-- The computed strength of a lamp of power one. -/
theorem strength_is {p pos : Vec Flo} {P L : Vec ℝ} (hp : p.FIs P) (hL : pos.FIs L) (wp : Within 1024 P) (wL : Within 1024 L)
    (hg : 1 / 16 ≤ apart P L) : ∃ v, (Light.pointIntensity p pos).Is v ∧
      |v - 1 / (4 * Real.pi * apart P L ^ 2)| ≤ 1 / 2 ^ 46 * (1 / (4 * Real.pi * apart P L ^ 2)) := by
  obtain ⟨w, hw, -, -, -, eQ⟩ := gap_is hp hL wp wL hg
  have hup := apart_far wp wL
  have hg2 : 1 / 256 ≤ apart P L ^ 2 := by
    have := pow_le_pow_left₀ (by norm_num) hg 2
    exact le_trans (by norm_num) this
  have hg3 : apart P L ^ 2 ≤ 3600 ^ 2 := pow_le_pow_left₀ (by linarith) hup 2
  generalize apart P L ^ 2 = G at *
  have hG0 : 0 < G := by linarith
  have eQ' := abs_le.1 eQ
  obtain ⟨σ, hσ, eσ⟩ := len2_is hw rfl (by norm_num at *; linarith) (by norm_num at *; linarith)
  have hrel : (Vec.len2 (p.sub pos)).Rel G (9 / 2 ^ 53) 1 G := by
    refine ⟨⟨σ, hσ, ?_⟩, by rw [abs_of_pos hG0, one_mul]⟩
    rw [abs_le] at *
    norm_num at *
    constructor <;> linarith
  have four : (lit 4 : Flo).Near 4 0 4 := by
    have := flo_int_is 4 (by norm_num)
    exact Is.near (by simpa using this) (by norm_num)
  have one : (lit 1 : Flo).Near 1 0 1 := by
    have := flo_int_is 1 (by norm_num)
    exact Is.near (by simpa using this) (by norm_num)
  have fp := four.mul (30 / 2 ^ 53) 12.6 Turn.pi_near
  have hpi := Real.pi_gt_three
  have hpi' := Real.pi_lt_d2
  have k := one.div 12 (1 / 2 ^ 52) (1 / 12) fp (by rw [abs_of_pos (by positivity)]; linarith)
  have k' : (lit 1 / (lit 4 * GoFloat.pi) : Flo).Rel (1 / (4 * Real.pi)) (1 / 2 ^ 52) (1 / 12) 1 := by
    obtain ⟨⟨v, h1, h2⟩, h3⟩ := k
    exact ⟨⟨v, h1, by simpa using h2⟩, by simpa using h3⟩
  obtain ⟨⟨v, hv, ev⟩, -⟩ := Rel.div 1 (1 / 2 ^ 50) (1 / 12) one_pos hG0 ⟨by
      rw [le_div_iff₀ hG0]; norm_num at *; linarith, by
      rw [div_le_iff₀ hG0]; norm_num at *; linarith⟩ k' hrel (by rw [abs_of_pos hG0, one_mul])
  refine ⟨v, hv, ?_⟩
  have e : 1 / (4 * Real.pi * G) = 1 / (4 * Real.pi) / G := by rw [div_div]
  rw [e]
  refine ev.trans ?_
  have h4 : (1 : ℝ) / 13 ≤ 1 / (4 * Real.pi) := by
    refine one_div_le_one_div_of_le (by positivity) ?_
    norm_num at *
    linarith
  have h5 : 1 / 2 ^ 50 * (1 / G) ≤ 1 / 2 ^ 46 * ((1 / 13) / G) := by
    rw [← mul_div_assoc, ← mul_div_assoc]
    refine div_le_div_of_nonneg_right ?_ hG0.le
    norm_num
  refine h5.trans ?_
  gcongr

theorem apart_swap (p q : Vec ℝ) : apart p q = apart q p := by unfold apart; congr 1; ring

theorem apart_nonneg' (p q : Vec ℝ) : 0 ≤ apart p q := Real.sqrt_nonneg _

/-- A coordinate of the difference is at most the distance. -/
theorem apart_comp (p q : Vec ℝ) : |p.x - q.x| ≤ apart p q ∧ |p.y - q.y| ≤ apart p q ∧ |p.z - q.z| ≤ apart p q := by
  have hsq : apart p q ^ 2 = (p.x - q.x) ^ 2 + (p.y - q.y) ^ 2 + (p.z - q.z) ^ 2 := Real.sq_sqrt (by positivity)
  have h0 := apart_nonneg' p q
  refine ⟨abs_le_of_sq_le_sq ?_ h0, abs_le_of_sq_le_sq ?_ h0, abs_le_of_sq_le_sq ?_ h0⟩ <;> rw [hsq]
  · nlinarith [sq_nonneg (p.y - q.y), sq_nonneg (p.z - q.z)]
  · nlinarith [sq_nonneg (p.x - q.x), sq_nonneg (p.z - q.z)]
  · nlinarith [sq_nonneg (p.x - q.x), sq_nonneg (p.y - q.y)]

/-- The computed direction and distance of a lamp. -/
theorem towards_is {p pos : Vec Flo} {P L : Vec ℝ} (hp : p.FIs P) (hL : pos.FIs L) (wp : Within 1024 P) (wL : Within 1024 L)
    (hg : 1 / 16 ≤ apart L P) : ∃ (l : Vec ℝ) (g : ℝ), (pos.sub p).normalized.FIs l ∧ (pos.sub p).len.Is g ∧
      |l.x - (L.x - P.x) / apart L P| ≤ 1 / 2 ^ 46 ∧ |l.y - (L.y - P.y) / apart L P| ≤ 1 / 2 ^ 46 ∧
      |l.z - (L.z - P.z) / apart L P| ≤ 1 / 2 ^ 46 ∧ |g - apart L P| ≤ 1 / 2 ^ 49 * apart L P := by
  obtain ⟨w, hw, e1, e2, e3, eQ⟩ := gap_is hL hp wL wp hg
  obtain ⟨c1, c2, c3⟩ := apart_comp L P
  have hup := apart_far wL wp
  generalize apart L P = g0 at *
  have g0p : 0 < g0 := by linarith
  have hg2 : 1 / 256 ≤ g0 ^ 2 := by
    have := pow_le_pow_left₀ (by norm_num) hg 2
    exact le_trans (by norm_num) this
  have hg3 : g0 ^ 2 ≤ 3600 ^ 2 := pow_le_pow_left₀ (by linarith) hup 2
  have eQ' := abs_le.1 eQ
  -- the length of the computed difference
  obtain ⟨h, hh⟩ : ∃ h, h = Real.sqrt (w.x ^ 2 + w.y ^ 2 + w.z ^ 2) := ⟨_, rfl⟩
  have h0 : 0 ≤ h := hh ▸ Real.sqrt_nonneg _
  have hsq : h ^ 2 = w.x ^ 2 + w.y ^ 2 + w.z ^ 2 := by rw [hh]; exact Real.sq_sqrt (by positivity)
  rw [← hsq] at eQ eQ'
  have rel : ∀ {x e : ℝ}, 0 ≤ x → 0 ≤ e → e ≤ 1 → |x ^ 2 - g0 ^ 2| ≤ e * g0 ^ 2 → |x - g0| ≤ e * g0 := by
    intro x e hx he he' h
    have h1 : |x - g0| * (x + g0) ≤ e * g0 ^ 2 := by
      rw [← abs_of_nonneg (by positivity : 0 ≤ x + g0), ← abs_mul]
      rwa [show (x - g0) * (x + g0) = x ^ 2 - g0 ^ 2 by ring]
    have h2 : |x - g0| * g0 ≤ e * g0 * g0 := by
      have := mul_le_mul_of_nonneg_left (show g0 ≤ x + g0 by linarith) (abs_nonneg (x - g0))
      nlinarith
    exact le_of_mul_le_mul_right h2 g0p
  have hhg := rel h0 (by positivity) (by norm_num) eQ
  have hhg' := abs_le.1 hhg
  have hlo : 1 / 2 ^ 12 ≤ h := by norm_num at *; linarith
  obtain ⟨l, κ, hl, hκ, eκ, k1, k2, k3⟩ := normalized_is hw hlo (by norm_num at *; linarith) hsq
  obtain ⟨σ, hσ, eσ⟩ := len2_is hw hsq (by norm_num at *; nlinarith) (by norm_num at *; nlinarith)
  have hσg : |σ - g0 ^ 2| ≤ 9 / 2 ^ 53 * g0 ^ 2 := by
    rw [abs_le] at *
    norm_num at *
    constructor <;> linarith
  have hσ' := abs_le.1 hσg
  have σ0 : 0 ≤ σ := by norm_num at *; linarith
  have hs : |Real.sqrt σ - g0| ≤ 9 / 2 ^ 53 * g0 := rel (Real.sqrt_nonneg _) (by positivity) (by norm_num) (by rwa [Real.sq_sqrt σ0])
  have hlen := Flo.sqrt_is hσ σ0 (by norm_num at *; linarith)
  have hr := round_rel (Real.sqrt σ)
  have hκg : |κ * g0 - 1| ≤ 1 / 2 ^ 47 := by
    have e : κ * g0 - 1 = (κ * h - 1) - κ * (h - g0) := by ring
    have κb : κ * g0 ≤ 2 := by
      have := (abs_le.1 eκ).2
      have : κ * g0 ≤ κ * (h * (1 + 1 / 2 ^ 20)) := mul_le_mul_of_nonneg_left (by norm_num at *; linarith) hκ.le
      norm_num at *
      linarith
    have h2 : |κ * (h - g0)| ≤ 3 / 2 ^ 53 * 2 := by
      rw [abs_mul, abs_of_pos hκ]
      have := mul_le_mul_of_nonneg_left hhg hκ.le
      norm_num at *
      linarith
    rw [e]
    rw [abs_le] at *
    norm_num at *
    constructor <;> linarith
  have dir : ∀ {n w u : ℝ}, |n - κ * w| ≤ 1 / 2 ^ 50 → |w - u| ≤ g0 / 2 ^ 52 → |u| ≤ g0 → |n - u / g0| ≤ 1 / 2 ^ 46 := by
    intro n w u h1 h2 h3
    have hu : |u / g0| ≤ 1 := by rw [abs_div, abs_of_pos g0p, div_le_one g0p]; exact h3
    have e : n - u / g0 = (n - κ * w) + κ * (w - u) + (u / g0) * (κ * g0 - 1) := by field_simp; ring
    have h4 : |κ * (w - u)| ≤ 2 / 2 ^ 52 := by
      rw [abs_mul, abs_of_pos hκ]
      have := mul_le_mul_of_nonneg_left h2 hκ.le
      have := (abs_le.1 hκg).2
      norm_num at *
      linarith
    have h5 : |(u / g0) * (κ * g0 - 1)| ≤ 1 / 2 ^ 47 := by
      rw [abs_mul]
      exact (mul_le_mul hu hκg (abs_nonneg _) zero_le_one).trans (by norm_num)
    rw [e]
    refine (abs_add_three _ _ _).trans ?_
    norm_num at *
    linarith
  refine ⟨l, _, hl, hlen, dir k1 e1 c1, dir k2 e2 c2, dir k3 e3 c3, ?_⟩
  rw [abs_of_nonneg (Real.sqrt_nonneg σ)] at hr
  rw [abs_le] at *
  norm_num at *
  constructor <;> linarith

/-- The cosine of the angle to a lamp hardly depends on small changes of the point and of the normal. -/
theorem cosine_off {P Q L N n : Vec ℝ} (hPQ : apart P Q ≤ 1 / 2 ^ 19) (hg : 1 / 8 ≤ apart L Q) (hN : N.x ^ 2 + N.y ^ 2 + N.z ^ 2 = 1)
    (h1 : |n.x - N.x| ≤ 1 / 2 ^ 16) (h2 : |n.y - N.y| ≤ 1 / 2 ^ 16) (h3 : |n.z - N.z| ≤ 1 / 2 ^ 16) :
    |((L.x - P.x) / apart L P * n.x + (L.y - P.y) / apart L P * n.y + (L.z - P.z) / apart L P * n.z) -
      ((L.x - Q.x) * N.x + (L.y - Q.y) * N.y + (L.z - Q.z) * N.z) / apart L Q| ≤ 5 / 2 ^ 16 := by
  have htri := Bounce.apart_tri P Q L
  rw [apart_swap P L, apart_swap Q L] at htri
  have htri' := abs_le.1 htri
  obtain ⟨c1, c2, c3⟩ := apart_comp L P
  have hL : apart L P ^ 2 = (L.x - P.x) ^ 2 + (L.y - P.y) ^ 2 + (L.z - P.z) ^ 2 := Real.sq_sqrt (by positivity)
  have hPQ2 : apart P Q ^ 2 = (P.x - Q.x) ^ 2 + (P.y - Q.y) ^ 2 + (P.z - Q.z) ^ 2 := Real.sq_sqrt (by positivity)
  have hPQ0 := apart_nonneg' P Q
  have gp : 0 < apart L P := by norm_num at *; linarith
  have g0p : 0 < apart L Q := by linarith
  generalize apart L P = g at *
  generalize apart L Q = g0 at *
  generalize apart P Q = δ at *
  have cauchy : ∀ {a : Vec ℝ} {b : ℝ}, 0 ≤ b → a.x ^ 2 + a.y ^ 2 + a.z ^ 2 = b ^ 2 → |a.x * N.x + a.y * N.y + a.z * N.z| ≤ b := by
    intro a b hb h
    refine abs_le_of_sq_le_sq ?_ hb
    have := Ball.dot_sq_le a N
    nlinarith
  have t1 := cauchy (a := ⟨P.x - Q.x, P.y - Q.y, P.z - Q.z⟩) hPQ0 hPQ2.symm
  have t2 := cauchy (a := ⟨L.x - P.x, L.y - P.y, L.z - P.z⟩) gp.le hL.symm
  simp only at t1 t2
  have cut : ∀ {u : ℝ}, |u| ≤ g → |u / g| ≤ 1 := by
    intro u h; rw [abs_div, abs_of_pos gp, div_le_one gp]; exact h
  have e : ((L.x - P.x) / g * n.x + (L.y - P.y) / g * n.y + (L.z - P.z) / g * n.z) -
      ((L.x - Q.x) * N.x + (L.y - Q.y) * N.y + (L.z - Q.z) * N.z) / g0 =
      ((L.x - P.x) / g * (n.x - N.x) + (L.y - P.y) / g * (n.y - N.y) + (L.z - P.z) / g * (n.z - N.z)) +
      (-(((P.x - Q.x) * N.x + (P.y - Q.y) * N.y + (P.z - Q.z) * N.z) / g0)) +
      ((L.x - P.x) * N.x + (L.y - P.y) * N.y + (L.z - P.z) * N.z) / g * ((g0 - g) / g0) := by
    field_simp
    ring
  have hδ : δ / g0 ≤ 1 / 2 ^ 16 := by rw [div_le_iff₀ g0p]; norm_num at *; linarith
  have p1 : |(L.x - P.x) / g * (n.x - N.x) + (L.y - P.y) / g * (n.y - N.y) + (L.z - P.z) / g * (n.z - N.z)| ≤ 3 / 2 ^ 16 := by
    refine (abs_add_three _ _ _).trans ?_
    rw [abs_mul, abs_mul, abs_mul]
    have a1 := mul_le_mul (cut c1) h1 (abs_nonneg _) zero_le_one
    have a2 := mul_le_mul (cut c2) h2 (abs_nonneg _) zero_le_one
    have a3 := mul_le_mul (cut c3) h3 (abs_nonneg _) zero_le_one
    norm_num at *
    linarith
  have p2 : |(-(((P.x - Q.x) * N.x + (P.y - Q.y) * N.y + (P.z - Q.z) * N.z) / g0))| ≤ 1 / 2 ^ 16 := by
    rw [abs_neg, abs_div, abs_of_pos g0p]
    exact (div_le_div_of_nonneg_right t1 g0p.le).trans hδ
  have p3 : |((L.x - P.x) * N.x + (L.y - P.y) * N.y + (L.z - P.z) * N.z) / g * ((g0 - g) / g0)| ≤ 1 / 2 ^ 16 := by
    rw [abs_mul]
    have b1 : |(g0 - g) / g0| ≤ 1 / 2 ^ 16 := by
      rw [abs_div, abs_of_pos g0p, abs_sub_comm g0 g]
      exact (div_le_div_of_nonneg_right htri g0p.le).trans hδ
    exact (mul_le_mul (cut t2) b1 (abs_nonneg _) zero_le_one).trans (by norm_num)
  rw [e]
  refine (abs_add_three _ _ _).trans ?_
  norm_num at *
  linarith

/-- The strength of a lamp hardly depends on small changes of the point. -/
theorem strength_off {P Q L : Vec ℝ} (hPQ : apart P Q ≤ 1 / 2 ^ 19) (hg : 1 / 8 ≤ apart L Q) :
    |1 / (4 * Real.pi * apart P L ^ 2) - 1 / (4 * Real.pi * apart L Q ^ 2)| ≤ 1 / 2 ^ 14 * (1 / (4 * Real.pi * apart L Q ^ 2)) := by
  have htri := Bounce.apart_tri P Q L
  rw [apart_swap P L, apart_swap Q L] at htri
  have htri' := abs_le.1 htri
  rw [apart_swap P L]
  generalize apart L P = g at *
  generalize apart L Q = g0 at *
  generalize apart P Q = δ at *
  have g0p : 0 < g0 := by linarith
  have gp : 0 < g := by norm_num at *; linarith
  have hpi := Real.pi_pos
  have e : 1 / (4 * Real.pi * g ^ 2) - 1 / (4 * Real.pi * g0 ^ 2) = ((g0 ^ 2 - g ^ 2) / g ^ 2) * (1 / (4 * Real.pi * g0 ^ 2)) := by
    field_simp
  rw [e, abs_mul, abs_of_pos (by positivity : 0 < 1 / (4 * Real.pi * g0 ^ 2))]
  refine mul_le_mul_of_nonneg_right ?_ (by positivity)
  rw [abs_div, abs_of_pos (by positivity : 0 < g ^ 2), div_le_iff₀ (by positivity)]
  rw [show g0 ^ 2 - g ^ 2 = (g0 - g) * (g0 + g) by ring, abs_mul, abs_of_pos (by positivity : 0 < g0 + g), abs_sub_comm g0 g]
  have h1 : g0 + g ≤ 2.01 * g := by norm_num at *; linarith
  have h2 : |g - g0| ≤ 1 / 2 ^ 14 / 2.01 * g := by
    norm_num at *
    linarith
  have := mul_le_mul h2 h1 (by positivity) (by positivity)
  norm_num at *
  nlinarith

end BR
