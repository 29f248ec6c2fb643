import Verif.Lemmas.Mirror

/-! Into a ball and out of it, in double precision. -/

namespace BR
set_option linter.unusedSectionVars false

open Flo

variable {r : Ray Flo} {v d : Vec ℝ} {mt : Option (Mat Flo)}

/-- A short step from a point of a ball. -/
theorem ball_step {Q c v' : Vec ℝ} {R τ : ℝ} (hQ : apart Q c = R) (hR : R ≤ 64) (τ0 : 0 ≤ τ) (τ1 : τ ≤ 1 / 2 ^ 19)
    (hd : d.x ^ 2 + d.y ^ 2 + d.z ^ 2 ≤ 2) (e : Within (1 / 2 ^ 36) (v'.sub (along Q d τ))) :
    |apart v' c ^ 2 - (R ^ 2 + 2 * τ * ((Q.x - c.x) * d.x + (Q.y - c.y) * d.y + (Q.z - c.z) * d.z) + τ ^ 2 * (d.x ^ 2 + d.y ^ 2 + d.z ^ 2))| ≤
      6 / 10 ^ 9 := by
  obtain ⟨d1, d2, d3⟩ := comp_le hd
  obtain ⟨c1, c2, c3⟩ := apart_comp Q c
  rw [hQ] at c1 c2 c3
  have hs := apart_sq Q c
  rw [hQ] at hs
  rw [apart_sq]
  have key : ∀ {q u w : ℝ}, |q| ≤ R → |u| ≤ 3 / 2 → |w - (q + τ * u)| ≤ 1 / 2 ^ 36 → |w ^ 2 - (q + τ * u) ^ 2| ≤ 2 / 10 ^ 9 := by
    intro q u w hq hu hw
    have h1 : |τ * u| ≤ 1 / 2 ^ 19 * (3 / 2) := by
      rw [abs_mul, abs_of_nonneg τ0]
      exact mul_le_mul τ1 hu (abs_nonneg _) (by norm_num)
    have h2 : |w + (q + τ * u)| ≤ 129 := by
      rw [abs_le] at *
      norm_num at *
      constructor <;> linarith
    rw [show w ^ 2 - (q + τ * u) ^ 2 = (w + (q + τ * u)) * (w - (q + τ * u)) by ring, abs_mul]
    exact (mul_le_mul h2 hw (abs_nonneg _) (by norm_num)).trans (by norm_num)
  have k1 := key c1 d1 (w := v'.x - c.x) (by have := e.1; simp only [Vec.sub, along] at this; rwa [show v'.x - c.x - (Q.x - c.x + τ * d.x) = v'.x - (Q.x + τ * d.x) by ring])
  have k2 := key c2 d2 (w := v'.y - c.y) (by have := e.2.1; simp only [Vec.sub, along] at this; rwa [show v'.y - c.y - (Q.y - c.y + τ * d.y) = v'.y - (Q.y + τ * d.y) by ring])
  have k3 := key c3 d3 (w := v'.z - c.z) (by have := e.2.2; simp only [Vec.sub, along] at this; rwa [show v'.z - c.z - (Q.z - c.z + τ * d.z) = v'.z - (Q.z + τ * d.z) by ring])
  rw [hs]
  rw [abs_le] at *
  constructor <;> linarith

/-- Where a ball is clearly entered, the line is steep enough. -/
theorem ball_entered (hd : 1 / 2 ≤ d.x ^ 2 + d.y ^ 2 + d.z ^ 2) {c N : Vec ℝ} {R X : ℝ} (R0 : 0 ≤ R) (hm : (Obstacle.ball c R).MetAt v d X N) :
    ((along v d X).x - c.x) * d.x + ((along v d X).y - c.y) * d.y + ((along v d X).z - c.z) * d.z ≤ -0.044 := by
  obtain ⟨-, hstart, ⟨T, -, hin⟩, X0, hX, hfirst, -⟩ := hm
  have f : ∀ T, apart (along v d T) c ^ 2 - R ^ 2 = (d.x ^ 2 + d.y ^ 2 + d.z ^ 2) * T ^ 2 +
      2 * ((v.x - c.x) * d.x + (v.y - c.y) * d.y + (v.z - c.z) * d.z) * T + (apart v c ^ 2 - R ^ 2) := by
    intro T
    rw [apart_sq, apart_sq]
    simp only [along]
    ring
  have fX := f X
  have fT := f T
  rw [hX, sub_self] at fX
  have eg : ((along v d X).x - c.x) * d.x + ((along v d X).y - c.y) * d.y + ((along v d X).z - c.z) * d.z =
      ((v.x - c.x) * d.x + (v.y - c.y) * d.y + (v.z - c.z) * d.z) + X * (d.x ^ 2 + d.y ^ 2 + d.z ^ 2) := by simp only [along]; ring
  rw [eg]
  generalize (v.x - c.x) * d.x + (v.y - c.y) * d.y + (v.z - c.z) * d.z = β at *
  generalize d.x ^ 2 + d.y ^ 2 + d.z ^ 2 = A at *
  have hA : 0 < A := by linarith
  have hsq : (β + X * A) ^ 2 ≥ 1 / 512 := by
    have h1 : (β + X * A) ^ 2 = (β + T * A) ^ 2 - A * (apart (along v d T) c ^ 2 - R ^ 2) := by
      rw [fT]
      linear_combination A * fX.symm
    rw [h1]
    have h2 : 1 / 2 * (1 / 2 ^ 8) ≤ A * -(apart (along v d T) c ^ 2 - R ^ 2) := mul_le_mul hd (by linarith) (by norm_num) hA.le
    have h3 := sq_nonneg (β + T * A)
    norm_num at h2 ⊢
    linarith
  have hneg : β + X * A ≤ 0 := by
    by_contra hp
    rw [not_le] at hp
    have hX1 : A * (X * (X - 2 * (β + X * A) / A)) = apart v c ^ 2 - R ^ 2 := by
      field_simp
      linear_combination fX
    have hpos : 0 < A * (X * (X - 2 * (β + X * A) / A)) := by
      rw [hX1]
      norm_num at hstart
      linarith
    have h1 : 0 < X - 2 * (β + X * A) / A := by
      have := pos_of_mul_pos_right hpos hA.le
      exact pos_of_mul_pos_right this X0.le
    refine hfirst _ h1 (sub_lt_self _ (by positivity)) ?_
    have h2 := f (X - 2 * (β + X * A) / A)
    have h3 : apart (along v d (X - 2 * (β + X * A) / A)) c ^ 2 = R ^ 2 := by
      rw [← sub_eq_zero, h2]
      field_simp
      linear_combination A * fX.symm
    exact (sq_eq_sq₀ (Real.sqrt_nonneg _) R0).1 h3
  nlinarith

/-- The two roots, from inside of a ball. -/
theorem far_roots {A B C X w δ T1 T2 : ℝ} (hA1 : 1 / 2 ≤ A) (hB : |B| ≤ 640) (hC : C ≤ -(1 / 2 ^ 25)) (e2 : A * X * X + B * X + C = 0)
    (s1 : 1 / 16 ≤ 2 * A * X + B) (hδ : |δ - (B * B - 4 * A * C)| ≤ 1 / 2 ^ 28) (w0 : 0 ≤ w) (w1 : w ≤ 182) (hw : |w * w - δ| ≤ 1 / 2 ^ 36)
    (f1 : |2 * A * T1 + B - -w| ≤ 1 / 2 ^ 37) (f2 : |2 * A * T2 + B - w| ≤ 1 / 2 ^ 37) :
    T1 < 0 ∧ 0 < T2 ∧ |T2 - X| ≤ 1 / 2 ^ 23 ∧ |X| ≤ 841 := by
  obtain ⟨s, hsd⟩ : ∃ s, s = 2 * A * X + B := ⟨_, rfl⟩
  have s2 : s * s = B * B - 4 * A * C := by rw [hsd]; linear_combination 4 * A * e2
  have hAC : 1 / 2 * (1 / 2 ^ 25) ≤ A * -C := mul_le_mul hA1 (by linarith) (by norm_num) (by linarith)
  have wB : 1 / 2 ^ 25 ≤ w * w - B * B := by
    rw [abs_le] at hδ hw
    norm_num at hδ hw hAC ⊢
    linarith
  rw [← s2] at hδ
  rw [← hsd] at s1
  clear e2 s2
  have hB' := abs_le.1 hB
  have f1' := abs_le.1 f1
  have f2' := abs_le.1 f2
  have p1 : 1 / 2 ^ 35 ≤ w + B := by
    by_contra hn
    rw [not_le] at hn
    have h1 : (w - B) * (w + B) ≤ 822 * (1 / 2 ^ 35) := by
      rcases le_total 0 (w + B) with h0 | h0
      · rcases le_total 0 (w - B) with h2 | h2
        · exact mul_le_mul (by linarith) hn.le h0 (by norm_num)
        · exact (mul_nonpos_of_nonpos_of_nonneg h2 h0).trans (by norm_num)
      · exact (mul_nonpos_of_nonneg_of_nonpos (by linarith) h0).trans (by norm_num)
    rw [show (w - B) * (w + B) = w * w - B * B by ring] at h1
    have := wB.trans h1
    norm_num at this
  have p2 : 1 / 2 ^ 35 ≤ w - B := by
    by_contra hn
    rw [not_le] at hn
    have h1 : (w + B) * (w - B) ≤ 822 * (1 / 2 ^ 35) := by
      rcases le_total 0 (w - B) with h0 | h0
      · exact mul_le_mul (by linarith) hn.le h0 (by norm_num)
      · exact (mul_nonpos_of_nonneg_of_nonpos (by linarith) h0).trans (by norm_num)
    rw [show (w + B) * (w - B) = w * w - B * B by ring] at h1
    have := wB.trans h1
    norm_num at this
  have n1 : T1 < 0 := by
    by_contra hn
    rw [not_lt] at hn
    have : 0 ≤ 2 * A * T1 := by positivity
    norm_num at f1' p1
    linarith
  have n2 : 0 < T2 := by
    by_contra hn
    rw [not_lt] at hn
    have : 2 * A * T2 ≤ 0 := mul_nonpos_of_nonneg_of_nonpos (by linarith) hn
    norm_num at f2' p2
    linarith
  have hws : |w - s| ≤ 1 / 2 ^ 24 + 1 / 2 ^ 32 := by
    have h1 : |w - s| * (w + s) ≤ 1 / 2 ^ 28 + 1 / 2 ^ 36 := by
      rw [← abs_of_nonneg (by linarith : 0 ≤ w + s), ← abs_mul, show (w - s) * (w + s) = (w * w - δ) + (δ - s * s) by ring]
      exact (abs_add_le _ _).trans (by linarith)
    have h2 := mul_le_mul_of_nonneg_left (show 1 / 16 ≤ w + s by linarith) (abs_nonneg (w - s))
    norm_num at h1 h2 ⊢
    linarith
  have hTX : |T2 - X| ≤ 1 / 2 ^ 23 := by
    have h1 : |2 * A * (T2 - X)| ≤ 1 / 2 ^ 23 := by
      rw [show 2 * A * (T2 - X) = (2 * A * T2 + B - w) + (w - s) by rw [hsd]; ring]
      exact (abs_add_le _ _).trans ((add_le_add f2 hws).trans (by norm_num))
    rw [abs_mul, abs_of_nonneg (by linarith : 0 ≤ 2 * A)] at h1
    exact (le_mul_of_one_le_left (abs_nonneg _) (by linarith)).trans h1
  refine ⟨n1, n2, hTX, ?_⟩
  have h0 : T2 ≤ 823 := by
    by_contra hn
    rw [not_le] at hn
    have : 823 * 1 ≤ T2 * (2 * A) := mul_le_mul hn.le (by linarith) (by norm_num) n2.le
    norm_num at f2'
    linarith
  have := abs_le.1 hTX
  rw [abs_le]
  norm_num at this
  constructor <;> linarith

/-- From inside of a ball, its far side is found. -/
theorem ball_far {diam : Flo} {center : Vec Flo} {c : Vec ℝ} {R X : ℝ} (h : Looking r diam center v d c R) (hin : apart v c ^ 2 ≤ R ^ 2 - 1 / 2 ^ 25)
    (hX : apart (along v d X) c = R)
    (hg : 1 / 32 ≤ ((along v d X).x - c.x) * d.x + ((along v d X).y - c.y) * d.y + ((along v d X).z - c.z) * d.z) :
    ∃ hit T, (Obj.sphere mt diam center).intersect r = .ok (hit, r) ∧ hit.mat = mt ∧ hit.t.Is T ∧ 0 < T ∧ |T - X| ≤ 1 / 2 ^ 23 := by
  have hs := h.sized
  obtain ⟨β, γ, δ, -, -, hδ, -, hpos⟩ := Ball.hit_form (m := mt) hs
  have hB := (Ball.coeffB (m := mt) (diam := diam) hs.start hs.dir hs.center hs.short hs.farx hs.fary hs.farz).2
  have hC : Ball.quadC v c R ≤ -(1 / 2 ^ 25) := by
    have : Ball.quadC v c R = apart v c ^ 2 - R ^ 2 := by rw [apart_sq]; unfold Ball.quadC; ring
    rw [this]
    linarith
  have hon : Ball.excess v d c R X = 0 := by rw [excess_apart, hX, sub_self]
  have e1 : 2 * Ball.quadA d * X + Ball.quadB v d c = 2 * (((along v d X).x - c.x) * d.x + ((along v d X).y - c.y) * d.y + ((along v d X).z - c.z) * d.z) := by
    unfold Ball.quadA Ball.quadB
    simp only [along]
    ring
  have e2 : Ball.quadA d * X * X + Ball.quadB v d c * X + Ball.quadC v c R = 0 := by
    rw [← hon]
    unfold Ball.excess
    ring
  have hA1 := hs.long
  have hA2 := hs.short
  have accepts : ∀ {t : Flo} {T : ℝ}, t.Is T → 0 < T → |T - X| ≤ 1 / 2 ^ 23 → |X| ≤ 841 → (Obj.sphereQ mt diam center).accept r t = true := by
    intro t T ht hT hTX hX1
    have w : ∀ {v : Vec ℝ}, Within 64 v → |v.x| ≤ 256 ∧ |v.y| ≤ 256 ∧ |v.z| ≤ 256 := by
      intro v hv
      exact ⟨hv.1.trans (by norm_num), hv.2.1.trans (by norm_num), hv.2.2.trans (by norm_num)⟩
    exact Ball.accept_of hs (w h.start_le) (w h.center_le) ht hT hTX hX1 hon
  generalize Ball.quadA d = A at *
  generalize Ball.quadB v d c = B at *
  generalize Ball.quadC v c R = C at *
  have hAC : 0 ≤ A * -C := mul_nonneg (by linarith) (by norm_num at hC; linarith)
  have hsq : (2 * A * X + B) * (2 * A * X + B) = B * B - 4 * A * C := by linear_combination 4 * A * e2
  have ss : 1 / 16 * (1 / 16) ≤ (2 * A * X + B) * (2 * A * X + B) := mul_le_mul (by linarith) (by linarith) (by norm_num) (by linarith)
  rw [hsq] at ss
  obtain ⟨t1, t2, T1, T2, w, ht1, ht2, w0, w1, -, hw, -, -, f1, f2, e⟩ := hpos (by
    have := (abs_le.1 hδ).1
    norm_num at this ss
    linarith)
  obtain ⟨n1, n2, hTX, hXb⟩ := far_roots hA1 hB hC e2 (by linarith) hδ w0 w1 hw f1 f2
  have rej : (Obj.sphereQ mt diam center).accept r t1 = false := by
    rw [Bool.eq_false_iff]
    intro ha
    exact absurd (Ball.accept_pos ht1 ha) (not_lt.2 n1.le)
  dsimp only at e
  rw [if_neg (by linarith : ¬T2 < T1)] at e
  dsimp only at e
  rw [rej, if_neg (by simp), accepts ht2 n2 hTX hXb, if_pos rfl] at e
  refine ⟨_, T2, rfl, ?_, ?_, n2, hTX⟩
  · rw [e]; rfl
  · rw [e]; exact ht2

end BR
