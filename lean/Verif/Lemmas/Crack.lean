import Verif.Lemmas.FloorSeen

/-! A point of a floor, in double precision, that both triangles of the floor take to be beyond their common edge. -/

namespace BR
set_option linter.unusedSectionVars false

open Flo

variable {M : Type}

/-- A number half way between two neighbours is rounded to the even one. -/
theorem roundBits_tie (p : ℕ) (hp : 1 ≤ p) (x : ℝ) (m e : ℤ) (he : -149 ≤ e) (h1 : (2 : ℝ) ^ (p - 1) * 2 ^ e ≤ |x|)
    (h2 : |x| < 2 ^ p * 2 ^ e) (h : x / 2 ^ e = m - 1 / 2) (hm : Even m) : roundBits p x = m * 2 ^ e := by
  have hpos : 0 < |x| := lt_of_lt_of_le (by positivity) h1
  have hlog : Int.log 2 |x| = e + p - 1 := by
    apply le_antisymm
    · have : Int.log 2 |x| < e + p := by
        rw [← Int.lt_zpow_iff_log_lt (by norm_num) hpos]
        push_cast
        rw [zpow_add₀ (by norm_num), zpow_natCast, mul_comm]
        exact h2
      omega
    · rw [← Int.zpow_le_iff_le_log (by norm_num) hpos]
      push_cast
      have : (e + p - 1 : ℤ) = ((p - 1 : ℕ) : ℤ) + e := by omega
      rw [this, zpow_add₀ (by norm_num), zpow_natCast]
      exact h1
  have hp : lastPlace p x = e := by
    unfold lastPlace lowest
    rw [hlog, show e + (p : ℤ) - 1 - ((p : ℤ) - 1) = e by ring]
    refine max_eq_left ?_
    split <;> omega
  have hf : ⌊(m : ℝ) - 1 / 2⌋ = m - 1 := by
    rw [Int.floor_eq_iff]; push_cast; constructor <;> linarith
  have hr : roundEven ((m : ℝ) - 1 / 2) = m := by
    unfold roundEven
    rw [hf]
    push_cast
    rw [if_neg (by norm_num), if_neg (by norm_num), if_neg (by rw [Int.even_sub]; simp [hm])]
    omega
  unfold roundBits
  dsimp only
  rw [hp, h, hr]

private theorem mul_l {a b : Flo} {y : ℝ} (ha : a.Is 0) (hb : b.Is y) : (a * b).Is 0 :=
  Is.zero_mul ha (hb.rel (b := |y|) (Q := 1) (by simp))

private theorem mul_r {a b : Flo} {y : ℝ} (hb : b.Is y) (ha : a.Is 0) : (b * a).Is 0 :=
  Is.mul_zero (hb.rel (b := |y|) (Q := 1) (by simp)) ha

/-- A triangle that takes the point for one beyond the edge opposite to its first corner. -/
theorem beyond_edge {v0 v1 v2 : Vertex Flo} {r : Ray Flo} {X Z α Q v : ℝ} (hs : (r.start.sub v0.pos).FIs ⟨X, 1, Z⟩)
    (hd : r.dir.FIs ⟨0, -1, 0⟩) (ha : (v1.pos.sub v0.pos).FIs ⟨0, 0, α⟩) (hb : (v2.pos.sub v0.pos).FIs ⟨α, 0, 0⟩)
    (hα : α = 8 ∨ α = -8) (hX : roundBits 53 X = X) (hZ : roundBits 53 Z = Z) (bX : |X| ≤ 8) (bZ : |Z| ≤ 8) (hQ : roundBits 53 (Z - α) = Q) (bQ : |Q| ≤ 8)
    (h1 : roundBits 53 (-α * X) = -α * X) (h2 : roundBits 53 (α * Q) = α * Q) (h3 : roundBits 53 (-α * X - α * Q) = v)
    (hv : v ≤ -(1 / 2 ^ 49)) (hv' : -(1 / 2 ^ 45) ≤ v) : (Face.hit v0 v1 v2 r : HitRecord Flo M) = HitRecord.miss := by
  have z0 : roundBits 53 0 = 0 := roundBits_zero 53
  have αb : |α| = 8 := by rcases hα with h | h <;> rw [h] <;> norm_num
  have αα : α * α = 64 := by rcases hα with h | h <;> rw [h] <;> norm_num
  have i64 : roundBits 53 64 = 64 := by
    have := roundBits_exact 53 64 0 (by norm_num) (by norm_num); simpa using this
  have i1 : roundBits 53 1 = 1 := by
    have := roundBits_exact 53 1 0 (by norm_num) (by norm_num); simpa using this
  have i1' : roundBits 53 (-1) = -1 := by
    have := roundBits_exact 53 (-1) 0 (by norm_num) (by norm_num); simpa using this
  have i64' : roundBits 53 (-64) = -64 := by
    have := roundBits_exact 53 (-64) 0 (by norm_num) (by norm_num); simpa using this
  have i4096 : roundBits 53 4096 = 4096 := by
    have := roundBits_exact 53 4096 0 (by norm_num) (by norm_num); simpa using this
  have i8 : roundBits 53 (-α) = -α := by
    rcases hα with h | h <;> rw [h]
    · have := roundBits_exact 53 (-8) 0 (by norm_num) (by norm_num); simpa using this
    · have := roundBits_exact 53 8 0 (by norm_num) (by norm_num); simpa using this
  have i8' : roundBits 53 α = α := by
    rcases hα with h | h <;> rw [h]
    · have := roundBits_exact 53 8 0 (by norm_num) (by norm_num); simpa using this
    · have := roundBits_exact 53 (-8) 0 (by norm_num) (by norm_num); simpa using this
  generalize ea : v1.pos.sub v0.pos = a at *
  generalize eb : v2.pos.sub v0.pos = b at *
  generalize es : r.start.sub v0.pos = s at *
  -- the normal
  have hn : (a.cross b).FIs ⟨0, 64, 0⟩ := by
    refine ⟨Is.zero_sub (mul_l ha.2.1 hb.2.2) (mul_r ha.2.2 hb.2.1), ?_, Is.zero_sub (mul_l ha.1 hb.2.1) (mul_l ha.2.1 hb.1)⟩
    have m := mul_is ha.2.2 hb.1 (by rw [αα]; norm_num)
    dsimp only at m
    rw [αα, i64] at m
    have q := sub_is m (mul_l ha.1 hb.2.2) (by norm_num)
    rwa [sub_zero, i64] at q
  generalize en : a.cross b = n at *
  have dots : ∀ {u : Vec Flo} {x y z : ℝ}, u.FIs ⟨x, y, z⟩ → ∀ k, roundBits 53 (64 * y) = k → roundBits 53 k = k → |64 * y| ≤ 2 ^ 100 → |k| ≤ 2 ^ 100 →
      (n.dot u).Is k := by
    intro u x y z hu k hk hk' b1 b2
    have m := mul_is hn.2.1 hu.2.1 (b1.trans (by norm_num))
    dsimp only at m
    rw [hk] at m
    have p := add_is (mul_l hn.1 hu.1) m (by rw [zero_add]; exact b2.trans (by norm_num))
    rw [zero_add, hk'] at p
    have p := add_is p (mul_l hn.2.2 hu.2.2) (by rw [add_zero]; exact b2.trans (by norm_num))
    rwa [add_zero, hk'] at p
  -- the distance
  have t1 : (-n.dot s / n.dot r.dir).Is 1 := by
    have q1 := neg_is (dots hs 64 (by rw [mul_one, i64]) i64 (by norm_num) (by norm_num))
    have q2 := dots hd (-64) (by rw [mul_neg, mul_one, i64']) i64' (by norm_num) (by norm_num)
    have q := div_is q1 q2 (by norm_num) (by norm_num)
    rwa [show (-64 : ℝ) / -64 = 1 by norm_num, i1] at q
  -- the point
  have hp : (s.madd (-n.dot s / n.dot r.dir) r.dir).FIs ⟨X, 0, Z⟩ := by
    refine ⟨?_, ?_, ?_⟩
    · have := add_is hs.1 (mul_r t1 hd.1) (by rw [add_zero]; exact bX.trans (by norm_num))
      dsimp only at this
      rwa [add_zero, hX] at this
    · have m := mul_is t1 hd.2.1 (by norm_num)
      dsimp only at m
      rw [one_mul, i1'] at m
      have := add_is hs.2.1 m (by norm_num)
      dsimp only at this
      rwa [add_neg_cancel, z0] at this
    · have := add_is hs.2.2 (mul_r t1 hd.2.2) (by rw [add_zero]; exact bZ.trans (by norm_num))
      dsimp only at this
      rwa [add_zero, hZ] at this
  have hba : (b.sub a).FIs ⟨α, 0, -α⟩ := by
    refine ⟨?_, Is.zero_sub hb.2.1 ha.2.1, ?_⟩
    · have := sub_is hb.1 ha.1 (by simp only [sub_zero]; rw [αb]; norm_num)
      dsimp only at this
      rwa [sub_zero, i8'] at this
    · have := sub_is hb.2.2 ha.2.2 (by simp only [zero_sub, abs_neg]; rw [αb]; norm_num)
      dsimp only at this
      rwa [zero_sub, i8] at this
  have l1 : ((Face.bary v0 v1 v2 r (Face.planeT v0 v1 v2 r)).1 <. lit 0) = true := by
    unfold Face.planeT Face.bary
    dsimp only
    rw [ea, eb, es, en]
    generalize s.madd (-n.dot s / n.dot r.dir) r.dir = p at *
    have hpa : (p.sub a).FIs ⟨X, 0, Q⟩ := by
      refine ⟨?_, Is.zero_sub hp.2.1 ha.2.1, ?_⟩
      · have := sub_is hp.1 ha.1 (by simp only [sub_zero]; exact bX.trans (by norm_num))
        dsimp only at this
        rwa [sub_zero, hX] at this
      · have := sub_is hp.2.2 ha.2.2 (by
          have := abs_sub Z α
          dsimp only
          norm_num at *; linarith)
        dsimp only at this
        rwa [hQ] at this
    have hna : ((b.sub a).cross (p.sub a)).FIs ⟨0, v, 0⟩ := by
      refine ⟨Is.zero_sub (mul_l hba.2.1 hpa.2.2) (mul_r hba.2.2 hpa.2.1), ?_, Is.zero_sub (mul_r hba.1 hpa.2.1) (mul_l hba.2.1 hpa.1)⟩
      have e1 : |-α * X| ≤ 64 := by
        rw [abs_mul, abs_neg, αb]; linarith
      have e2 : |α * Q| ≤ 64 := by
        rw [abs_mul, αb]; linarith
      have m1 := mul_is hba.2.2 hpa.1 (e1.trans (by norm_num))
      have m2 := mul_is hba.1 hpa.2.2 (e2.trans (by norm_num))
      dsimp only at m1 m2
      rw [h1] at m1
      rw [h2] at m2
      have m3 := sub_is m1 m2 ((abs_sub _ _).trans (by norm_num at *; linarith))
      rwa [h3] at m3
    have q1 := mul_is hn.2.1 hna.2.1 (by rw [abs_mul]; dsimp only; rw [abs_of_nonpos (show v ≤ 0 by norm_num at *; linarith)]; norm_num at *; linarith)
    dsimp only at q1
    have e1 := roundBits_err 53 (by norm_num) (64 * v)
    rw [abs_of_nonpos (show 64 * v ≤ 0 by norm_num at *; linarith)] at e1
    generalize ew : roundBits 53 (64 * v) = w at *
    have w1 : w ≤ -(1 / 2 ^ 45) := by rw [abs_le] at e1; norm_num at *; linarith
    have w2 : -(1 / 2 ^ 38) ≤ w := by rw [abs_le] at e1; norm_num at *; linarith
    have q2 := dots hna w ew (by rw [← ew]; exact roundBits_again 53 (by norm_num) _) (by
      rw [abs_of_nonpos (show 64 * v ≤ 0 by norm_num at *; linarith)]; norm_num at *; linarith) (by
      rw [abs_of_nonpos (show w ≤ 0 by norm_num at *; linarith)]; norm_num at *; linarith)
    have q3 : n.len2.Is 4096 := dots (u := n) hn 4096 (by norm_num [i4096]) i4096 (by norm_num) (by norm_num)
    have q4 := div_is q2 q3 (by norm_num) (by
      rw [abs_of_nonpos (show w / 4096 ≤ 0 by norm_num at *; linarith)]; norm_num at *; linarith)
    have e2 := roundBits_err 53 (by norm_num) (w / 4096)
    rw [abs_of_nonpos (show w / 4096 ≤ 0 by norm_num at *; linarith)] at e2
    rw [lt_is q4 Ball.flo_zero]
    refine decide_eq_true ?_
    generalize roundBits 53 (w / 4096) = k at *
    rw [abs_le] at e2
    norm_num at *; linarith
  unfold Face.hit
  dsimp only
  split
  · rfl
  · generalize Face.bary v0 v1 v2 r (Face.planeT v0 v1 v2 r) = l at *
    rw [if_pos (by simp [l1])]

end BR
