import Verif.Lemmas.Near

/-! Bookkeeping for rounding errors in proportion to a scale: `a.Rel x e b Q` says that the double `a` is finite and within
`e * Q` of the real number `x`, whose magnitude is at most `b * Q`. -/

namespace BR

namespace Flo

/-- Results up to this size do not overflow. -/
noncomputable def ample : ℝ := 2 ^ 200 * 2 ^ 200 * 2 ^ 200 * 2 ^ 200

theorem rnd_ample {x : ℝ} (s : Bool) (h : |x| ≤ ample) : (rnd (.num x s)).Is (roundBits 53 x) := by
  have hb : |roundBits 53 x| < 2 ^ 1024 := by
    have := roundBits_err 53 (by norm_num) x
    have h1 : |roundBits 53 x| ≤ |x| + (|x| / 2 ^ 53 + 1 / 2 ^ 200) := by
      have := abs_sub_abs_le_abs_sub (roundBits 53 x) x
      linarith
    have h2 : |x| / 2 ^ 53 ≤ |x| := div_le_self (abs_nonneg x) (by norm_num)
    have h3 : ample + ample + 1 / 2 ^ 200 < 2 ^ 1024 := by
      have : (2 : ℝ) ^ (200 + 200 + 200 + 200 + 200) < 2 ^ 1024 := pow_lt_pow_right₀ (by norm_num) (by norm_num)
      refine lt_trans ?_ this
      rw [pow_add, pow_add, pow_add, pow_add]
      unfold ample
      norm_num
    refine lt_of_le_of_lt ?_ h3
    linarith
  refine ⟨if roundBits 53 x = 0 then (Ext.num x s).sgn else s, ?_⟩
  unfold rnd roundTo
  dsimp only
  rw [if_neg (not_le.2 hb)]

/-- The double is finite and within `e * Q` of `x`; `x` is at most `b * Q`. -/
def Rel (a : Flo) (x e b Q : ℝ) : Prop := (∃ v, a.Is v ∧ |v - x| ≤ e * Q) ∧ |x| ≤ b * Q

/-- Scales for which neither overflow nor underflow matters. -/
def Roomy (Q : ℝ) : Prop := 1 / 2 ^ 140 ≤ Q ∧ Q ≤ 2 ^ 200 * 2 ^ 200 * 2 ^ 200

theorem Roomy.pos {Q : ℝ} (h : Roomy Q) : 0 < Q := lt_of_lt_of_le (by positivity) h.1

theorem roomy_of {Q : ℝ} (h : 1 ≤ Q) (h' : Q ≤ 2 ^ 200 * 2 ^ 200 * 2 ^ 200) : Roomy Q := ⟨le_trans (by norm_num) h, h'⟩

theorem Rel.weaken {a : Flo} {x e b e' b' Q : ℝ} (h : a.Rel x e b Q) (hQ : 0 ≤ Q) (he : e ≤ e' := by norm_num)
    (hb : b ≤ b' := by norm_num) : a.Rel x e' b' Q := by
  obtain ⟨⟨v, h1, h2⟩, h3⟩ := h
  exact ⟨⟨v, h1, h2.trans (mul_le_mul_of_nonneg_right he hQ)⟩, h3.trans (mul_le_mul_of_nonneg_right hb hQ)⟩

theorem Rel.of_eq {a : Flo} {x y e b Q : ℝ} (h : a.Rel x e b Q) (hxy : x = y) : a.Rel y e b Q := hxy ▸ h

theorem Is.rel {a : Flo} {x b Q : ℝ} (h : a.Is x) (hb : |x| ≤ b * Q) : a.Rel x 0 b Q := ⟨⟨x, h, by simp⟩, hb⟩

theorem Is.rel_zero {a : Flo} {Q : ℝ} (h : a.Is 0) : a.Rel 0 0 0 Q := h.rel (by simp)

/-- Another scale. -/
theorem Rel.scale {a : Flo} {x e b Q R : ℝ} (k : ℝ) (h : a.Rel x e b Q) (he : 0 ≤ e) (hb : 0 ≤ b) (hR : Q ≤ k * R) :
    a.Rel x (e * k) (b * k) R := by
  obtain ⟨⟨v, h1, h2⟩, h3⟩ := h
  refine ⟨⟨v, h1, h2.trans ?_⟩, h3.trans ?_⟩ <;> rw [mul_assoc] <;> exact mul_le_mul_of_nonneg_left hR (by assumption)

/-- Near a second number as well. -/
theorem Rel.shift {a : Flo} {x y e f b Q : ℝ} (E B : ℝ) (h : a.Rel x e b Q) (hxy : |x - y| ≤ f * Q) (hQ : 0 ≤ Q)
    (hE : e + f ≤ E := by norm_num) (hB : b + f ≤ B := by norm_num) : a.Rel y E B Q := by
  obtain ⟨⟨v, h1, h2⟩, h3⟩ := h
  refine ⟨⟨v, h1, ?_⟩, ?_⟩
  · have h4 := abs_sub_le v x y
    have h5 := mul_le_mul_of_nonneg_right hE hQ
    rw [add_mul] at h5
    linarith
  · have h4 := abs_sub_abs_le_abs_sub y x
    rw [abs_sub_comm] at h4
    have h5 := mul_le_mul_of_nonneg_right hB hQ
    rw [add_mul] at h5
    linarith

private theorem rel_round {c : Flo} {w x e b E B Q : ℝ} (hc : |w| ≤ ample → c.Is (roundBits 53 w)) (hw : |w - x| ≤ e * Q)
    (hx : |x| ≤ b * Q) (hQ : Roomy Q) (hb : b ≤ B) (hE : e + (b + e) / 2 ^ 53 + 1 / 2 ^ 60 ≤ E) (hbig : b + e ≤ 2 ^ 100) :
    c.Rel x E B Q := by
  have hQ0 := hQ.pos
  have hww : |w| ≤ (b + e) * Q := by
    have := abs_sub_abs_le_abs_sub w x
    rw [add_mul]
    linarith
  have ham : |w| ≤ ample := by
    refine hww.trans ((mul_le_mul_of_nonneg_right hbig hQ0.le).trans ?_)
    refine (mul_le_mul_of_nonneg_left hQ.2 (by positivity)).trans ?_
    unfold ample
    norm_num
  refine ⟨⟨_, hc ham, ?_⟩, hx.trans (mul_le_mul_of_nonneg_right hb hQ0.le)⟩
  have h1 := roundBits_err 53 (by norm_num) w
  have h2 : |w| / 2 ^ 53 ≤ (b + e) / 2 ^ 53 * Q := by
    rw [div_mul_eq_mul_div]
    exact div_le_div_of_nonneg_right hww (by positivity)
  have h3 := abs_sub_le (roundBits 53 w) w x
  have h4 : (1 : ℝ) / 2 ^ 200 ≤ 1 / 2 ^ 60 * Q := by
    refine le_trans ?_ (mul_le_mul_of_nonneg_left hQ.1 (by positivity))
    norm_num
  have h5 := mul_le_mul_of_nonneg_right hE hQ0.le
  rw [add_mul, add_mul] at h5
  linarith

theorem Rel.add {a c : Flo} {x y e f b d Q : ℝ} (E B : ℝ) (hQ : Roomy Q) (ha : a.Rel x e b Q) (hc : c.Rel y f d Q)
    (hB : b + d ≤ B := by norm_num) (hE : e + f + (b + d + (e + f)) / 2 ^ 53 + 1 / 2 ^ 60 ≤ E := by norm_num)
    (hbig : b + d + (e + f) ≤ 2 ^ 100 := by norm_num) : (a + c).Rel (x + y) E B Q := by
  obtain ⟨⟨v, ⟨s, hv⟩, hve⟩, hx⟩ := ha
  obtain ⟨⟨w, ⟨t, hw⟩, hwe⟩, hy⟩ := hc
  refine rel_round (fun h => ?_) (w := v + w) (e := e + f) (b := b + d) ?_ ?_ hQ hB hE hbig
  · change (rnd (a.e + c.e)).Is _
    rw [hv, hw, Ext.num_add_num]
    exact rnd_ample _ h
  · rw [show v + w - (x + y) = (v - x) + (w - y) by ring, add_mul]
    exact (abs_add_le _ _).trans (by linarith)
  · rw [add_mul]
    exact (abs_add_le _ _).trans (by linarith)

theorem Rel.sub {a c : Flo} {x y e f b d Q : ℝ} (E B : ℝ) (hQ : Roomy Q) (ha : a.Rel x e b Q) (hc : c.Rel y f d Q)
    (hB : b + d ≤ B := by norm_num) (hE : e + f + (b + d + (e + f)) / 2 ^ 53 + 1 / 2 ^ 60 ≤ E := by norm_num)
    (hbig : b + d + (e + f) ≤ 2 ^ 100 := by norm_num) : (a - c).Rel (x - y) E B Q := by
  obtain ⟨⟨v, ⟨s, hv⟩, hve⟩, hx⟩ := ha
  obtain ⟨⟨w, ⟨t, hw⟩, hwe⟩, hy⟩ := hc
  refine rel_round (fun h => ?_) (w := v - w) (e := e + f) (b := b + d) ?_ ?_ hQ hB hE hbig
  · change (rnd (a.e - c.e)).Is _
    rw [hv, hw, Ext.num_sub_num]
    exact rnd_ample _ h
  · rw [show v - w - (x - y) = (v - x) - (w - y) by ring, add_mul]
    exact (abs_sub _ _).trans (by linarith)
  · rw [add_mul]
    exact (abs_sub _ _).trans (by linarith)

/-- The difference of exact operands, when the difference is known to be small. -/
theorem Is.sub_rel {a c : Flo} {x y b Q : ℝ} (E : ℝ) (hQ : Roomy Q) (ha : a.Is x) (hc : c.Is y) (h : |x - y| ≤ b * Q)
    (hE : b / 2 ^ 53 + 1 / 2 ^ 60 ≤ E := by norm_num) (hbig : b ≤ 2 ^ 100 := by norm_num) : (a - c).Rel (x - y) E b Q := by
  obtain ⟨s, hv⟩ := ha
  obtain ⟨t, hw⟩ := hc
  refine rel_round (fun h => ?_) (w := x - y) (e := 0) (b := b) (by simp) h hQ le_rfl (by linarith) (by linarith)
  change (rnd (a.e - c.e)).Is _
  rw [hv, hw, Ext.num_sub_num]
  exact rnd_ample _ h

theorem Rel.mul {a c : Flo} {x y e f b d Q R : ℝ} (E B : ℝ) (hQ : 0 < Q) (hR : 0 < R) (hQR : Roomy (Q * R)) (ha : a.Rel x e b Q)
    (hc : c.Rel y f d R) (he : 0 ≤ e := by norm_num) (hb : 0 ≤ b := by norm_num) (hB : b * d ≤ B := by norm_num)
    (hE : (e * d + b * f + e * f) + (b * d + (e * d + b * f + e * f)) / 2 ^ 53 + 1 / 2 ^ 60 ≤ E := by norm_num)
    (hbig : b * d + (e * d + b * f + e * f) ≤ 2 ^ 100 := by norm_num) : (a * c).Rel (x * y) E B (Q * R) := by
  obtain ⟨⟨v, ⟨s, hv⟩, hve⟩, hx⟩ := ha
  obtain ⟨⟨w, ⟨t, hw⟩, hwe⟩, hy⟩ := hc
  have he' : 0 ≤ e * Q := mul_nonneg he hQ.le
  have hb' : 0 ≤ b * Q := mul_nonneg hb hQ.le
  refine rel_round (fun h => ?_) (w := v * w) (e := e * d + b * f + e * f) (b := b * d) ?_ ?_ hQR hB hE hbig
  · change (rnd (a.e * c.e)).Is _
    rw [hv, hw, Ext.num_mul_num]
    exact rnd_ample _ h
  · rw [show v * w - x * y = (v - x) * y + x * (w - y) + (v - x) * (w - y) by ring]
    refine (abs_add_three _ _ _).trans ?_
    rw [abs_mul, abs_mul, abs_mul]
    have h1 := mul_le_mul hve hy (abs_nonneg _) he'
    have h2 := mul_le_mul hx hwe (abs_nonneg _) hb'
    have h3 := mul_le_mul hve hwe (abs_nonneg _) he'
    have e1 : (e * d + b * f + e * f) * (Q * R) = e * Q * (d * R) + b * Q * (f * R) + e * Q * (f * R) := by ring
    rw [e1]
    linarith
  · rw [abs_mul, show b * d * (Q * R) = b * Q * (d * R) by ring]
    exact mul_le_mul hx hy (abs_nonneg _) hb'

/-- The product of exact operands, when the product is known to be small. -/
theorem Is.mul_rel {a c : Flo} {x y b Q : ℝ} (E : ℝ) (hQ : Roomy Q) (ha : a.Is x) (hc : c.Is y) (h : |x * y| ≤ b * Q)
    (hE : b / 2 ^ 53 + 1 / 2 ^ 60 ≤ E := by norm_num) (hbig : b ≤ 2 ^ 100 := by norm_num) : (a * c).Rel (x * y) E b Q := by
  obtain ⟨s, hv⟩ := ha
  obtain ⟨t, hw⟩ := hc
  refine rel_round (fun h => ?_) (w := x * y) (e := 0) (b := b) (by simp) h hQ le_rfl (by linarith) (by linarith)
  change (rnd (a.e * c.e)).Is _
  rw [hv, hw, Ext.num_mul_num]
  exact rnd_ample _ h

theorem Rel.bound {a : Flo} {x e b b' Q : ℝ} (h : a.Rel x e b Q) (hb : |x| ≤ b' * Q) : a.Rel x e b' Q := ⟨h.1, hb⟩

theorem Rel.in_scale {a : Flo} {x e b Q R : ℝ} (h : a.Rel x e b Q) (hR : Q = R) : a.Rel x e b R := hR ▸ h

/-- A multiple of zero is zero. -/
theorem Is.zero_mul {a c : Flo} {y e b Q : ℝ} (ha : a.Is 0) (hc : c.Rel y e b Q) : (a * c).Is 0 := by
  obtain ⟨s, hs⟩ := ha
  obtain ⟨⟨v, ⟨t, ht⟩, -⟩, -⟩ := hc
  change (rnd (a.e * c.e)).Is _
  rw [hs, ht, Ext.num_mul_num, MulZeroClass.zero_mul]
  have := rnd_ample (x := 0) ((Ext.num 0 s).sgn ^^ (Ext.num v t).sgn) (by rw [abs_zero]; unfold ample; positivity)
  rwa [roundBits_zero] at this

theorem Is.mul_zero {a c : Flo} {y e b Q : ℝ} (hc : c.Rel y e b Q) (ha : a.Is 0) : (c * a).Is 0 := by
  obtain ⟨s, hs⟩ := ha
  obtain ⟨⟨v, ⟨t, ht⟩, -⟩, -⟩ := hc
  change (rnd (c.e * a.e)).Is _
  rw [hs, ht, Ext.num_mul_num, MulZeroClass.mul_zero]
  have := rnd_ample (x := 0) ((Ext.num v t).sgn ^^ (Ext.num 0 s).sgn) (by rw [abs_zero]; unfold ample; positivity)
  rwa [roundBits_zero] at this

theorem Is.zero_sub {a c : Flo} (ha : a.Is 0) (hc : c.Is 0) : (a - c).Is 0 := by
  have := sub_is ha hc (by norm_num)
  rwa [sub_zero, roundBits_zero] at this

theorem Is.zero_add {a c : Flo} (ha : a.Is 0) (hc : c.Is 0) : (a + c).Is 0 := by
  have := add_is ha hc (by norm_num)
  rwa [add_zero, roundBits_zero] at this

/-- The difference of two doubles of the same value. -/
theorem Is.sub_self {a c : Flo} {x : ℝ} (ha : a.Is x) (hc : c.Is x) : (a - c).Is 0 := by
  have := sub_is ha hc (by norm_num)
  rwa [_root_.sub_self, roundBits_zero] at this

theorem Rel.neg {a : Flo} {x e b Q : ℝ} (ha : a.Rel x e b Q) : (-a).Rel (-x) e b Q := by
  obtain ⟨⟨v, ⟨s, hs⟩, hve⟩, hx⟩ := ha
  refine ⟨⟨-v, ⟨!(Ext.sgn (.num v s)), ?_⟩, ?_⟩, by rwa [abs_neg]⟩
  · change -a.e = _
    rw [hs, Ext.neg_num]
  · rwa [show -v - -x = -(v - x) by ring, abs_neg]

/-- Division by a number away from zero. -/
theorem Rel.div {a c : Flo} {x y e f b d Q R : ℝ} (m E B : ℝ) (hQ : 0 < Q) (hR : 0 < R) (hQR : Roomy (Q / R)) (ha : a.Rel x e b Q)
    (hc : c.Rel y f d R) (hm : m * R ≤ |y|) (he : 0 ≤ e := by norm_num) (hb : 0 ≤ b := by norm_num)
    (hf : 0 ≤ f := by norm_num) (hfm : f < m := by norm_num)
    (hB : b / m ≤ B := by norm_num)
    (hE : (e + b / m * f) / (m - f) + (b / m + (e + b / m * f) / (m - f)) / 2 ^ 53 + 1 / 2 ^ 60 ≤ E := by norm_num)
    (hbig : b / m + (e + b / m * f) / (m - f) ≤ 2 ^ 100 := by norm_num) : (a / c).Rel (x / y) E B (Q / R) := by
  obtain ⟨⟨v, ⟨s, hv⟩, hve⟩, hx⟩ := ha
  obtain ⟨⟨w, ⟨t, hw⟩, hwe⟩, hy⟩ := hc
  have hm0 : 0 < m := hf.trans_lt hfm
  have hw0 : (m - f) * R ≤ |w| := by
    have := abs_sub_abs_le_abs_sub y w
    rw [abs_sub_comm] at this
    rw [sub_mul]
    linarith
  have hwp : 0 < |w| := lt_of_lt_of_le (mul_pos (by linarith) hR) hw0
  have hwn : w ≠ 0 := abs_pos.1 hwp
  have hyp : 0 < |y| := lt_of_lt_of_le (mul_pos hm0 hR) hm
  have hyn : y ≠ 0 := abs_pos.1 hyp
  have hxy : |x / y| ≤ b / m * (Q / R) := by
    rw [abs_div, show b / m * (Q / R) = b * Q / (m * R) by field_simp]
    exact div_le_div₀ (mul_nonneg hb hQ.le) hx (mul_pos hm0 hR) hm
  refine rel_round (fun h => ?_) (w := v / w) (e := (e + b / m * f) / (m - f)) (b := b / m) ?_ hxy hQR hB hE hbig
  · change (rnd (a.e / c.e)).Is _
    rw [hv, hw, Ext.num_div_num _ _ _ _ hwn]
    exact rnd_ample _ h
  · rw [show v / w - x / y = ((v - x) - x / y * (w - y)) / w by field_simp; ring, abs_div]
    have hmf : 0 < m - f := by linarith
    rw [show (e + b / m * f) / (m - f) * (Q / R) = (e * Q + b / m * (Q / R) * (f * R)) / ((m - f) * R) by field_simp]
    refine div_le_div₀ (by positivity) ?_ (by positivity) hw0
    refine (abs_sub _ _).trans ?_
    rw [abs_mul]
    have h1 := mul_le_mul hxy hwe (abs_nonneg _) (by positivity)
    linarith

end Flo

end BR
