import Verif.Lemmas.FloErr
import Verif.Lemmas.BoxErr
import Verif.Lemmas.Transform

/-! Bookkeeping for rounding errors: `a.Near x e b` says that the double `a` is finite and within `e` of the real
number `x`, whose magnitude is at most `b`. -/

namespace BR

namespace Flo

/-- The double is finite and within `e` of `x`; `x` is at most `b`. -/
def Near (a : Flo) (x e b : ℝ) : Prop := (∃ v, a.Is v ∧ |v - x| ≤ e) ∧ |x| ≤ b

theorem Near.weaken {a : Flo} {x e b e' b' : ℝ} (h : a.Near x e b) (he : e ≤ e') (hb : b ≤ b') : a.Near x e' b' := by
  obtain ⟨⟨v, h1, h2⟩, h3⟩ := h
  exact ⟨⟨v, h1, h2.trans he⟩, h3.trans hb⟩

theorem Near.bound {a : Flo} {x e b b' : ℝ} (h : a.Near x e b) (hb : |x| ≤ b') : a.Near x e b' := ⟨h.1, hb⟩

theorem Near.of_eq {a : Flo} {x y e b : ℝ} (h : a.Near x e b) (hxy : x = y) : a.Near y e b := hxy ▸ h

theorem Is.near {a : Flo} {x b : ℝ} (h : a.Is x) (hb : |x| ≤ b) : a.Near x 0 b := ⟨⟨x, h, by simp⟩, hb⟩

/-- The common end of the lemmas below: the exact result `w` of an operation on the computed operands is near `x`; it
is rounded. -/
private theorem near_round {c : Flo} {w x e b E B : ℝ} (hc : |w| ≤ 2 ^ 200 → c.Is (roundBits 53 w)) (hw : |w - x| ≤ e)
    (hx : |x| ≤ b) (hb : b ≤ B) (hE : e + (b + e) / 2 ^ 53 + 1 / 2 ^ 200 ≤ E) (hbig : b + e ≤ 2 ^ 200) : c.Near x E B := by
  have hww : |w| ≤ b + e := by
    have := abs_sub_abs_le_abs_sub w x
    linarith
  refine ⟨⟨_, hc (hww.trans hbig), ?_⟩, hx.trans hb⟩
  have h1 := roundBits_err 53 (by norm_num) w
  have h2 : |w| / 2 ^ 53 ≤ (b + e) / 2 ^ 53 := div_le_div_of_nonneg_right hww (by positivity)
  have h3 := abs_sub_le (roundBits 53 w) w x
  linarith

theorem Near.add {a c : Flo} {x y e f b d : ℝ} (E B : ℝ) (ha : a.Near x e b) (hc : c.Near y f d)
    (hB : b + d ≤ B := by norm_num) (hE : e + f + (b + d + (e + f)) / 2 ^ 53 + 1 / 2 ^ 200 ≤ E := by norm_num)
    (hbig : b + d + (e + f) ≤ 2 ^ 200 := by norm_num) : (a + c).Near (x + y) E B := by
  obtain ⟨⟨v, hv, hve⟩, hx⟩ := ha
  obtain ⟨⟨w, hw, hwe⟩, hy⟩ := hc
  refine near_round (fun h => add_is hv hw h) (e := e + f) (b := b + d) ?_ ?_ hB hE hbig
  · rw [show v + w - (x + y) = (v - x) + (w - y) by ring]
    exact (abs_add_le _ _).trans (by linarith)
  · exact (abs_add_le _ _).trans (by linarith)

theorem Near.sub {a c : Flo} {x y e f b d : ℝ} (E B : ℝ) (ha : a.Near x e b) (hc : c.Near y f d)
    (hB : b + d ≤ B := by norm_num) (hE : e + f + (b + d + (e + f)) / 2 ^ 53 + 1 / 2 ^ 200 ≤ E := by norm_num)
    (hbig : b + d + (e + f) ≤ 2 ^ 200 := by norm_num) : (a - c).Near (x - y) E B := by
  obtain ⟨⟨v, hv, hve⟩, hx⟩ := ha
  obtain ⟨⟨w, hw, hwe⟩, hy⟩ := hc
  refine near_round (fun h => sub_is hv hw h) (e := e + f) (b := b + d) ?_ ?_ hB hE hbig
  · rw [show v - w - (x - y) = (v - x) - (w - y) by ring]
    exact (abs_sub _ _).trans (by linarith)
  · exact (abs_sub _ _).trans (by linarith)

/-- The difference of exact operands, when the difference is known to be small. -/
theorem Is.sub_near {a c : Flo} {x y b : ℝ} (E B : ℝ) (ha : a.Is x) (hc : c.Is y) (h : |x - y| ≤ b) (hB : b ≤ B := by norm_num)
    (hE : b / 2 ^ 53 + 1 / 2 ^ 200 ≤ E := by norm_num) (hbig : b ≤ 2 ^ 200 := by norm_num) : (a - c).Near (x - y) E B :=
  near_round (fun h => sub_is ha hc h) (e := 0) (b := b) (by simp) h hB (by linarith) (by linarith)

theorem Near.mul {a c : Flo} {x y e f b d : ℝ} (E B : ℝ) (ha : a.Near x e b) (hc : c.Near y f d)
    (hB : b * d ≤ B := by norm_num)
    (hE : (e * d + b * f + e * f) + (b * d + (e * d + b * f + e * f)) / 2 ^ 53 + 1 / 2 ^ 200 ≤ E := by norm_num)
    (hbig : b * d + (e * d + b * f + e * f) ≤ 2 ^ 200 := by norm_num) : (a * c).Near (x * y) E B := by
  obtain ⟨⟨v, hv, hve⟩, hx⟩ := ha
  obtain ⟨⟨w, hw, hwe⟩, hy⟩ := hc
  have he : 0 ≤ e := (abs_nonneg _).trans hve
  have hf : 0 ≤ f := (abs_nonneg _).trans hwe
  have hb : 0 ≤ b := (abs_nonneg _).trans hx
  refine near_round (fun h => mul_is hv hw h) (e := e * d + b * f + e * f) (b := b * d) ?_ ?_ hB hE hbig
  · rw [show v * w - x * y = (v - x) * y + x * (w - y) + (v - x) * (w - y) by ring]
    refine (abs_add_three _ _ _).trans ?_
    rw [abs_mul, abs_mul, abs_mul]
    have h1 := mul_le_mul hve hy (abs_nonneg _) he
    have h2 := mul_le_mul hx hwe (abs_nonneg _) hb
    have h3 := mul_le_mul hve hwe (abs_nonneg _) he
    linarith
  · rw [abs_mul]
    exact mul_le_mul hx hy (abs_nonneg _) hb

theorem Near.neg {a : Flo} {x e b : ℝ} (ha : a.Near x e b) : (-a).Near (-x) e b := by
  obtain ⟨⟨v, ⟨s, hs⟩, hve⟩, hx⟩ := ha
  refine ⟨⟨-v, ⟨!(Ext.sgn (.num v s)), ?_⟩, ?_⟩, by rwa [abs_neg]⟩
  · change -a.e = _
    rw [hs, Ext.neg_num]
  · rwa [show -v - -x = -(v - x) by ring, abs_neg]

/-- Division by a number away from zero. -/
theorem Near.div {a c : Flo} {x y e f b d : ℝ} (m E B : ℝ) (ha : a.Near x e b) (hc : c.Near y f d)
    (hm : m ≤ |y|) (hfm : f < m := by norm_num) (hB : b / m ≤ B := by norm_num)
    (hE : (e + b / m * f) / (m - f) + (b / m + (e + b / m * f) / (m - f)) / 2 ^ 53 + 1 / 2 ^ 200 ≤ E := by norm_num)
    (hbig : b / m + (e + b / m * f) / (m - f) ≤ 2 ^ 200 := by norm_num) : (a / c).Near (x / y) E B := by
  obtain ⟨⟨v, hv, hve⟩, hx⟩ := ha
  obtain ⟨⟨w, hw, hwe⟩, hy⟩ := hc
  have he : 0 ≤ e := (abs_nonneg _).trans hve
  have hf : 0 ≤ f := (abs_nonneg _).trans hwe
  have hb : 0 ≤ b := (abs_nonneg _).trans hx
  have hm0 : 0 < m := hf.trans_lt hfm
  have hw0 : m - f ≤ |w| := by
    have := abs_sub_abs_le_abs_sub y w
    rw [abs_sub_comm] at this
    linarith
  have hwp : 0 < |w| := by linarith
  have hwn : w ≠ 0 := abs_pos.1 hwp
  have hyp : 0 < |y| := hm0.trans_le hm
  have hyn : y ≠ 0 := abs_pos.1 hyp
  have hxy : |x / y| ≤ b / m := by
    rw [abs_div]
    exact div_le_div₀ hb hx hm0 hm
  refine near_round (fun h => div_is hv hw hwn h) (e := (e + b / m * f) / (m - f)) (b := b / m) ?_ hxy hB hE hbig
  rw [show v / w - x / y = ((v - x) - x / y * (w - y)) / w by field_simp; ring, abs_div]
  refine div_le_div₀ (by positivity) ?_ (by linarith) hw0
  refine (abs_sub _ _).trans ?_
  rw [abs_mul]
  have h1 := mul_le_mul hxy hwe (abs_nonneg _) (by positivity)
  linarith

theorem sqrt_is {a : Flo} {x : ℝ} (ha : a.Is x) (h0 : 0 ≤ x) (h : x ≤ 2 ^ 200) :
    (GoFloat.sqrt a).Is (roundBits 53 (Real.sqrt x)) := by
  have hs : (GoFloat.sqrt a.e).Is (Real.sqrt x) := Ext.Is.sqrt ha h0
  obtain ⟨s, hs⟩ := hs
  change (rnd (GoFloat.sqrt a.e)).Is _
  rw [hs]
  refine rnd_is _ ?_
  rw [abs_of_nonneg (Real.sqrt_nonneg _)]
  have h1 : Real.sqrt x ≤ Real.sqrt ((2 ^ 100) ^ 2) := Real.sqrt_le_sqrt (h.trans (by rw [← pow_mul]))
  rw [Real.sqrt_sq (by positivity)] at h1
  exact h1.trans (pow_le_pow_right₀ (by norm_num) (by norm_num))

theorem lit_is (q : ℚ) (m e : ℤ) (hx : (q : ℝ) = m * 2 ^ e) (hm : |m| < 2 ^ 53) (he : -149 ≤ e)
    (hb : |(q : ℝ)| ≤ 2 ^ 200) : (lit q : Flo).Is q := by
  change (rnd (lit q)).Is _
  rw [Ext.lit_ext]
  exact rnd_exact_is _ _ m e hx hm he hb

theorem lit_near (q : ℚ) (E B : ℝ) (hB : |(q : ℝ)| ≤ B) (hE : B / 2 ^ 53 + 1 / 2 ^ 200 ≤ E) (hb : B ≤ 2 ^ 200) :
    (lit q : Flo).Near q E B := by
  refine ⟨⟨roundBits 53 q, ?_, ?_⟩, hB⟩
  · change (rnd (lit q)).Is _
    rw [Ext.lit_ext]
    exact rnd_is _ (hB.trans hb)
  · exact err_le (roundBits_err 53 (by norm_num) _) hB hE

end Flo

/-- The three doubles are finite, with the real values given. -/
def Vec.FIs (v : Vec Flo) (w : Vec ℝ) : Prop := v.x.Is w.x ∧ v.y.Is w.y ∧ v.z.Is w.z

/-- `Flo.Near` for vectors. -/
def Vec.Near (v : Vec Flo) (w : Vec ℝ) (e b : ℝ) : Prop := v.x.Near w.x e b ∧ v.y.Near w.y e b ∧ v.z.Near w.z e b

end BR
