import Verif.Lemmas.BallShadow
import Verif.Spec.Ball
import Verif.Model.Sequence
import Mathlib.Tactic.FinCases

/-! In double precision: the direction of a ray that bounces off a matte surface. -/

namespace BR.Bounce

/-- A double that is not a number. -/
def Lost (a : Flo) : Prop := a.e = .nan

theorem lost_mul {a b : Flo} (h : Lost a) : Lost (a * b) := by
  change (Flo.rnd (a.e * b.e)).e = _
  rw [h]; simp [Flo.rnd, Flo.roundTo]

theorem mul_lost {a b : Flo} (h : Lost b) : Lost (a * b) := by
  change (Flo.rnd (a.e * b.e)).e = _
  rw [h]; simp [Flo.rnd, Flo.roundTo]

theorem add_lost {a b : Flo} (h : Lost b) : Lost (a + b) := by
  change (Flo.rnd (a.e + b.e)).e = _
  rw [h]; simp [Flo.rnd, Flo.roundTo]

theorem lost_add {a b : Flo} (h : Lost a) : Lost (a + b) := by
  change (Flo.rnd (a.e + b.e)).e = _
  rw [h]; simp [Flo.rnd, Flo.roundTo]

/-- A square is `+Inf`, undefined, or the rounding of the square of a real number. -/
theorem square_cases (a : Flo) : Lost (a * a) ∨ (a * a).e = .inf false ∨
    ∃ x, a.Is x ∧ (a * a).Is (roundBits 53 (x * x)) := by
  rcases ha : a.e with _ | s | ⟨x, s⟩
  · exact .inl (lost_mul ha)
  · refine .inr (.inl ?_)
    change (Flo.rnd (a.e * a.e)).e = _
    rw [ha]
    simp [Flo.rnd, Flo.roundTo]
  · have e : (a * a).e = (Flo.rnd (.num (x * x) (xor (Ext.sgn (.num x s)) (Ext.sgn (.num x s))))).e := by
      change (Flo.rnd (a.e * a.e)).e = _
      rw [ha, Ext.num_mul_num]
    by_cases hb : (2 : ℝ) ^ 1024 ≤ |roundBits 53 (x * x)|
    · refine .inr (.inl ?_)
      rw [e]
      simp only [Flo.rnd, Flo.roundTo, if_pos hb]
      rw [decide_eq_false (not_lt.2 (mul_self_nonneg x))]
    · refine .inr (.inr ⟨x, ⟨s, ha⟩, ?_⟩)
      unfold Flo.Is
      rw [e]
      simp only [Flo.rnd, Flo.roundTo, if_neg hb]
      exact ⟨_, rfl⟩

/-- The last coordinate of a point of the hemisphere over a point `(a, b)` of the unit disc: undefined, or known. -/
theorem third_cases (a b : Flo) : Lost (GoFloat.sqrt (lit 1 - (a * a + b * b))) ∨
    ∃ x y z, a.Is x ∧ b.Is y ∧ (GoFloat.sqrt (lit 1 - (a * a + b * b))).Is z ∧ |x| ≤ 1.01 ∧ |y| ≤ 1.01 ∧ |z| ≤ 1.01 ∧
      |x * x + y * y + z * z - 1| ≤ 1 / 2 ^ 46 := by
  have i1 : (lit 1 : Flo).Is 1 := flo_lit_one
  have hsq : ∀ c : Flo, Lost c → Lost (GoFloat.sqrt (lit 1 - c)) := by
    intro c hc
    have h1 : (lit 1 - c : Flo).e = .nan := by
      change (Flo.rnd ((lit 1 : Flo).e - c.e)).e = _
      rw [hc]; simp [Flo.rnd, Flo.roundTo]
    change (Flo.rnd (GoFloat.sqrt (lit 1 - c).e)).e = _
    rw [h1]; rfl
  have hinf : ∀ c : Flo, c.e = .inf false → Lost (GoFloat.sqrt (lit 1 - c)) := by
    intro c hc
    obtain ⟨s, e1⟩ := i1
    have h1 : (lit 1 - c : Flo).e = .inf true := by
      change (Flo.rnd ((lit 1 : Flo).e - c.e)).e = _
      rw [hc, e1]; simp [Flo.rnd, Flo.roundTo]
    change (Flo.rnd (GoFloat.sqrt (lit 1 - c).e)).e = _
    rw [h1]; simp [GoFloat.sqrt, Flo.rnd, Flo.roundTo]
  have hadd : ∀ c d : Flo, c.e = .inf false → (Lost d ∨ d.e = .inf false ∨ ∃ y, d.Is y) →
      Lost (c + d) ∨ (c + d).e = .inf false := by
    intro c d hc hd
    have e : (c + d).e = (Flo.rnd (c.e + d.e)).e := rfl
    rw [hc] at e
    rcases hd with hd | hd | ⟨y, s, hd⟩
    · exact .inl (add_lost hd)
    · right; rw [e, hd]; simp [Flo.rnd, Flo.roundTo]
    · right; rw [e, hd]; simp [Flo.rnd, Flo.roundTo]
  have hadd' : ∀ c d : Flo, c.e = .inf false → (Lost d ∨ d.e = .inf false ∨ ∃ y, d.Is y) →
      Lost (d + c) ∨ (d + c).e = .inf false := by
    intro c d hc hd
    have e : (d + c).e = (Flo.rnd (d.e + c.e)).e := rfl
    rw [hc] at e
    rcases hd with hd | hd | ⟨y, s, hd⟩
    · exact .inl (lost_add hd)
    · right; rw [e, hd]; simp [Flo.rnd, Flo.roundTo]
    · right; rw [e, hd]; simp [Flo.rnd, Flo.roundTo]
  have fin : ∀ c, Lost c ∨ c.e = .inf false → Lost (GoFloat.sqrt (lit 1 - c)) := by
    rintro c (h | h)
    · exact hsq c h
    · exact hinf c h
  rcases square_cases a with ha | ha | ⟨x, hx, ha⟩
  · exact .inl (hsq _ (lost_add ha))
  · refine .inl (fin _ (hadd _ _ ha ?_))
    rcases square_cases b with hb | hb | ⟨y, -, hb⟩
    exacts [.inl hb, .inr (.inl hb), .inr (.inr ⟨_, hb⟩)]
  rcases square_cases b with hb | hb | ⟨y, hy, hb⟩
  · exact .inl (hsq _ (add_lost hb))
  · exact .inl (fin _ (hadd' _ _ hb (.inr (.inr ⟨_, ha⟩))))
  have px : 0 ≤ roundBits 53 (x * x) := roundBits_nonneg 53 (by norm_num) (mul_self_nonneg x)
  have py : 0 ≤ roundBits 53 (y * y) := roundBits_nonneg 53 (by norm_num) (mul_self_nonneg y)
  have ex := round_rel (x * x)
  have ey := round_rel (y * y)
  rw [abs_of_nonneg (mul_self_nonneg x)] at ex
  rw [abs_of_nonneg (mul_self_nonneg y)] at ey
  generalize roundBits 53 (x * x) = p at *
  generalize roundBits 53 (y * y) = q at *
  -- the sum
  by_cases hbig : p + q ≤ 2 ^ 199
  swap
  · left
    obtain ⟨s, ha⟩ := ha
    obtain ⟨t, hb⟩ := hb
    have e : (a * a + b * b).e = (Flo.rnd (.num p s + .num q t)).e := by rw [← ha, ← hb]; rfl
    rw [Ext.num_add_num] at e
    have hS := round_rel (p + q)
    rw [abs_of_nonneg (add_nonneg px py)] at hS
    have hSb : 2 ^ 198 ≤ roundBits 53 (p + q) := by
      rw [abs_le] at hS
      rw [not_le] at hbig
      norm_num at hS hbig ⊢
      linarith [hS.1]
    rcases Flo.rnd_cases (p + q) (Ext.sgn (.num (p + q) (Ext.sgn (.num p s) && Ext.sgn (.num q t)))) with ⟨u, hu⟩ | ⟨u, hu⟩
    · refine fin _ (.inr ?_)
      rw [e, hu]
      have : (Flo.rnd (.num (p + q) (Ext.sgn (.num (p + q) (Ext.sgn (.num p s) && Ext.sgn (.num q t)))))).e = .inf u := hu
      simp only [Flo.rnd, Flo.roundTo] at this
      split at this
      · rw [← this, decide_eq_false (not_lt.2 (add_nonneg px py))]
      · cases this
    · have hs : (a * a + b * b : Flo).Is (roundBits 53 (p + q)) := ⟨u, by rw [e, hu]⟩
      generalize roundBits 53 (p + q) = S at *
      -- one minus the sum is negative
      obtain ⟨u1, e1⟩ := i1
      obtain ⟨u2, e2⟩ := hs
      have e3 : (lit 1 - (a * a + b * b) : Flo).e = (Flo.rnd (.num 1 u1 - .num S u2)).e := by rw [← e1, ← e2]; rfl
      rw [Ext.num_sub_num] at e3
      have hneg' : 1 - S < 0 := by norm_num at hSb ⊢; linarith
      have hneg : roundBits 53 (1 - S) < 0 := by
        have h4 := round_rel (1 - S)
        rw [abs_of_neg hneg', abs_le] at h4
        norm_num at h4 hSb ⊢
        linarith [h4.2]
      change (Flo.rnd (GoFloat.sqrt (lit 1 - (a * a + b * b) : Flo).e)).e = _
      rw [e3]
      have e4 : ∀ w, Lost (Flo.rnd (GoFloat.sqrt (Flo.rnd (.num (1 - S) w)).e)) := by
        intro w
        rcases Flo.rnd_cases (1 - S) w with ⟨u, hu⟩ | ⟨u, hu⟩
        · have hu' := hu
          simp only [Flo.rnd, Flo.roundTo] at hu'
          split at hu'
          · rw [decide_eq_true hneg'] at hu'
            rw [hu, ← hu']; simp [Lost, GoFloat.sqrt, Flo.rnd, Flo.roundTo]
          · cases hu'
        · rw [hu]; simp [Lost, GoFloat.sqrt, Flo.rnd, Flo.roundTo, hneg]
      exact e4 _
  have hs : (a * a + b * b).Is (roundBits 53 (p + q)) := Flo.add_is ha hb (by rw [abs_of_nonneg (add_nonneg px py)]; exact hbig.trans (by norm_num))
  have hS := round_rel (p + q)
  rw [abs_of_nonneg (add_nonneg px py)] at hS
  have hS0 : 0 ≤ roundBits 53 (p + q) := roundBits_nonneg 53 (by norm_num) (add_nonneg px py)
  generalize roundBits 53 (p + q) = S at *
  have hS1 : S ≤ 2 ^ 200 := by rw [abs_le] at hS; norm_num at hS hbig ⊢; linarith [hS.2]
  have hd : (lit 1 - (a * a + b * b) : Flo).Is (roundBits 53 (1 - S)) :=
    Flo.sub_is i1 hs (by rw [abs_le]; norm_num at hS1 ⊢; constructor <;> linarith)
  have hD := round_rel (1 - S)
  generalize roundBits 53 (1 - S) = D at *
  rcases lt_or_ge D 0 with hneg | hpos
  · left
    obtain ⟨s, e⟩ := hd
    change (Flo.rnd (GoFloat.sqrt (lit 1 - (a * a + b * b) : Flo).e)).e = _
    rw [e]
    simp [GoFloat.sqrt, Flo.rnd, Flo.roundTo, hneg]
  right
  have hSle : S ≤ 1 + 1 / 2 ^ 100 := by
    rcases le_or_gt S 1 with h | h
    · norm_num; linarith
    · rw [abs_of_neg (by linarith : 1 - S < 0), abs_le] at hD
      norm_num at hD ⊢
      linarith [hD.2]
  rw [abs_le] at hS ex ey
  have hpq : p + q ≤ 1 + 1 / 2 ^ 50 := by norm_num at hS hSle ⊢; linarith [hS.1]
  have hxx : x * x ≤ 1 + 1 / 2 ^ 49 := by norm_num at ex hpq ⊢; linarith [ex.1]
  have hyy : y * y ≤ 1 + 1 / 2 ^ 49 := by norm_num at ey hpq ⊢; linarith [ey.1]
  have habs : ∀ {w : ℝ}, w * w ≤ 1 + 1 / 2 ^ 49 → |w| ≤ 1.01 := fun {w} hw =>
    abs_le_of_sq_le_sq (by norm_num at hw ⊢; nlinarith) (by norm_num)
  have hD1 : |D - (1 - S)| ≤ 1 / 2 ^ 52 := by
    refine hD.trans ?_
    have : |1 - S| ≤ 1 := by rw [abs_le]; norm_num at hSle ⊢; constructor <;> linarith
    norm_num
    linarith
  rw [abs_le] at hD1
  have hDle : D ≤ 1 + 1 / 2 ^ 52 := by linarith [hD1.2]
  have hz := Flo.sqrt_is hd hpos (hDle.trans (by norm_num))
  have hr0 := Real.sqrt_nonneg D
  have hr2 := Real.mul_self_sqrt hpos
  have hz0 := round_rel (Real.sqrt D)
  rw [abs_of_nonneg hr0] at hz0
  have hr1 : Real.sqrt D ≤ 1.001 := by
    refine Real.sqrt_le_iff.2 ⟨by norm_num, hDle.trans (by norm_num)⟩
  generalize roundBits 53 (Real.sqrt D) = z at *
  generalize Real.sqrt D = ρ at *
  have hzz : |z - ρ| ≤ 1 / 2 ^ 52 := hz0.trans (by norm_num; linarith)
  have hz1 : |z| ≤ 1.01 := by
    rw [abs_le] at hzz ⊢
    norm_num at hzz hr1 ⊢
    constructor <;> linarith [hzz.1, hzz.2]
  refine ⟨x, y, z, hx, hy, hz, habs hxx, habs hyy, hz1, ?_⟩
  have hz2 : |z * z - D| ≤ 1 / 2 ^ 50 := by
    have e : z * z - D = (z - ρ) * (z + ρ) := by rw [← hr2]; ring
    rw [e, abs_mul]
    have : |z + ρ| ≤ 2.02 := by
      rw [abs_le] at hz1 ⊢
      norm_num at hz1 hr1 ⊢
      constructor <;> linarith [hz1.1, hz1.2]
    have h := mul_le_mul hzz this (abs_nonneg _) (by positivity)
    refine h.trans (by norm_num)
  rw [abs_le] at hz2 ⊢
  norm_num at hz2 hD1 hS ex ey hpq hxx hyy ⊢
  constructor <;> linarith [hz2.1, hz2.2, hD1.1, hD1.2, hS.1, hS.2, ex.1, ex.2, ey.1, ey.2]

/-- Inner and cross product of vectors of real numbers. -/
noncomputable def ip (a b : Vec ℝ) : ℝ := a.x * b.x + a.y * b.y + a.z * b.z
noncomputable def cp (a b : Vec ℝ) : Vec ℝ := ⟨a.y * b.z - a.z * b.y, a.z * b.x - a.x * b.z, a.x * b.y - a.y * b.x⟩

theorem within_of_sq {a : Vec ℝ} {B : ℝ} (hB : 0 ≤ B) (h : ip a a ≤ B ^ 2) : Within B a := by
  unfold ip at h
  refine ⟨?_, ?_, ?_⟩ <;> refine abs_le_of_sq_le_sq ?_ hB <;>
    nlinarith [mul_self_nonneg a.x, mul_self_nonneg a.y, mul_self_nonneg a.z]

theorem cross_is {a' b' : Vec Flo} {a b : Vec ℝ} (ha : a'.FIs a) (hb : b'.FIs b) (wa : Within 1.01 a) (wb : Within 1.01 b) :
    ∃ k, (a'.cross b').FIs k ∧ Within (1 / 2 ^ 50) (k.sub (cp a b)) := by
  have key : ∀ {p q r t : Flo} {x y z w : ℝ}, p.Is x → q.Is y → r.Is z → t.Is w → |x| ≤ 1.01 → |y| ≤ 1.01 → |z| ≤ 1.01 →
      |w| ≤ 1.01 → ∃ k, (p * q - r * t).Is k ∧ |k - (x * y - z * w)| ≤ 1 / 2 ^ 50 := by
    intro p q r t x y z w hp hq hr ht hx hy hz hw
    have h1 := (hp.near hx).mul (1.1 / 2 ^ 53) 1.1 (hq.near hy)
    have h2 := (hr.near hz).mul (1.1 / 2 ^ 53) 1.1 (ht.near hw)
    exact (h1.sub (1 / 2 ^ 50) 3 h2).1
  obtain ⟨k0, e0, b0⟩ := key ha.2.1 hb.2.2 ha.2.2 hb.2.1 wa.2.1 wb.2.2 wa.2.2 wb.2.1
  obtain ⟨k1, e1, b1⟩ := key ha.2.2 hb.1 ha.1 hb.2.2 wa.2.2 wb.1 wa.1 wb.2.2
  obtain ⟨k2, e2, b2⟩ := key ha.1 hb.2.1 ha.2.1 hb.1 wa.1 wb.2.1 wa.2.1 wb.1
  exact ⟨⟨k0, k1, k2⟩, ⟨e0, e1, e2⟩, b0, b1, b2⟩

theorem abs_is {a : Flo} {x : ℝ} (h : a.Is x) : (GoFloat.abs a).Is |x| := by
  obtain ⟨s, e⟩ := h
  refine ⟨false, ?_⟩
  change GoFloat.abs a.e = _
  rw [e]; rfl

/-- The component that is replaced is the smallest. -/
theorem axis_small {n' : Vec Flo} {n : Vec ℝ} (hn : n'.FIs n) :
    3 * (n.get (cosineSphereAxis n')) ^ 2 ≤ ip n n := by
  have hx := abs_is hn.1
  have hy := abs_is hn.2.1
  have hz := abs_is hn.2.2
  have sq : ∀ {p q : ℝ}, |p| ≤ |q| → p ^ 2 ≤ q ^ 2 := fun h => sq_le_sq.2 h
  unfold cosineSphereAxis ip
  dsimp only
  rw [Flo.lt_is hy hx]
  by_cases h1 : |n.y| < |n.x|
  · simp only [h1, decide_true, if_true]
    rw [Flo.lt_is hz hy]
    by_cases h2 : |n.z| < |n.y|
    · simp only [h2, decide_true, if_true, Vec.get]
      nlinarith [sq h1.le, sq h2.le]
    · simp only [h2, decide_false, Bool.false_eq_true, if_false, Vec.get]
      nlinarith [sq h1.le, sq (not_lt.1 h2)]
  · simp only [h1, decide_false, Bool.false_eq_true, if_false]
    rw [Flo.lt_is hz hx]
    by_cases h2 : |n.z| < |n.x|
    · simp only [h2, decide_true, if_true, Vec.get]
      nlinarith [sq (not_lt.1 h1), sq h2.le]
    · simp only [h2, decide_false, Bool.false_eq_true, if_false, Vec.get]
      nlinarith [sq (not_lt.1 h1), sq (not_lt.1 h2)]

/-- The vector from which the first axis is made is not parallel to the normal. -/
theorem set_cross {n : Vec ℝ} (hn : |ip n n - 1| ≤ 1 / 2 ^ 40) (i : Fin 3) (hi : 3 * (n.get i) ^ 2 ≤ ip n n) :
    1 / 16 ≤ ip (cp (n.set i 1) n) (cp (n.set i 1) n) ∧ ip (cp (n.set i 1) n) (cp (n.set i 1) n) ≤ 3 ∧
      ip (cp (n.set i 1) n) n = 0 ∧ Within 1.01 (n.set i 1) := by
  rw [abs_le] at hn
  norm_num at hn
  have hw : Within 1.01 n := within_of_sq (by norm_num) (by norm_num; linarith [hn.2])
  have hsm : |n.get i| ≤ 3 / 5 := abs_le_of_sq_le_sq (by norm_num; linarith [hn.2]) (by norm_num)
  have e : ip (cp (n.set i 1) n) (cp (n.set i 1) n) = (1 - n.get i) ^ 2 * (ip n n - (n.get i) ^ 2) := by
    fin_cases i <;> simp only [Vec.set, Vec.get, ip, cp] <;> ring
  have h0 : ip (cp (n.set i 1) n) n = 0 := by unfold ip cp; ring
  rw [abs_le] at hsm
  have q1 : (2 / 5 : ℝ) ^ 2 ≤ (1 - n.get i) ^ 2 := pow_le_pow_left₀ (by norm_num) (by linarith [hsm.2]) 2
  have q2 : (1 - n.get i) ^ 2 ≤ (8 / 5 : ℝ) ^ 2 := pow_le_pow_left₀ (by linarith [hsm.2]) (by linarith [hsm.1]) 2
  have r1 : 3 / 5 ≤ ip n n - (n.get i) ^ 2 := by linarith [hn.1]
  have r2 : ip n n - (n.get i) ^ 2 ≤ 1.01 := by nlinarith [hn.2, sq_nonneg (n.get i)]
  refine ⟨?_, ?_, h0, ?_⟩
  · rw [e]
    calc (1 / 16 : ℝ) ≤ (2 / 5) ^ 2 * (3 / 5) := by norm_num
      _ ≤ _ := mul_le_mul q1 r1 (by norm_num) (by positivity)
  · rw [e]
    calc (1 - n.get i) ^ 2 * (ip n n - (n.get i) ^ 2) ≤ (8 / 5) ^ 2 * 1.01 := mul_le_mul q2 r2 (by linarith) (by positivity)
      _ ≤ _ := by norm_num
  · obtain ⟨a, b, c⟩ := hw
    fin_cases i <;> simp only [Vec.set, Within] <;> norm_num at a b c ⊢ <;> exact ⟨by assumption, by assumption⟩

theorem ip_le {a b : Vec ℝ} {A B : ℝ} (ha : Within A a) (hb : Within B b) : |ip a b| ≤ 3 * (A * B) := Ball.dot_le ha hb

theorem within_add {a b : Vec ℝ} {A B : ℝ} (ha : Within A (a.sub b)) (hb : Within B b) : Within (A + B) a := by
  refine ⟨?_, ?_, ?_⟩
  · have := abs_add_le (a.x - b.x) b.x; simp only [sub_add_cancel] at this; exact this.trans (add_le_add ha.1 hb.1)
  · have := abs_add_le (a.y - b.y) b.y; simp only [sub_add_cancel] at this; exact this.trans (add_le_add ha.2.1 hb.2.1)
  · have := abs_add_le (a.z - b.z) b.z; simp only [sub_add_cancel] at this; exact this.trans (add_le_add ha.2.2 hb.2.2)

/-- The first axis: of unit length and perpendicular to the normal, nearly. -/
theorem first_axis {n' : Vec Flo} {n : Vec ℝ} (hn : n'.FIs n) (hu : |ip n n - 1| ≤ 1 / 2 ^ 40) :
    ∃ e, ((n'.set (cosineSphereAxis n') (lit 1)).cross n').normalized.FIs e ∧ |ip e e - 1| ≤ 1 / 2 ^ 45 ∧
      |ip e n| ≤ 1 / 2 ^ 45 := by
  obtain ⟨h1, h2, h3, h4⟩ := set_cross hu _ (axis_small hn)
  have hw : Within 1.01 n := by
    rw [abs_le] at hu
    norm_num at hu
    exact within_of_sq (by norm_num) (by norm_num; linarith [hu.2])
  have ht : (n'.set (cosineSphereAxis n') (lit 1)).FIs (n.set (cosineSphereAxis n') 1) := by
    generalize cosineSphereAxis n' = i
    fin_cases i
    · exact ⟨flo_lit_one, hn.2⟩
    · exact ⟨hn.1, flo_lit_one, hn.2.2⟩
    · exact ⟨hn.1, hn.2.1, flo_lit_one⟩
  obtain ⟨w, hwis, hwc⟩ := cross_is ht hn h4 hw
  generalize cp (n.set (cosineSphereAxis n') 1) n = C at *
  -- the length of the computed cross product
  have hC : Within 1.8 C := within_of_sq (by norm_num) (by norm_num; linarith)
  have hd : ip w w = ip C C + 2 * ip C (w.sub C) + ip (w.sub C) (w.sub C) := by unfold ip Vec.sub; ring
  have b1 := ip_le hC hwc
  have b2 := ip_le hwc hwc
  rw [abs_le] at b1 b2
  have g1 : 1 / 17 ≤ ip w w := by norm_num at b1 b2 h1 ⊢; linarith [b1.1, b2.1]
  have g2 : ip w w ≤ 4 := by norm_num at b1 b2 h2 ⊢; linarith [b1.2, b2.2]
  obtain ⟨g, hg0, hg2⟩ : ∃ g, 0 ≤ g ∧ g ^ 2 = ip w w := ⟨Real.sqrt (ip w w), Real.sqrt_nonneg _, Real.sq_sqrt (by linarith)⟩
  have hglo : 0.24 ≤ g := by
    by_contra h
    have : g ^ 2 ≤ 0.24 ^ 2 := pow_le_pow_left₀ hg0 (not_le.1 h).le 2
    norm_num at this
    linarith
  have hghi : g ≤ 2 := by
    by_contra h
    have : (2 : ℝ) ^ 2 < g ^ 2 := pow_lt_pow_left₀ (not_le.1 h) (by norm_num) (by norm_num)
    norm_num at this
    linarith
  obtain ⟨e, κ, he, hκ, hκg, x1, x2, x3⟩ := normalized_is hwis (g := g) (by norm_num at hglo ⊢; linarith) (by norm_num; linarith)
    (by rw [hg2]; unfold ip; ring)
  refine ⟨e, he, ?_⟩
  have hκ1 : κ * g ≤ 1.001 := by rw [abs_le] at hκg; norm_num at hκg ⊢; linarith [hκg.2]
  have hκ2 : κ ≤ 4.2 := by
    have : κ * 0.24 ≤ κ * g := mul_le_mul_of_nonneg_left hglo hκ.le
    norm_num at this hκ1 ⊢
    linarith
  have hρ : Within (1 / 2 ^ 50) (e.sub ⟨κ * w.x, κ * w.y, κ * w.z⟩) := ⟨x1, x2, x3⟩
  have hv : Within 1.001 ⟨κ * w.x, κ * w.y, κ * w.z⟩ := by
    refine within_of_sq (by norm_num) ?_
    have : ip ⟨κ * w.x, κ * w.y, κ * w.z⟩ ⟨κ * w.x, κ * w.y, κ * w.z⟩ = (κ * g) ^ 2 := by
      rw [mul_pow, hg2]; unfold ip; ring
    rw [this]
    exact pow_le_pow_left₀ (by positivity) hκ1 2
  have hvv : ip ⟨κ * w.x, κ * w.y, κ * w.z⟩ ⟨κ * w.x, κ * w.y, κ * w.z⟩ = (κ * g) ^ 2 := by
    rw [mul_pow, hg2]; unfold ip; ring
  have hvn : ip ⟨κ * w.x, κ * w.y, κ * w.z⟩ n = κ * ip (w.sub C) n := by
    have : ip (w.sub C) n = ip w n - ip C n := by unfold ip Vec.sub; ring
    rw [this, h3]; unfold ip; ring
  generalize (⟨κ * w.x, κ * w.y, κ * w.z⟩ : Vec ℝ) = v at *
  constructor
  · have e1 : ip e e - 1 = ((κ * g) ^ 2 - 1) + 2 * ip v (e.sub v) + ip (e.sub v) (e.sub v) := by
      rw [← hvv]; unfold ip Vec.sub; ring
    have c1 := ip_le hv hρ
    have c2 := ip_le hρ hρ
    have c3 : |(κ * g) ^ 2 - 1| ≤ 2.01 / 2 ^ 48 := by
      have : (κ * g) ^ 2 - 1 = (κ * g - 1) * (κ * g + 1) := by ring
      rw [this, abs_mul, abs_of_nonneg (by positivity : 0 ≤ κ * g + 1)]
      calc |κ * g - 1| * (κ * g + 1) ≤ 1 / 2 ^ 48 * 2.01 :=
            mul_le_mul hκg (by norm_num at hκ1 ⊢; linarith) (by positivity) (by positivity)
        _ = _ := by ring
    rw [e1]
    rw [abs_le] at c1 c2 c3 ⊢
    norm_num at c1 c2 c3 ⊢
    constructor <;> linarith [c1.1, c1.2, c2.1, c2.2, c3.1, c3.2]
  · have e1 : ip e n = κ * ip (w.sub C) n + ip (e.sub v) n := by
      rw [← hvn]; unfold ip Vec.sub; ring
    have c1 := ip_le hwc hw
    have c2 := ip_le hρ hw
    have c3 : |κ * ip (w.sub C) n| ≤ 4.2 * (3 * (1 / 2 ^ 50 * 1.01)) := by
      rw [abs_mul, abs_of_pos hκ]
      exact mul_le_mul hκ2 c1 (abs_nonneg _) (by norm_num)
    rw [e1]
    refine (abs_add_le _ _).trans ((add_le_add c3 c2).trans ?_)
    norm_num

/-- A combination of the axes has the length that its coordinates have. -/
theorem combine {e n : Vec ℝ} {x y z : ℝ} (he : |ip e e - 1| ≤ 1 / 2 ^ 45) (hn : |ip n n - 1| ≤ 1 / 2 ^ 40)
    (hen : |ip e n| ≤ 1 / 2 ^ 45) (hx : |x| ≤ 1.01) (hy : |y| ≤ 1.01) (hz : |z| ≤ 1.01)
    (hs : |x * x + y * y + z * z - 1| ≤ 1 / 2 ^ 46) {v : Vec ℝ}
    (hv : v = ⟨x * e.x + y * (cp e n).x + z * n.x, x * e.y + y * (cp e n).y + z * n.y, x * e.z + y * (cp e n).z + z * n.z⟩) :
    |ip v v - 1| ≤ 1.2 / 2 ^ 39 := by
  have e1 : ip v v = x * x * ip e e + y * y * (ip e e * ip n n - ip e n * ip e n) + z * z * ip n n + 2 * (x * z) * ip e n := by
    rw [hv]; unfold ip cp; ring
  have e2 : ip v v - 1 = (x * x + y * y + z * z - 1) + x * x * (ip e e - 1) +
      y * y * ((ip e e - 1) * ip n n + (ip n n - 1) - ip e n * ip e n) + z * z * (ip n n - 1) + 2 * (x * z) * ip e n := by
    rw [e1]; ring
  have hn2 : |ip n n| ≤ 1.01 := by
    rw [abs_le] at hn ⊢; norm_num at hn ⊢; constructor <;> linarith [hn.1, hn.2]
  generalize ip e e - 1 = a at *
  generalize ip n n - 1 = b at *
  generalize ip e n = c at *
  generalize ip n n = d at *
  have sq : ∀ {w : ℝ}, |w| ≤ 1.01 → |w * w| ≤ 1.0201 := fun {w} h => by
    rw [abs_mul]; exact (mul_le_mul h h (abs_nonneg _) (by norm_num)).trans (by norm_num)
  -- the squares are not negative and add up to one
  have hxx := mul_self_nonneg x
  have hyy := mul_self_nonneg y
  have hzz := mul_self_nonneg z
  have f1 : |x * x * a| ≤ 1.0201 * (1 / 2 ^ 45) := by rw [abs_mul]; exact mul_le_mul (sq hx) he (abs_nonneg _) (by norm_num)
  have f2 : |a * d| ≤ 1 / 2 ^ 45 * 1.01 := by rw [abs_mul]; exact mul_le_mul he hn2 (abs_nonneg _) (by norm_num)
  have f3 : |c * c| ≤ 1 / 2 ^ 45 * (1 / 2 ^ 45) := by rw [abs_mul]; exact mul_le_mul hen hen (abs_nonneg _) (by norm_num)
  have f4 : |y * y * (a * d)| ≤ 1.0201 * (1 / 2 ^ 45 * 1.01) := by
    rw [abs_mul]; exact mul_le_mul (sq hy) f2 (abs_nonneg _) (by norm_num)
  have f5 : |y * y * (c * c)| ≤ 1.0201 * (1 / 2 ^ 45 * (1 / 2 ^ 45)) := by
    rw [abs_mul]; exact mul_le_mul (sq hy) f3 (abs_nonneg _) (by norm_num)
  have f6 : |y * y * b| ≤ 1.0201 * (1 / 2 ^ 40) := by rw [abs_mul]; exact mul_le_mul (sq hy) hn (abs_nonneg _) (by norm_num)
  have f7 : |z * z * b| ≤ 1.0201 * (1 / 2 ^ 40) := by rw [abs_mul]; exact mul_le_mul (sq hz) hn (abs_nonneg _) (by norm_num)
  have f8 : |x * z * c| ≤ 1.0201 * (1 / 2 ^ 45) := by
    rw [abs_mul]
    refine mul_le_mul ?_ hen (abs_nonneg _) (by norm_num)
    rw [abs_mul]; exact (mul_le_mul hx hz (abs_nonneg _) (by norm_num)).trans (by norm_num)
  rw [e2]
  have e3 : (x * x + y * y + z * z - 1) + x * x * a + y * y * (a * d + b - c * c) + z * z * b + 2 * (x * z) * c =
      (x * x + y * y + z * z - 1) + x * x * a + y * y * (a * d) + y * y * b - y * y * (c * c) + z * z * b + 2 * (x * z * c) := by ring
  rw [e3]
  rw [abs_le] at *
  norm_num at hs f1 f4 f5 f6 f7 f8 ⊢
  constructor <;> linarith [hs.1, hs.2, f1.1, f1.2, f4.1, f4.2, f5.1, f5.2, f6.1, f6.2, f7.1, f7.2, f8.1, f8.2]

/-- The direction of a ray that bounces off a matte surface is undefined or nearly of unit length, whatever the random
numbers are. -/
theorem bounce_dir {n' : Vec Flo} {n : Vec ℝ} (hn : n'.FIs n) (hu : |ip n n - 1| ≤ 1 / 2 ^ 40) (u v : Flo) :
    (Lost (cosineSphere u v n').x ∧ Lost (cosineSphere u v n').y ∧ Lost (cosineSphere u v n').z) ∨
      ∃ w, (cosineSphere u v n').FIs w ∧ |ip w w - 1| ≤ 1 / 2 ^ 38 := by
  obtain ⟨e, he, hee, hen⟩ := first_axis hn hu
  unfold cosineSphere
  dsimp only
  generalize (uniformDisk u v).1 = a
  generalize (uniformDisk u v).2 = b
  rcases third_cases a b with hl | ⟨x, y, z, hx, hy, hz, bx, bY, bz, hs⟩
  · exact .inl ⟨add_lost (mul_lost hl), add_lost (mul_lost hl), add_lost (mul_lost hl)⟩
  right
  generalize GoFloat.sqrt (lit 1 - (a * a + b * b)) = c at *
  generalize ((n'.set (cosineSphereAxis n') (lit 1)).cross n').normalized = e' at *
  have hwn : Within 1.01 n := by
    rw [abs_le] at hu
    norm_num at hu
    exact within_of_sq (by norm_num) (by norm_num; linarith [hu.2])
  have hwe : Within 1.01 e := by
    rw [abs_le] at hee
    norm_num at hee
    exact within_of_sq (by norm_num) (by norm_num; linarith [hee.2])
  obtain ⟨k, hk, hkc⟩ := cross_is he hn hwe hwn
  have key : ∀ {p q r : Flo} {E K N κ : ℝ}, p.Is E → q.Is K → r.Is N → |E| ≤ 1.01 → |κ| ≤ 2.1 → |N| ≤ 1.01 → |K - κ| ≤ 1 / 2 ^ 50 →
      ∃ w, (p * a + q * b + r * c).Is w ∧ |w - (x * E + y * κ + z * N)| ≤ 1 / 2 ^ 48 := by
    intro p q r E K N κ hp hq hr hE hκ hN hK
    have h1 := (hp.near hE).mul (1.1 / 2 ^ 53) 1.1 (hx.near bx)
    have h2 := Flo.Near.mul (12 / 2 ^ 53) 2.2 (⟨⟨K, hq, hK⟩, hκ⟩ : q.Near κ (1 / 2 ^ 50) 2.1) (hy.near bY)
    have h3 := (hr.near hN).mul (1.1 / 2 ^ 53) 1.1 (hz.near bz)
    have h4 := h1.add (17 / 2 ^ 53) 3.3 h2
    obtain ⟨w, hw, hw'⟩ := (h4.add (1 / 2 ^ 48) 4.4 h3).1
    exact ⟨w, hw, by rw [show x * E + y * κ + z * N = E * x + κ * y + N * z by ring]; exact hw'⟩
  have hcp : Within 2.1 (cp e n) := by
    obtain ⟨e1, e2, e3⟩ := hwe
    obtain ⟨n1, n2, n3⟩ := hwn
    have : ∀ {p q r t : ℝ}, |p| ≤ 1.01 → |q| ≤ 1.01 → |r| ≤ 1.01 → |t| ≤ 1.01 → |p * q - r * t| ≤ 2.1 := by
      intro p q r t hp hq hr ht
      refine (abs_sub _ _).trans ?_
      rw [abs_mul, abs_mul]
      have h1 := mul_le_mul hp hq (abs_nonneg _) (by norm_num)
      have h2 := mul_le_mul hr ht (abs_nonneg _) (by norm_num)
      norm_num at h1 h2 ⊢
      linarith
    exact ⟨this e2 n3 e3 n2, this e3 n1 e1 n3, this e1 n2 e2 n1⟩
  obtain ⟨w0, i0, d0⟩ := key he.1 hk.1 hn.1 hwe.1 hcp.1 hwn.1 hkc.1
  obtain ⟨w1, i1, d1⟩ := key he.2.1 hk.2.1 hn.2.1 hwe.2.1 hcp.2.1 hwn.2.1 hkc.2.1
  obtain ⟨w2, i2, d2⟩ := key he.2.2 hk.2.2 hn.2.2 hwe.2.2 hcp.2.2 hwn.2.2 hkc.2.2
  refine ⟨⟨w0, w1, w2⟩, ⟨i0, i1, i2⟩, ?_⟩
  obtain ⟨V, hV⟩ : ∃ V : Vec ℝ, V = ⟨x * e.x + y * (cp e n).x + z * n.x, x * e.y + y * (cp e n).y + z * n.y,
    x * e.z + y * (cp e n).z + z * n.z⟩ := ⟨_, rfl⟩
  have hc := combine hee hu hen bx bY bz hs hV
  have hd : Within (1 / 2 ^ 48) ((⟨w0, w1, w2⟩ : Vec ℝ).sub V) := by rw [hV]; exact ⟨d0, d1, d2⟩
  generalize (⟨w0, w1, w2⟩ : Vec ℝ) = w at *
  have hVw : Within 1.01 V := by
    rw [abs_le] at hc
    norm_num at hc
    exact within_of_sq (by norm_num) (by norm_num; linarith [hc.2])
  have e1 : ip w w - 1 = (ip V V - 1) + 2 * ip V (w.sub V) + ip (w.sub V) (w.sub V) := by unfold ip Vec.sub; ring
  have c1 := ip_le hVw hd
  have c2 := ip_le hd hd
  rw [e1]
  rw [abs_le] at c1 c2 hc ⊢
  norm_num at c1 c2 hc ⊢
  constructor <;> linarith [c1.1, c1.2, c2.1, c2.2, hc.1, hc.2]

end BR.Bounce
