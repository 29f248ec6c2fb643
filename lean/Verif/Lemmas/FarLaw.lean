import Verif.Spec.Backdrop
import Verif.Lemmas.FloErr

/-! Double precision obeys the laws that scenes with a backdrop need. -/

namespace BR

/-- Rounding a rounded number changes nothing. -/
theorem roundBits_idem (p : ℕ) (hp : 24 < p) (hp' : p ≤ 100) {c : ℝ} (hc : 1 ≤ c) : roundBits p (roundBits p c) = roundBits p c := by
  have hc0 : 0 < c := by linarith
  have hlog : 0 ≤ Int.log 2 |c| := by
    rw [abs_of_pos hc0]
    have := (Int.zpow_le_iff_le_log (b := 2) (by norm_num) hc0 (x := 0)).1 (by simpa using hc)
    exact this
  have hq : -149 ≤ lastPlace p c := by
    have : Int.log 2 |c| - ((p : ℤ) - 1) ≤ lastPlace p c := le_max_left _ _
    omega
  have h1 : (0 : ℝ) ≤ roundBits p c := roundBits_nonneg p (by omega) hc0.le
  have h2 : c ≤ (2 : ℝ) ^ (lastPlace p c + p) := by
    have h : c ≤ (2 : ℝ) ^ (Int.log 2 c + 1) := by
      exact_mod_cast (Int.lt_zpow_succ_log_self (b := 2) (by norm_num) c).le
    refine h.trans (zpow_le_zpow_right₀ (by norm_num) ?_)
    have : Int.log 2 |c| - ((p : ℤ) - 1) ≤ lastPlace p c := le_max_left _ _
    rw [abs_of_pos hc0] at this
    omega
  have key : ∃ m e : ℤ, roundBits p c = m * 2 ^ e ∧ |m| < 2 ^ p ∧ -149 ≤ e := by
    generalize hqq : lastPlace p c = q at *
    have hu : (0 : ℝ) < 2 ^ q := by positivity
    have hval : roundBits p c = roundEven (c / 2 ^ q) * 2 ^ q := by unfold roundBits; rw [hqq]
    have hm0 : 0 ≤ roundEven (c / 2 ^ q) := by
      have := roundEven_mono (x := ((0 : ℤ) : ℝ)) (y := c / 2 ^ q) (by push_cast; positivity)
      rwa [roundEven_int] at this
    have hm1 : roundEven (c / 2 ^ q) ≤ 2 ^ p := by
      have e2 : (2 : ℝ) ^ (q + p) = ((2 ^ p : ℤ) : ℝ) * 2 ^ q := by
        push_cast
        rw [zpow_add₀ (by norm_num), zpow_natCast]; ring
      rw [e2] at h2
      have := roundEven_mono (x := c / 2 ^ q) (y := ((2 ^ p : ℤ) : ℝ)) (by rw [div_le_iff₀ hu]; exact h2)
      rwa [roundEven_int] at this
    rcases lt_or_eq_of_le hm1 with h | h
    · exact ⟨_, q, hval, by rw [abs_of_nonneg hm0]; exact h, hq⟩
    · refine ⟨2 ^ (p - 1), q + 1, ?_, ?_, by omega⟩
      · rw [hval, h, zpow_add₀ (by norm_num), zpow_one]
        obtain ⟨k, rfl⟩ : ∃ k, p = k + 1 := ⟨p - 1, by omega⟩
        rw [Nat.add_sub_cancel, pow_succ]
        push_cast; ring
      · rw [abs_of_pos (by positivity)]
        exact pow_lt_pow_right₀ (by norm_num) (by omega)
  obtain ⟨m, e, h, hm, he⟩ := key
  rw [h]
  exact roundBits_exact p m e hm he

/-- What is at least a rounded number stays so when it is rounded. -/
theorem key_rnd_ge {c : ℝ} (hc : 1 ≤ c) {a : Ext} {x : EReal} (h : Ext.key a = some x)
    (hx : ((roundBits 53 c : ℝ) : EReal) ≤ x) : ∃ y, Ext.key (Flo.rnd a).e = some y ∧ ((roundBits 53 c : ℝ) : EReal) ≤ y := by
  cases a with
  | nan => simp [Ext.key] at h
  | inf s => exact ⟨x, h, hx⟩
  | num z s =>
    simp only [Ext.key, Option.some.injEq] at h
    subst h
    have hz : roundBits 53 c ≤ z := by exact_mod_cast hx
    have h0 : 0 ≤ roundBits 53 c := roundBits_nonneg 53 (by norm_num) (by linarith)
    have hm := roundBits_mono 53 (by norm_num) hz
    rw [roundBits_idem 53 (by norm_num) (by norm_num) hc] at hm
    unfold Flo.rnd Flo.roundTo
    dsimp only
    split
    · rw [decide_eq_false (not_lt.2 (h0.trans hz))]
      exact ⟨⊤, rfl, le_top⟩
    · exact ⟨_, rfl, by exact_mod_cast hm⟩

/-- Adding something that is not negative does not make anything smaller, in exact arithmetic. -/
theorem key_add_ge {a b : Ext} {x y : EReal} (ha : Ext.key a = some x) (hx : 0 ≤ x) (hb : Ext.key b = some y) (hy : 0 ≤ y) :
    ∃ z, Ext.key (a + b) = some z ∧ x ≤ z := by
  cases a with
  | nan => simp [Ext.key] at ha
  | inf s =>
    cases s with
    | true => simp only [Ext.key, Option.some.injEq] at ha; subst ha; exact absurd hx (by simp)
    | false =>
      simp only [Ext.key, Option.some.injEq] at ha; subst ha
      cases b with
      | nan => simp [Ext.key] at hb
      | inf t =>
        cases t with
        | true => simp only [Ext.key, Option.some.injEq] at hb; subst hb; exact absurd hy (by simp)
        | false => exact ⟨⊤, by change Ext.key (Ext.add _ _) = _; simp [Ext.add, Ext.key], le_rfl⟩
      | num v t => exact ⟨⊤, by change Ext.key (Ext.add _ _) = _; simp [Ext.add, Ext.key], le_rfl⟩
  | num u s =>
    simp only [Ext.key, Option.some.injEq] at ha; subst ha
    cases b with
    | nan => simp [Ext.key] at hb
    | inf t =>
      cases t with
      | true => simp only [Ext.key, Option.some.injEq] at hb; subst hb; exact absurd hy (by simp)
      | false => exact ⟨⊤, by change Ext.key (Ext.add _ _) = _; simp [Ext.add, Ext.key], le_top⟩
    | num v t =>
      simp only [Ext.key, Option.some.injEq] at hb; subst hb
      have hv : 0 ≤ v := by exact_mod_cast hy
      exact ⟨((u + v : ℝ) : EReal), by change Ext.key (Ext.add _ _) = _; simp [Ext.add, Ext.key], by exact_mod_cast (by linarith : u ≤ u + v)⟩

theorem flo_lit_key (q : ℚ) (h : |(q : ℝ)| ≤ 2 ^ 200 * 2 ^ 200) : CmpModel.key (lit q : Flo) = some ((roundBits 53 q : ℝ) : EReal) := by
  change Ext.key (Flo.rnd (lit q)).e = _
  rw [Ext.lit_ext]
  unfold Flo.rnd Flo.roundTo
  dsimp only
  rw [if_neg]
  · rfl
  · have h1 := roundBits_err 53 (by norm_num) (q : ℝ)
    have h2 : |roundBits 53 (q : ℝ)| ≤ 2 * (2 ^ 200 * 2 ^ 200) + 1 := by
      have h3 := abs_sub_abs_le_abs_sub (roundBits 53 (q : ℝ)) q
      have h4 : |(q : ℝ)| / 2 ^ 53 ≤ |(q : ℝ)| := div_le_self (abs_nonneg _) (by norm_num)
      have h5 : (1 : ℝ) / 2 ^ 200 ≤ 1 := by norm_num
      linarith
    rw [not_le]
    refine h2.trans_lt ?_
    have h6 : (2 : ℝ) * (2 ^ 200 * 2 ^ 200) + 1 < 2 ^ 202 * 2 ^ 200 := by norm_num
    refine h6.trans_le ?_
    have h7 : (2 : ℝ) ^ 1024 = 2 ^ 202 * 2 ^ 200 * 2 ^ 622 := by rw [← pow_add, ← pow_add]
    rw [h7]
    exact le_mul_of_one_le_right (by positivity) (one_le_pow₀ (by norm_num))

theorem farLaw_flo : FarLaw Flo := by
  have k1 : CmpModel.key (lit (10 ^ 99) : Flo) = _ := flo_lit_key (10 ^ 99) (by norm_num)
  have k9 : CmpModel.key (lit (9 * 10 ^ 99) : Flo) = _ := flo_lit_key (9 * 10 ^ 99) (by norm_num)
  have e1 := roundBits_err 53 (by norm_num) (((10 ^ 99 : ℚ)) : ℝ)
  have e9 := roundBits_err 53 (by norm_num) (((9 * 10 ^ 99 : ℚ)) : ℝ)
  rw [abs_le] at e1 e9
  push_cast at e1 e9 k1 k9
  rw [abs_of_pos (by norm_num)] at e1 e9
  refine ⟨?_, ?_, ?_, fun a b ha hb => ?_, fun a b ha hb => ?_⟩
  · refine (CmpModel.lt_iff _ _).2 ⟨_, _, k1, k9, ?_⟩
    rw [EReal.coe_lt_coe_iff]
    norm_num at e1 e9 ⊢
    linarith [e1.2, e9.1]
  · refine (CmpModel.lt_iff _ _).2 ⟨_, _, CmpModel.key_zero, k1, ?_⟩
    rw [← EReal.coe_zero, EReal.coe_lt_coe_iff]
    norm_num at e1 ⊢
    linarith [e1.1]
  · have k : CmpModel.key (tiny : Flo) = _ := flo_lit_key (1 / (1204 * 1024)) (by norm_num)
    refine (CmpModel.lt_iff _ _).2 ⟨_, _, CmpModel.key_zero, k, ?_⟩
    have e := roundBits_err 53 (by norm_num) (((1 / (1204 * 1024) : ℚ)) : ℝ)
    rw [abs_le] at e
    push_cast at e ⊢
    rw [abs_of_pos (by norm_num)] at e
    rw [← EReal.coe_zero, EReal.coe_lt_coe_iff]
    norm_num at e ⊢
    linarith [e.1]
  · obtain ⟨x, y, hx, hy, hxy⟩ := (CmpModel.le_iff _ _).1 ha
    obtain ⟨x', z, hx', hz, hxz⟩ := (CmpModel.le_iff _ _).1 hb
    have h0 : CmpModel.key (lit 0 : Flo) = some 0 := CmpModel.key_zero
    rw [h0, Option.some.injEq] at hx hx'
    subst hx hx'
    obtain ⟨w, hw, hyw⟩ := key_add_ge hy hxy hz hxz
    obtain ⟨v, hv, hv0⟩ := Flo.key_rnd_nonneg hw (hxy.trans hyw)
    exact (CmpModel.le_iff _ _).2 ⟨0, v, CmpModel.key_zero, hv, hv0⟩
  · obtain ⟨x, y, hx, hy, hxy⟩ := (CmpModel.le_iff _ _).1 ha
    obtain ⟨x', z, hx', hz, hxz⟩ := (CmpModel.le_iff _ _).1 hb
    have h0 : CmpModel.key (lit 0 : Flo) = some 0 := CmpModel.key_zero
    rw [h0, Option.some.injEq] at hx'
    subst hx'
    rw [k9, Option.some.injEq] at hx
    subst hx
    have hpos : (0 : EReal) ≤ ((roundBits 53 (9 * 10 ^ 99 : ℝ) : ℝ) : EReal) := by
      exact_mod_cast roundBits_nonneg 53 (by norm_num) (by norm_num)
    obtain ⟨w, hw, hyw⟩ := key_add_ge hy (hpos.trans hxy) hz hxz
    obtain ⟨v, hv, hv0⟩ := key_rnd_ge (c := 9 * 10 ^ 99) (by norm_num) hw (hxy.trans hyw)
    exact (CmpModel.le_iff _ _).2 ⟨_, v, k9, hv, hv0⟩

end BR
