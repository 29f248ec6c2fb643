import Verif.Spec.Profile
import Verif.Lemmas.ExtIs
import Verif.Lemmas.Object
import Verif.Lemmas.Geom
import Verif.Props.C19_BoxTest
import Verif.Props.C25_Quadric

/-! C17: hits on Boolean combinations of solids. -/

namespace BR

set_option linter.unusedSectionVars false

variable {M : Type}

/-! ## Soundness -/

private theorem finite_of_bounds {e m : Ext} (h0 : (lit 0 <. e) = true) (h1 : (e <. m) = true) :
    ∃ x : ℝ, e.Is x ∧ 0 < x := by
  cases e with
  | nan => simp at h0
  | inf s => cases s <;> cases m <;> simp_all
  | num x s => exact ⟨x, ⟨s, rfl⟩, by simpa using h0⟩

private theorem at_at (R : Ray ℝ) (k t : ℝ) : (⟨R.at k, R.dir⟩ : Ray ℝ).at t = R.at (k + t) := by
  simp only [Ray.at, geo]; refine ⟨?_, ?_, ?_⟩ <;> ring

private theorem tiny_is : (tiny : Ext).Is (1 / (1204 * 1024)) := by
  have := Ext.Is.lit (1 / (1204 * 1024)); push_cast at this; exact this

private theorem lit0_is : (lit 0 : Ext).Is 0 := by simpa using Ext.Is.lit 0

/-- `h` is a hit of `x` on the ray (from a start further along the ray), at a point that is inside `y`
iff `want`. -/
def HitOf (x y : Obj Ext M) (want : Bool) (R : Ray ℝ) (h : HitRecord Ext M) : Prop :=
  ∃ (k T : ℝ) (r' r'' : Ray Ext) (h0 : HitRecord Ext M), 0 ≤ k ∧ r'.Is ⟨R.at k, R.dir⟩ ∧
    x.intersect r' = .ok (h0, r'') ∧ h0.t.Is T ∧ 0 < T ∧ h.t.Is (k + T) ∧
    h = { h0 with t := h.t } ∧
    y.inside (r'.at h0.t) = .ok want ∧ (r'.at h0.t).Is (R.at (k + T))

private theorem marchLoop_sound (x y : Obj Ext M) (want : Bool) (R : Ray ℝ) (maxT : Ext) (start : Vec Ext) (n : Nat) :
    ∀ (tOff : Ext) (k : ℝ) (h0 h : HitRecord Ext M) (r r'' : Ray Ext), 0 ≤ k → tOff.Is k → r.Is ⟨R.at k, R.dir⟩ →
      x.intersect r = .ok (h0, r) →
      marchLoop x.intersect y.inside want maxT start n tOff h0 r = .ok (h, r'') → (lit 0 <. h.t) = true →
      HitOf x y want R h := by
  induction n with
  | zero =>
    intro tOff k h0 h r r'' hk hT hr hx hm hp
    rw [marchLoop] at hm
    simp only [bne_self_eq_false, Bool.and_false, Bool.false_and, Bool.false_eq_true, if_false] at hm
    cases hm
    simp [HitRecord.miss] at hp
  | succ n ih =>
    intro tOff k h0 h r r'' hk hT hr hx hm hp
    rw [marchLoop] at hm
    split at hm
    · rename_i hc
      simp only [Bool.and_eq_true] at hc
      obtain ⟨T, hTi, hT0⟩ := finite_of_bounds hc.1.1 hc.2
      obtain ⟨i, hi, hm⟩ := bind_eq_ok.1 hm
      have hpt : (r.at h0.t).Is (R.at (k + T)) := by
        have := hr.at hTi
        rwa [at_at] at this
      split at hm
      · rename_i hw
        cases hm
        simp only [beq_iff_eq] at hw
        subst hw
        refine ⟨k, T, r, r, h0, hk, hr, hx, hTi, hT0, ?_, rfl, hi, hpt⟩
        have := hTi.add hT
        rwa [add_comm] at this
      · obtain ⟨⟨h1, r1⟩, hx1, hm⟩ := bind_eq_ok.1 hm
        dsimp only at hm
        have hdl : (h0.t + tiny).Is (T + 1 / (1204 * 1024)) := hTi.add tiny_is
        have hr1 : (⟨r.at (h0.t + tiny), r.dir⟩ : Ray Ext).Is ⟨R.at (k + (T + 1 / (1204 * 1024))), R.dir⟩ := by
          refine ⟨?_, hr.2⟩
          have := hr.at hdl
          rwa [at_at] at this
        have hkeep := x.intersect_keeps _ _ _ hx1
        subst hkeep
        exact ih _ (k + (T + 1 / (1204 * 1024))) h1 h _ r'' (by positivity) (hT.add hdl) hr1 hx1 hm hp
    · cases hm
      simp [HitRecord.miss] at hp

private theorem march_sound (x y : Obj Ext M) (want : Bool) (r : Ray Ext) (R : Ray ℝ) (hr : r.Is R) (maxT : Ext)
    (h : HitRecord Ext M) (r'' : Ray Ext) (e : march x.intersect y.inside want r maxT = .ok (h, r''))
    (hp : (lit 0 <. h.t) = true) : HitOf x y want R h := by
  obtain ⟨⟨h0, r0⟩, hx, e⟩ := bind_eq_ok.1 e
  dsimp only at e
  have hkeep := x.intersect_keeps _ _ _ hx
  subst hkeep
  refine marchLoop_sound x y want R maxT _ 100 (lit 0) 0 h0 h _ r'' le_rfl lit0_is ?_ hx e hp
  have : R.at 0 = R.start := by simp only [Ray.at, geo]; simp
  rw [this]; exact hr

private theorem front_mem (a b : HitRecord Ext M) (h : (lit 0 <. (HitRecord.frontmost a b).t) = true) :
    HitRecord.frontmost a b = a ∨ HitRecord.frontmost a b = b := by
  rw [HitRecord.frontmost] at h ⊢
  cases (b.t <. a.t) <;> simp only [Bool.false_eq_true, if_false, if_true] at h ⊢ <;> split_ifs at h ⊢ <;>
    first | exact .inl rfl | exact .inr rfl | (simp [HitRecord.miss] at h)

private theorem marchBoth_sound (a b : Obj Ext M) (want : Bool) (r : Ray Ext) (R : Ray ℝ) (hr : r.Is R)
    (h : HitRecord Ext M) (r' : Ray Ext)
    (e : marchBoth a.intersect a.inside b.intersect b.inside want r = .ok (h, r')) (hp : (lit 0 <. h.t) = true) :
    HitOf a b want R h ∨ HitOf b a want R h := by
  obtain ⟨⟨h1, r1⟩, e1, e'⟩ := bind_eq_ok.1 e
  dsimp only at e'
  obtain ⟨⟨h2, r2⟩, e2, e''⟩ := bind_eq_ok.1 e'
  dsimp only at e''
  clear e e'
  rename' e'' => e
  have hk := march_keeps a.intersect_keeps b.inside want GoFloat.inf _ _ _ e1
  subst hk
  cases e
  rcases front_mem h1 h2 hp with g | g
  · rw [g] at hp ⊢
    exact .inl (march_sound a b want _ R hr _ _ _ e1 hp)
  · rw [g] at hp ⊢
    exact .inr (march_sound b a want _ R hr _ _ _ e2 hp)

/-- A hit reported by an intersection is a hit of one operand, with the normal, material and local
coordinates of that operand, at a point inside the other. -/
theorem C17_and_sound (a b : Obj Ext M) (r : Ray Ext) (R : Ray ℝ) (hr : r.Is R) (h : HitRecord Ext M) (r' : Ray Ext)
    (e : (Obj.and a b).intersect r = .ok (h, r')) (hp : (lit 0 <. h.t) = true) :
    HitOf a b true R h ∨ HitOf b a true R h := by
  rw [Obj.intersect] at e
  exact marchBoth_sound a b true r R hr h r' e hp

/-- A hit reported by a union is a hit of one operand at a point that is not inside the other. -/
theorem C17_or_sound (a b : Obj Ext M) (r : Ray Ext) (R : Ray ℝ) (hr : r.Is R) (h : HitRecord Ext M) (r' : Ray Ext)
    (e : (Obj.or a b).intersect r = .ok (h, r')) (hp : (lit 0 <. h.t) = true) :
    HitOf a b false R h ∨ HitOf b a false R h := by
  rw [Obj.intersect] at e
  exact marchBoth_sound a b false r R hr h r' e hp

/-- A hit reported by `Restrict(a, b)` is a hit of `a` at a point inside `b`. -/
theorem C17_restrict_sound (a b : Obj Ext M) (r : Ray Ext) (R : Ray ℝ) (hr : r.Is R) (h : HitRecord Ext M)
    (r' : Ray Ext) (e : (Obj.restrict a b).intersect r = .ok (h, r')) (hp : (lit 0 <. h.t) = true) :
    HitOf a b true R h := by
  rw [Obj.intersect] at e
  exact march_sound a b true r R hr _ h r' e hp

/-! ## The first crossing -/

/-- Membership in the combined solid: both (`and`) or either (`or`). -/
def both (want : Bool) (i j : Bool) : Bool := if want then i && j else i || j

private theorem near (D : Finset ℝ) {c : ℝ} (hc : c ∉ D) : ∃ ε > 0, ∀ d ∈ D, d < c - ε ∨ c + ε < d := by
  have ho : IsOpen ((D : Set ℝ)ᶜ) := D.finite_toSet.isClosed.isOpen_compl
  obtain ⟨ε, he, hb⟩ := Metric.isOpen_iff.1 ho c (by simpa using hc)
  refine ⟨ε / 2, by positivity, fun d hd => ?_⟩
  by_contra hn
  push Not at hn
  refine hb (a := d) ?_ (by simpa using hd)
  rw [Metric.mem_ball, Real.dist_eq, abs_lt]
  constructor <;> linarith [hn.1, hn.2]

theorem Obj.Profile.locally {o : Obj Ext M} {R : Ray ℝ} {D : Finset ℝ} {I : ℝ → Bool} (h : o.Profile R D I)
    {c : ℝ} (hc : c ∉ D) : ∃ ε > 0, ∀ t, c - ε < t → t < c + ε → I t = I c := by
  obtain ⟨ε, he, hd⟩ := near D hc
  refine ⟨ε, he, fun t h1 h2 => ?_⟩
  rcases lt_trichotomy t c with hl | rfl | hl
  · exact h.const t c hl fun d m => by rcases hd d m with g | g <;> [left; right] <;> linarith
  · rfl
  · exact (h.const c t hl fun d m => by rcases hd d m with g | g <;> [left; right] <;> linarith).symm

theorem Obj.Profile.cross_mem {o : Obj Ext M} {R : Ray ℝ} {D : Finset ℝ} {I : ℝ → Bool}
    (h : o.Profile R D I) {c : ℝ} (hc : Crosses I c) : c ∈ D := by
  by_contra hn
  obtain ⟨ε, he, hl⟩ := h.locally hn
  obtain ⟨ε', he', hx⟩ := hc
  have hm : 0 < min ε ε' / 2 := by positivity
  have h1 : min ε ε' / 2 < ε := by linarith [min_le_left ε ε']
  have h2 : min ε ε' / 2 < ε' := by linarith [min_le_right ε ε']
  refine hx _ hm h2 ?_
  rw [hl (c - min ε ε' / 2) (by linarith) (by linarith), hl (c + min ε ε' / 2) (by linarith) (by linarith)]

theorem cross_both {o : Obj Ext M} {R : Ray ℝ} {D : Finset ℝ} {I J : ℝ → Bool} (h : o.Profile R D J)
    {c : ℝ} (hc : c ∉ D) (want : Bool) :
    Crosses (fun t => both want (I t) (J t)) c ↔ Crosses I c ∧ J c = want := by
  obtain ⟨ε, he, hl⟩ := h.locally hc
  constructor
  · rintro ⟨ε', he', hx⟩
    have key : ∀ δ, 0 < δ → δ < min ε ε' → both want (I (c - δ)) (J c) ≠ both want (I (c + δ)) (J c) := by
      intro δ h0 h1
      have := hx δ h0 (lt_of_lt_of_le h1 (min_le_right _ _))
      have h2 := lt_of_lt_of_le h1 (min_le_left _ _)
      dsimp only at this
      rwa [hl (c - δ) (by linarith) (by linarith), hl (c + δ) (by linarith) (by linarith)] at this
    refine ⟨⟨min ε ε', by positivity, fun δ h0 h1 hE => key δ h0 h1 (by rw [hE])⟩, ?_⟩
    by_contra hw
    have hm : 0 < min ε ε' / 2 := by positivity
    refine key _ hm (by linarith [hm]) ?_
    cases want <;> cases hJ : J c <;> simp_all [both]
  · rintro ⟨⟨ε', he', hx⟩, hw⟩
    refine ⟨min ε ε', by positivity, fun δ h0 h1 hE => ?_⟩
    have h2 := lt_of_lt_of_le h1 (min_le_left _ _)
    dsimp only at hE
    rw [hl (c - δ) (by linarith) (by linarith), hl (c + δ) (by linarith) (by linarith), hw] at hE
    refine hx δ h0 (lt_of_lt_of_le h1 (min_le_right _ _)) ?_
    cases want <;> simpa [both] using hE

private theorem marchLoop_first (x y : Obj Ext M) (want : Bool) (R : Ray ℝ) {D D' : Finset ℝ} {I J : ℝ → Bool}
    (hx : x.Profile R D I) (hy : y.Profile R D' J) (hs : Separated D) (hd : Disjoint D D') (start : Vec Ext)
    (k0 : ℝ) (hk0 : 0 ≤ k0) (maxT : Ext) (lim : EReal) (hlim : CmpModel.key maxT = some lim) (n : Nat) :
    ∀ (k : ℝ) (tOff : Ext) (h : HitRecord Ext M) (r : Ray Ext), k0 ≤ k → k ∉ D → r.Is ⟨R.at k, R.dir⟩ →
      tOff.Is (k - k0) → x.intersect r = .ok (h, r) → (D.filter (k < ·)).card ≤ n →
      ∃ h', marchLoop x.intersect y.inside want maxT start n tOff h r = .ok (h', { r with start := start }) ∧
        ((∃ c, IsLeast {c | k < c ∧ Crosses I c ∧ J c = want} c ∧ h'.t.Is (c - k0)) ∨
         (h' = HitRecord.miss ∧ ∀ c > k, Crosses I c → J c = want → lim ≤ ((c - k0 : ℝ) : EReal))) := by
  induction n with
  | zero =>
    intro k tOff h r hk hkD hr hT hi hc
    refine ⟨HitRecord.miss, ?_, .inr ⟨rfl, fun c hck hcr _ => ?_⟩⟩
    · rw [marchLoop]
      simp only [bne_self_eq_false, Bool.and_false, Bool.false_and, Bool.false_eq_true, if_false]
    · exfalso
      have : c ∈ D.filter (k < ·) := Finset.mem_filter.2 ⟨hx.cross_mem hcr, hck⟩
      exact absurd (Finset.card_pos.2 ⟨c, this⟩) (by omega)
  | succ n ih =>
    intro k tOff h r hk hkD hr hT hi hc
    obtain ⟨h1, hi1, hcase⟩ := hx.hit k (hk0.trans hk) hkD r hr
    rw [hi] at hi1
    cases hi1
    rcases hcase with ⟨c, hl, hti⟩ | ⟨hno, hneg⟩
    swap
    · refine ⟨HitRecord.miss, ?_, .inr ⟨rfl, fun c hck hcr _ => absurd hcr (hno c hck)⟩⟩
      rw [marchLoop]
      simp only [hneg, Bool.false_and, Bool.false_eq_true, if_false]
    · obtain ⟨⟨hkc, hcr⟩, hmin⟩ := hl
      have hpos : (lit 0 <. h.t) = true := by
        rw [lit0_is.lt hti]; simpa using hkc
      have hlt : (h.t <. maxT) = decide (((c - k : ℝ) : EReal) < lim) := lt_key hti.key hlim
      by_cases hb : ((c - k : ℝ) : EReal) < lim
      swap
      · refine ⟨HitRecord.miss, ?_, .inr ⟨rfl, fun c' hck hcr' _ => ?_⟩⟩
        · rw [marchLoop]
          simp only [hpos, hlt, hb, decide_false, Bool.and_false, Bool.false_eq_true, if_false]
        · refine (not_lt.1 hb).trans (EReal.coe_le_coe_iff.2 ?_)
          have := hmin ⟨hck, hcr'⟩
          linarith
      · have hcD : c ∈ D := hx.cross_mem hcr
        have hcD' : c ∉ D' := Finset.disjoint_left.1 hd hcD
        have hpt : (r.at h.t).Is (R.at c) := by
          have := hr.at hti
          rwa [at_at, add_sub_cancel] at this
        have hins := hy.inside c (lt_of_le_of_lt (hk0.trans hk) hkc) hcD' _ hpt
        have hcond : (h.t >. lit 0 && (n + 1) != 0 && h.t <. maxT) = true := by
          rw [hpos, hlt, decide_eq_true hb]; rfl
        by_cases hw : J c = want
        · refine ⟨{ h with t := h.t + tOff }, ?_, .inl ⟨c, ⟨⟨hkc, hcr, hw⟩, fun c' hc' => hmin ⟨hc'.1, hc'.2.1⟩⟩, ?_⟩⟩
          · rw [marchLoop, if_pos hcond]
            simp only [hins, ok_bind, hw, beq_self_eq_true, if_true]
            rfl
          · have := hti.add hT
            rwa [show c - k + (k - k0) = c - k0 by ring] at this
        · have hdl : (h.t + tiny).Is (c - k + 1 / (1204 * 1024)) := hti.add tiny_is
          set k' : ℝ := c + 1 / (1204 * 1024) with hk'
          have hr1 : (⟨r.at (h.t + tiny), r.dir⟩ : Ray Ext).Is ⟨R.at k', R.dir⟩ := by
            refine ⟨?_, hr.2⟩
            have := hr.at hdl
            rwa [at_at, show k + (c - k + 1 / (1204 * 1024)) = k' by rw [hk']; ring] at this
          have hck' : c < k' := by rw [hk']; linarith
          have hkD' : k' ∉ D := fun hm => absurd (hs c hcD k' hm hck') (lt_irrefl _)
          have hnext : ∀ c', k < c' → Crosses I c' → J c' = want → k' < c' := by
            intro c' h1 h2 h3
            have hle := hmin ⟨h1, h2⟩
            have hne : c ≠ c' := fun e => hw (e ▸ h3)
            exact hs c hcD c' (hx.cross_mem h2) (lt_of_le_of_ne hle hne)
          obtain ⟨h2, hi2, -⟩ := hx.hit k' (by linarith) hkD' _ hr1
          have hcard : (D.filter (k' < ·)).card ≤ n := by
            have hsub : D.filter (k' < ·) ⊆ (D.filter (k < ·)).erase c := by
              intro d hd
              rw [Finset.mem_filter] at hd
              rw [Finset.mem_erase, Finset.mem_filter]
              exact ⟨by linarith [hd.2], hd.1, by linarith [hd.2]⟩
            have := Finset.card_le_card hsub
            rw [Finset.card_erase_of_mem (Finset.mem_filter.2 ⟨hcD, hkc⟩)] at this
            change _ ≤ (D.filter (k < ·)).card - 1 at this
            omega
          obtain ⟨h', hm, hres⟩ := ih k' (tOff + (h.t + tiny)) h2 ⟨r.at (h.t + tiny), r.dir⟩ (by linarith) hkD' hr1 (by
            have := hT.add hdl
            rwa [show k - k0 + (c - k + 1 / (1204 * 1024)) = k' - k0 by rw [hk']; ring] at this) hi2 hcard
          refine ⟨h', ?_, ?_⟩
          · rw [marchLoop, if_pos hcond]
            have hwb : (J c == want) = false := by simpa using hw
            simp only [hins, ok_bind, hwb, Bool.false_eq_true, if_false, hi2]
            exact hm
          · rcases hres with ⟨c', ⟨⟨h1, h2, h3⟩, hm'⟩, ht⟩ | ⟨hmiss, hall⟩
            · exact .inl ⟨c', ⟨⟨by linarith, h2, h3⟩, fun d hd => hm' ⟨hnext d hd.1 hd.2.1 hd.2.2, hd.2⟩⟩, ht⟩
            · exact .inr ⟨hmiss, fun d h1 h2 h3 => hall d (hnext d h1 h2 h3) h2 h3⟩

private theorem march_first (x y : Obj Ext M) (want : Bool) (R : Ray ℝ) {D D' : Finset ℝ} {I J : ℝ → Bool}
    (hx : x.Profile R D I) (hy : y.Profile R D' J) (hs : Separated D) (hd : Disjoint D D') (hn : D.card ≤ 100)
    (maxT : Ext) (lim : EReal) (hlim : CmpModel.key maxT = some lim) (k : ℝ) (hk : 0 ≤ k) (hkD : k ∉ D) (r : Ray Ext)
    (hr : r.Is ⟨R.at k, R.dir⟩) :
    ∃ h', march x.intersect y.inside want r maxT = .ok (h', r) ∧
      ((∃ c, IsLeast {c | k < c ∧ Crosses I c ∧ J c = want} c ∧ h'.t.Is (c - k)) ∨
       (h' = HitRecord.miss ∧ ∀ c > k, Crosses I c → J c = want → lim ≤ ((c - k : ℝ) : EReal))) := by
  obtain ⟨h, hi, -⟩ := hx.hit k hk hkD r hr
  obtain ⟨h', hm, hres⟩ := marchLoop_first x y want R hx hy hs hd r.start k hk maxT lim hlim 100 k (lit 0) h r le_rfl
    hkD hr (by rw [sub_self]; exact lit0_is) hi ((Finset.card_filter_le _ _).trans hn)
  refine ⟨h', ?_, hres⟩
  rw [march, hi]
  exact hm

private theorem miss_t : (lit 0 <. (HitRecord.miss : HitRecord Ext M).t) = false := by simp [HitRecord.miss]

private theorem front_cases (a b : HitRecord Ext M) (x y : ℝ) (ha : a.t.Is x) (hb : b.t.Is y) :
    HitRecord.frontmost a b =
      if y < x then (if 0 < y then b else if 0 < x then a else HitRecord.miss)
      else (if 0 < x then a else if 0 < y then b else HitRecord.miss) := by
  rw [HitRecord.frontmost, hb.lt ha]
  by_cases h : y < x
  · simp only [h, decide_true, if_true, lit0_is.lt ha, lit0_is.lt hb, decide_eq_true_eq]
  · simp only [h, decide_false, Bool.false_eq_true, if_false, lit0_is.lt ha, lit0_is.lt hb, decide_eq_true_eq]

private theorem both_comm (want i j : Bool) : both want i j = both want j i := by
  cases want <;> cases i <;> cases j <;> rfl

private theorem marchBoth_first (a b : Obj Ext M) (want : Bool) (R : Ray ℝ) {D D' : Finset ℝ} {I J : ℝ → Bool}
    (ha : a.Profile R D I) (hb : b.Profile R D' J) (hs : Separated D) (hs' : Separated D') (hd : Disjoint D D')
    (hn : D.card ≤ 100) (hn' : D'.card ≤ 100) (k : ℝ) (hk : 0 ≤ k) (hkD : k ∉ D) (hkD' : k ∉ D') (r : Ray Ext)
    (hr : r.Is ⟨R.at k, R.dir⟩) :
    ∃ h, marchBoth a.intersect a.inside b.intersect b.inside want r = .ok (h, r) ∧
      ((∃ c, IsLeast {c | k < c ∧ Crosses (fun t => both want (I t) (J t)) c} c ∧ h.t.Is (c - k)) ∨
       ((∀ c > k, ¬ Crosses (fun t => both want (I t) (J t)) c) ∧ (lit 0 <. h.t) = false)) := by
  have hcross : ∀ c, Crosses (fun t => both want (I t) (J t)) c ↔
      (Crosses I c ∧ J c = want) ∨ (Crosses J c ∧ I c = want) := by
    intro c
    by_cases hcD : c ∈ D
    · have hcD' : c ∉ D' := Finset.disjoint_left.1 hd hcD
      rw [cross_both hb hcD']
      constructor
      · exact .inl
      · rintro (h | h)
        · exact h
        · exact absurd (hb.cross_mem h.1) hcD'
    · have : (fun t => both want (I t) (J t)) = fun t => both want (J t) (I t) := by
        funext t; exact both_comm _ _ _
      rw [this, cross_both ha hcD]
      constructor
      · exact .inr
      · rintro (h | h)
        · exact absurd (ha.cross_mem h.1) hcD
        · exact h
  have hinf : CmpModel.key (GoFloat.inf : Ext) = some ⊤ := rfl
  obtain ⟨h1, e1, c1⟩ := march_first a b want R ha hb hs hd hn GoFloat.inf ⊤ hinf k hk hkD r hr
  rcases c1 with ⟨c, ⟨⟨hkc, hcr, hw⟩, hmin⟩, ht⟩ | ⟨rfl, hnone⟩
  · have hp : (lit 0 <. h1.t) = true := by rw [lit0_is.lt ht]; simpa using hkc
    obtain ⟨h2, e2, c2⟩ := march_first b a want R hb ha hs' hd.symm hn' h1.t _ ht.key k hk hkD' r hr
    refine ⟨HitRecord.frontmost h1 h2, ?_, .inl ?_⟩
    · simp only [marchBoth, e1, ok_bind, hp, if_true, e2]; rfl
    · rcases c2 with ⟨c', ⟨⟨hkc', hcr', hw'⟩, hmin'⟩, ht'⟩ | ⟨rfl, hnone⟩
      · rw [front_cases h1 h2 _ _ ht ht']
        by_cases hcc : c' - k < c - k
        · rw [if_pos hcc, if_pos (by linarith)]
          refine ⟨c', ⟨⟨hkc', (hcross _).2 (.inr ⟨hcr', hw'⟩)⟩, fun d hdm => ?_⟩, ht'⟩
          rcases (hcross d).1 hdm.2 with g | g
          · linarith [hmin ⟨hdm.1, g⟩]
          · exact hmin' ⟨hdm.1, g⟩
        · rw [if_neg hcc, if_pos (by linarith)]
          refine ⟨c, ⟨⟨hkc, (hcross _).2 (.inl ⟨hcr, hw⟩)⟩, fun d hdm => ?_⟩, ht⟩
          rcases (hcross d).1 hdm.2 with g | g
          · exact hmin ⟨hdm.1, g⟩
          · linarith [hmin' ⟨hdm.1, g⟩]
      · rw [front_cases h1 HitRecord.miss _ 0 ht lit0_is]
        rw [if_pos (by linarith), if_neg (lt_irrefl _), if_pos (by linarith)]
        refine ⟨c, ⟨⟨hkc, (hcross _).2 (.inl ⟨hcr, hw⟩)⟩, fun d hdm => ?_⟩, ht⟩
        rcases (hcross d).1 hdm.2 with g | g
        · exact hmin ⟨hdm.1, g⟩
        · have := EReal.coe_le_coe_iff.1 (hnone d hdm.1 g.1 g.2)
          linarith
  · have hnone' : ∀ c > k, Crosses I c → J c ≠ want := fun c h1 h2 h3 =>
      absurd (hnone c h1 h2 h3) (not_le.2 (EReal.coe_lt_top _))
    obtain ⟨h2, e2, c2⟩ := march_first b a want R hb ha hs' hd.symm hn' GoFloat.inf ⊤ hinf k hk hkD' r hr
    refine ⟨HitRecord.frontmost HitRecord.miss h2, ?_, ?_⟩
    · simp only [marchBoth, e1, ok_bind, miss_t, Bool.false_eq_true, if_false, e2]; rfl
    · rcases c2 with ⟨c', ⟨⟨hkc', hcr', hw'⟩, hmin'⟩, ht'⟩ | ⟨rfl, hnone⟩
      · left
        rw [front_cases HitRecord.miss h2 0 _ lit0_is ht', if_neg (by linarith), if_neg (lt_irrefl _),
          if_pos (by linarith)]
        refine ⟨c', ⟨⟨hkc', (hcross _).2 (.inr ⟨hcr', hw'⟩)⟩, fun d hdm => ?_⟩, ht'⟩
        rcases (hcross d).1 hdm.2 with g | g
        · exact absurd g.2 (hnone' d hdm.1 g.1)
        · exact hmin' ⟨hdm.1, g⟩
      · right
        refine ⟨fun d hdk hc => ?_, ?_⟩
        · rcases (hcross d).1 hc with g | g
          · exact absurd g.2 (hnone' d hdk g.1)
          · exact absurd (hnone d hdk g.1 g.2) (not_le.2 (EReal.coe_lt_top _))
        · rw [front_cases HitRecord.miss HitRecord.miss 0 0 lit0_is lit0_is, if_neg (lt_irrefl _),
            if_neg (lt_irrefl _), if_neg (lt_irrefl _)]
          exact miss_t

private theorem marchLoop_limit (x y : Obj Ext M) (want : Bool) (R : Ray ℝ) {D D' : Finset ℝ} {I J : ℝ → Bool}
    (hx : x.Profile R D I) (hy : y.Profile R D' J) (hs : Separated D) (hd : Disjoint D D') (hD : ∀ c ∈ D, Crosses I c)
    (start : Vec Ext) (maxT : Ext) (n : Nat) :
    ∀ (k : ℝ) (tOff : Ext) (h : HitRecord Ext M) (r : Ray Ext), 0 ≤ k → k ∉ D → r.Is ⟨R.at k, R.dir⟩ →
      x.intersect r = .ok (h, r) → (∀ c ∈ D, k < c → J c = want → n ≤ (D.filter fun d => k < d ∧ d < c).card) →
      marchLoop x.intersect y.inside want maxT start n tOff h r = .ok (HitRecord.miss, { r with start := start }) := by
  induction n with
  | zero =>
    intro k tOff h r hk hkD hr hi hc
    rw [marchLoop]
    simp only [bne_self_eq_false, Bool.and_false, Bool.false_and, Bool.false_eq_true, if_false]
  | succ n ih =>
    intro k tOff h r hk hkD hr hi hc
    by_cases hcond : (h.t >. lit 0 && (n + 1) != 0 && h.t <. maxT) = true
    swap
    · rw [marchLoop, if_neg hcond]
    obtain ⟨h1, hi1, hcase⟩ := hx.hit k hk hkD r hr
    rw [hi] at hi1
    cases hi1
    rcases hcase with ⟨c, ⟨⟨hkc, hcr⟩, hmin⟩, hti⟩ | ⟨-, hneg⟩
    swap
    · simp only [hneg, Bool.false_and, Bool.false_eq_true] at hcond
    have hcD : c ∈ D := hx.cross_mem hcr
    have hpt : (r.at h.t).Is (R.at c) := by
      have := hr.at hti
      rwa [at_at, add_sub_cancel] at this
    have hins := hy.inside c (lt_of_le_of_lt hk hkc) (Finset.disjoint_left.1 hd hcD) _ hpt
    have hw : J c ≠ want := by
      intro hw
      have := hc c hcD hkc hw
      have e : (D.filter fun d => k < d ∧ d < c) = ∅ := by
        rw [Finset.filter_eq_empty_iff]
        rintro d hd ⟨h1, h2⟩
        exact absurd (hmin ⟨h1, hD d hd⟩) (not_le.2 h2)
      rw [e, Finset.card_empty] at this
      omega
    have hdl : (h.t + tiny).Is (c - k + 1 / (1204 * 1024)) := hti.add tiny_is
    set k' : ℝ := c + 1 / (1204 * 1024) with hk'
    have hr1 : (⟨r.at (h.t + tiny), r.dir⟩ : Ray Ext).Is ⟨R.at k', R.dir⟩ := by
      refine ⟨?_, hr.2⟩
      have := hr.at hdl
      rwa [at_at, show k + (c - k + 1 / (1204 * 1024)) = k' by rw [hk']; ring] at this
    have hck' : c < k' := by rw [hk']; linarith
    have hkD' : k' ∉ D := fun hm => absurd (hs c hcD k' hm hck') (lt_irrefl _)
    obtain ⟨h2, hi2, -⟩ := hx.hit k' (by linarith) hkD' _ hr1
    have hm := ih k' (tOff + (h.t + tiny)) h2 ⟨r.at (h.t + tiny), r.dir⟩ (by linarith) hkD' hr1 hi2 (by
      intro c' hc' hlt hw'
      have h1 := hc c' hc' (by linarith) hw'
      have hsub : (D.filter fun d => k < d ∧ d < c') ⊆ insert c (D.filter fun d => k' < d ∧ d < c') := by
        intro d hd
        rw [Finset.mem_filter] at hd
        rw [Finset.mem_insert, Finset.mem_filter]
        rcases (hmin ⟨hd.2.1, hD d hd.1⟩).eq_or_lt with e | e
        · exact .inl e.symm
        · exact .inr ⟨hd.1, hs c hcD d hd.1 e, hd.2.2⟩
      have h2 := (Finset.card_le_card hsub).trans (Finset.card_insert_le _ _)
      omega)
    rw [marchLoop, if_pos hcond]
    have hwb : (J c == want) = false := by simpa using hw
    simp only [hins, ok_bind, hwb, Bool.false_eq_true, if_false, hi2]
    exact hm

/-- If the surface of `a` inside `b` only comes after a hundred other crossings of `a`, and the surface of `b` is outside
`a`, the intersection of the two reports nothing. -/
theorem and_limit (a b : Obj Ext M) (R : Ray ℝ) {D D' : Finset ℝ} {I J : ℝ → Bool}
    (ha : a.Profile R D I) (hb : b.Profile R D' J) (hs : Separated D) (hs' : Separated D') (hd : Disjoint D D')
    (hD : ∀ c ∈ D, Crosses I c) (hn' : D'.card ≤ 100) (k : ℝ) (hk : 0 ≤ k) (hkD : k ∉ D) (hkD' : k ∉ D') (r : Ray Ext)
    (hr : r.Is ⟨R.at k, R.dir⟩) (hfar : ∀ c ∈ D, k < c → J c = true → 100 ≤ (D.filter fun d => k < d ∧ d < c).card)
    (hout : ∀ c > k, Crosses J c → I c = false) :
    ∃ h, (Obj.and a b).intersect r = .ok (h, r) ∧ (lit 0 <. h.t) = false := by
  obtain ⟨h, hi, -⟩ := ha.hit k hk hkD r hr
  have e1 : march a.intersect b.inside true r GoFloat.inf = .ok (HitRecord.miss, r) := by
    rw [march, hi]
    exact marchLoop_limit a b true R ha hb hs hd hD r.start GoFloat.inf 100 k (lit 0) h r hk hkD hr hi hfar
  obtain ⟨h2, e2, c2⟩ := march_first b a true R hb ha hs' hd.symm hn' GoFloat.inf ⊤ rfl k hk hkD' r hr
  rcases c2 with ⟨c', ⟨⟨hkc', hcr', hw'⟩, -⟩, -⟩ | ⟨rfl, -⟩
  · rw [hout c' hkc' hcr'] at hw'
    cases hw'
  · refine ⟨HitRecord.frontmost HitRecord.miss HitRecord.miss, ?_, ?_⟩
    · simp only [Obj.intersect, marchBoth, e1, ok_bind, miss_t, Bool.false_eq_true, if_false, e2]; rfl
    · rw [front_cases HitRecord.miss HitRecord.miss 0 0 lit0_is lit0_is, if_neg (lt_irrefl _),
        if_neg (lt_irrefl _), if_neg (lt_irrefl _)]
      exact miss_t

private theorem const_both {a b : Obj Ext M} (want : Bool) {R : Ray ℝ} {D D' : Finset ℝ} {I J : ℝ → Bool}
    (ha : a.Profile R D I) (hb : b.Profile R D' J) (t t' : ℝ) (htt : t < t') (hd : ∀ d ∈ D ∪ D', d < t ∨ t' < d) :
    both want (I t) (J t) = both want (I t') (J t') := by
  rw [ha.const t t' htt fun d m => hd d (Finset.mem_union_left _ m),
    hb.const t t' htt fun d m => hd d (Finset.mem_union_right _ m)]

private theorem sep_left {D D' : Finset ℝ} (h : Separated (D ∪ D')) : Separated D :=
  fun c hc d hd => h c (Finset.mem_union_left _ hc) d (Finset.mem_union_left _ hd)

private theorem sep_right {D D' : Finset ℝ} (h : Separated (D ∪ D')) : Separated D' :=
  fun c hc d hd => h c (Finset.mem_union_right _ hc) d (Finset.mem_union_right _ hd)

/-- The intersection of two solids with separated surface crossings (at most 100 each) is, along the
ray, the solid of the points in both: it reports the first crossing of that solid from every start. -/
theorem C17_and_first_partial (a b : Obj Ext M) (R : Ray ℝ) (D D' : Finset ℝ) (I J : ℝ → Bool)
    (ha : a.Profile R D I) (hb : b.Profile R D' J) (hs : Separated (D ∪ D')) (hd : Disjoint D D')
    (hn : D.card ≤ 100) (hn' : D'.card ≤ 100) :
    (Obj.and a b).Profile R (D ∪ D') (fun t => I t && J t) := by
  refine ⟨fun t t' h g => const_both true ha hb t t' h g, fun t h0 ht p hp => ?_, fun k hk hkD r hr => ?_⟩
  · rw [Finset.mem_union, not_or] at ht
    simp only [Obj.inside, ha.inside t h0 ht.1 p hp, hb.inside t h0 ht.2 p hp, ok_bind]
    cases I t <;> rfl
  · rw [Finset.mem_union, not_or] at hkD
    simp only [Obj.intersect]
    exact marchBoth_first a b true R ha hb (sep_left hs) (sep_right hs) hd hn hn' k hk hkD.1 hkD.2 r hr

/-- The union of two solids with separated surface crossings (at most 100 each) is, along the ray, the
solid of the points in either: it reports the first crossing of that solid from every start. -/
theorem C17_or_first_partial (a b : Obj Ext M) (R : Ray ℝ) (D D' : Finset ℝ) (I J : ℝ → Bool)
    (ha : a.Profile R D I) (hb : b.Profile R D' J) (hs : Separated (D ∪ D')) (hd : Disjoint D D')
    (hn : D.card ≤ 100) (hn' : D'.card ≤ 100) :
    (Obj.or a b).Profile R (D ∪ D') (fun t => I t || J t) := by
  refine ⟨fun t t' h g => const_both false ha hb t t' h g, fun t h0 ht p hp => ?_, fun k hk hkD r hr => ?_⟩
  · rw [Finset.mem_union, not_or] at ht
    simp only [Obj.inside, ha.inside t h0 ht.1 p hp, hb.inside t h0 ht.2 p hp, ok_bind]
    cases I t <;> rfl
  · rw [Finset.mem_union, not_or] at hkD
    simp only [Obj.intersect]
    exact marchBoth_first a b false R ha hb (sep_left hs) (sep_right hs) hd hn hn' k hk hkD.1 hkD.2 r hr

/-- The complement has the same crossings. -/
theorem C17_not_first (a : Obj Ext M) (R : Ray ℝ) (D : Finset ℝ) (I : ℝ → Bool) (ha : a.Profile R D I) :
    (Obj.not a).Profile R D (fun t => !I t) := by
  have hc : ∀ c, Crosses (fun t => !I t) c ↔ Crosses I c := by
    intro c
    unfold Crosses
    simp only [ne_eq, Bool.not_eq_eq_eq_not, Bool.not_not]
  refine ⟨fun t t' h g => by rw [ha.const t t' h g], fun t h0 ht p hp => ?_, fun k hk hkD r hr => ?_⟩
  · simp only [Obj.inside, ha.inside t h0 ht p hp, ok_bind]; rfl
  · obtain ⟨h, e, hcase⟩ := ha.hit k hk hkD r hr
    refine ⟨{ h with normal := h.normal.mul (lit (-1)) }, ?_, ?_⟩
    · simp only [Obj.intersect, e, ok_bind]; rfl
    · simp only [hc]; exact hcase

/-- `Restrict(a, b)` reports the first crossing of the surface of `a` that is inside `b`, and no hit
if there is none. -/
theorem C17_restrict_first_partial (a b : Obj Ext M) (R : Ray ℝ) (D D' : Finset ℝ) (I J : ℝ → Bool)
    (ha : a.Profile R D I) (hb : b.Profile R D' J) (hs : Separated D) (hd : Disjoint D D') (hn : D.card ≤ 100)
    (k : ℝ) (hk : 0 ≤ k) (hkD : k ∉ D) (r : Ray Ext) (hr : r.Is ⟨R.at k, R.dir⟩) :
    ∃ h, (Obj.restrict a b).intersect r = .ok (h, r) ∧
      ((∃ c, IsLeast {c | k < c ∧ Crosses I c ∧ J c = true} c ∧ h.t.Is (c - k)) ∨
       ((∀ c > k, Crosses I c → J c = false) ∧ (lit 0 <. h.t) = false)) := by
  simp only [Obj.intersect]
  obtain ⟨h, e, hc⟩ := march_first a b true R ha hb hs hd hn GoFloat.inf ⊤ rfl k hk hkD r hr
  refine ⟨h, e, ?_⟩
  rcases hc with hc | ⟨rfl, hnone⟩
  · exact .inl hc
  · refine .inr ⟨fun c h1 h2 => ?_, miss_t⟩
    by_contra h3
    exact absurd (hnone c h1 h2 (by simpa using h3)) (not_le.2 (EReal.coe_lt_top _))

/-! ## Boxes and spheres have profiles -/

/-- Membership in the open interval. -/
noncomputable def within (e x : ℝ) (t : ℝ) : Bool := decide (e < t ∧ t < x)

theorem crosses_within {e x : ℝ} (hex : e < x) (c : ℝ) : Crosses (within e x) c ↔ c = e ∨ c = x := by
  constructor
  · rintro ⟨ε, he, hx⟩
    by_contra hn
    push Not at hn
    obtain ⟨δ, h0, h1, h2, h3⟩ : ∃ δ > 0, δ < ε ∧ δ < |c - e| ∧ δ < |c - x| := by
      have a1 : 0 < |c - e| := abs_pos.2 (sub_ne_zero.2 hn.1)
      have a2 : 0 < |c - x| := abs_pos.2 (sub_ne_zero.2 hn.2)
      have hm : 0 < min ε (min |c - e| |c - x|) := by positivity
      refine ⟨min ε (min |c - e| |c - x|) / 2, by positivity, ?_, ?_, ?_⟩
      · linarith [min_le_left ε (min |c - e| |c - x|)]
      · linarith [(min_le_right ε (min |c - e| |c - x|)).trans (min_le_left _ _)]
      · linarith [(min_le_right ε (min |c - e| |c - x|)).trans (min_le_right _ _)]
    refine hx δ h0 h1 ?_
    unfold within
    rw [decide_eq_decide]
    rcases lt_or_gt_of_ne hn.1 with g | g <;> rcases lt_or_gt_of_ne hn.2 with g' | g'
    · rw [abs_of_neg (by linarith)] at h2
      constructor <;> intro h <;> exfalso <;> linarith [h.1, h.2]
    · linarith
    · rw [abs_of_pos (by linarith)] at h2
      rw [abs_of_neg (by linarith)] at h3
      constructor <;> intro _ <;> constructor <;> linarith
    · rw [abs_of_pos (by linarith)] at h3
      constructor <;> intro h <;> exfalso <;> linarith [h.1, h.2]
  · rintro (rfl | rfl)
    · refine ⟨x - c, by linarith, fun δ h0 h1 h => ?_⟩
      simp only [within, decide_eq_decide] at h
      have := (h.2 ⟨by linarith, by linarith⟩).1
      linarith
    · refine ⟨c - e, by linarith, fun δ h0 h1 h => ?_⟩
      simp only [within, decide_eq_decide] at h
      have := (h.1 ⟨by linarith, by linarith⟩).2
      linarith

private theorem interval_profile (o : Obj Ext M) (R : Ray ℝ) (e x : ℝ) (hex : e < x)
    (hin : ∀ t > 0, t ≠ e → t ≠ x → ∀ p : Vec Ext, p.Is (R.at t) → o.inside p = .ok (within e x t))
    (hit : ∀ k ≥ 0, k ≠ e → k ≠ x → ∀ r : Ray Ext, r.Is ⟨R.at k, R.dir⟩ → ∃ h, o.intersect r = .ok (h, r) ∧
      (k < e → h.t.Is (e - k)) ∧ (e < k → k < x → h.t.Is (x - k)) ∧ (x < k → (lit 0 <. h.t) = false)) :
    o.Profile R {e, x} (within e x) := by
  refine ⟨fun t t' htt hd => ?_, fun t h0 ht p hp => ?_, fun k hk hkD r hr => ?_⟩
  · have h1 := hd e (by simp)
    have h2 := hd x (by simp)
    unfold within
    rw [decide_eq_decide]
    rcases h1 with h1 | h1 <;> rcases h2 with h2 | h2 <;>
      constructor <;> rintro ⟨a, b⟩ <;> constructor <;> linarith
  · simp only [Finset.mem_insert, Finset.mem_singleton, not_or] at ht
    exact hin t h0 ht.1 ht.2 p hp
  · simp only [Finset.mem_insert, Finset.mem_singleton, not_or] at hkD
    obtain ⟨h, e1, g1, g2, g3⟩ := hit k hk hkD.1 hkD.2 r hr
    refine ⟨h, e1, ?_⟩
    simp only [crosses_within hex]
    rcases lt_or_gt_of_ne hkD.1 with g | g
    · exact .inl ⟨e, ⟨⟨g, .inl rfl⟩, by rintro d ⟨-, rfl | rfl⟩ <;> linarith⟩, g1 g⟩
    · rcases lt_or_gt_of_ne hkD.2 with g' | g'
      · exact .inl ⟨x, ⟨⟨g', .inr rfl⟩, by rintro d ⟨hd, rfl | rfl⟩ <;> linarith⟩, g2 g g'⟩
      · exact .inr ⟨by rintro c hc (rfl | rfl) <;> linarith, g3 g'⟩

theorem strict_coord {a d lo hi e x t : ℝ} (hd : d = 0 → a ≠ lo ∧ a ≠ hi) (he : lo ≤ a + d * e ∧ a + d * e ≤ hi)
    (hx : lo ≤ a + d * x ∧ a + d * x ≤ hi) (h1 : e < t) (h2 : t < x) : lo < a + d * t ∧ a + d * t < hi := by
  rcases lt_trichotomy d 0 with g | g | g
  · constructor <;> nlinarith
  · subst g
    obtain ⟨g1, g2⟩ := hd rfl
    simp only [zero_mul, add_zero] at *
    exact ⟨lt_of_le_of_ne he.1 (Ne.symm g1), lt_of_le_of_ne he.2 g2⟩
  · constructor <;> nlinarith

/-- A box whose points on the line are the segment from `e` to `x` is, along the ray, the interval
between `e` and `x`. -/
theorem C17_box_profile (b : BBox Ext) (B : BBox ℝ) (hb : b.Is B) (hB : B.Proper) (mat : Option M) (R : Ray ℝ)
    (hd : R.dir ≠ ⟨0, 0, 0⟩) (hn : B.NotInFace R) (e x : ℝ) (hex : e < x)
    (hm : ∀ t, B.Mem (R.at t) ↔ e ≤ t ∧ t ≤ x) :
    (Obj.box b mat).Profile R {e, x} (within e x) := by
  have he := (hm e).2 ⟨le_rfl, hex.le⟩
  have hx := (hm x).2 ⟨hex.le, le_rfl⟩
  have hstrict : ∀ t, e < t → t < x → (B.min.x < (R.at t).x ∧ (R.at t).x < B.max.x) ∧
      (B.min.y < (R.at t).y ∧ (R.at t).y < B.max.y) ∧ (B.min.z < (R.at t).z ∧ (R.at t).z < B.max.z) := by
    intro t h1 h2
    obtain ⟨a1, a2, a3, a4, a5, a6⟩ := he
    obtain ⟨b1, b2, b3, b4, b5, b6⟩ := hx
    simp only [Ray.at, Vec.madd] at *
    rw [mul_comm] at a1 a2 a3 a4 a5 a6 b1 b2 b3 b4 b5 b6
    simp only [mul_comm t]
    exact ⟨strict_coord hn.1 ⟨a1, a2⟩ ⟨b1, b2⟩ h1 h2, strict_coord hn.2.1 ⟨a3, a4⟩ ⟨b3, b4⟩ h1 h2,
      strict_coord hn.2.2 ⟨a5, a6⟩ ⟨b5, b6⟩ h1 h2⟩
  have hface : ∀ t, B.OnSurface (R.at t) → t = e ∨ t = x := by
    rintro t ⟨h1, h2⟩
    have h3 := (hm t).1 h1
    by_contra hne
    push Not at hne
    obtain ⟨⟨c1, c2⟩, ⟨c3, c4⟩, c5, c6⟩ := hstrict t (lt_of_le_of_ne h3.1 (Ne.symm hne.1)) (lt_of_le_of_ne h3.2 hne.2)
    rcases h2 with h2 | h2 | h2 | h2 | h2 | h2 <;> linarith
  refine interval_profile _ R e x hex (fun t _ hte htx p hp => ?_) (fun k _ hke hkx r hr => ?_)
  · have hi : b.inside p = within e x t := by
      unfold BBox.inside within
      rw [hb.1.1.lt hp.1, hp.1.lt hb.2.1, hb.1.2.1.lt hp.2.1, hp.2.1.lt hb.2.2.1, hb.1.2.2.lt hp.2.2, hp.2.2.lt hb.2.2.2]
      rw [Bool.eq_iff_iff]
      simp only [Bool.and_eq_true, decide_eq_true_eq]
      constructor
      · rintro ⟨⟨⟨⟨⟨c1, c2⟩, c3⟩, c4⟩, c5⟩, c6⟩
        obtain ⟨g1, g2⟩ := (hm t).1 ⟨c1.le, c2.le, c3.le, c4.le, c5.le, c6.le⟩
        exact ⟨lt_of_le_of_ne g1 (Ne.symm hte), lt_of_le_of_ne g2 htx⟩
      · rintro ⟨g1, g2⟩
        obtain ⟨⟨c1, c2⟩, ⟨c3, c4⟩, c5, c6⟩ := hstrict t g1 g2
        exact ⟨⟨⟨⟨⟨c1, c2⟩, c3⟩, c4⟩, c5⟩, c6⟩
    simp only [Obj.inside, hi]
  · have hnk : B.NotInFace ⟨R.at k, R.dir⟩ := by
      obtain ⟨n1, n2, n3⟩ := hn
      refine ⟨fun h => ?_, fun h => ?_, fun h => ?_⟩
      · have := n1 h; simpa [Ray.at, Vec.madd, show R.dir.x = 0 from h] using this
      · have := n2 h; simpa [Ray.at, Vec.madd, show R.dir.y = 0 from h] using this
      · have := n3 h; simpa [Ray.at, Vec.madd, show R.dir.z = 0 from h] using this
    have hoff : ¬ B.OnSurface (⟨R.at k, R.dir⟩ : Ray ℝ).start := fun h => by
      rcases hface k h with g | g
      · exact hke g
      · exact hkx g
    have hiff := C19_off_surface b B hb hB r ⟨R.at k, R.dir⟩ hr hd hnk hoff
    simp only [at_at, hm] at hiff
    have hhit : ∃ h, (Obj.box b mat).intersect r = .ok (h, r) ∧ b.hit mat r = .ok h := by
      obtain ⟨h, e1, -⟩ := C19_box_object b B hb hB r ⟨R.at k, R.dir⟩ hr hd hnk mat
      exact ⟨h, by simp only [Obj.intersect, e1, ok_bind]; rfl, e1⟩
    obtain ⟨h, e1, e2⟩ := hhit
    obtain ⟨h', e3, hmiss, hhit⟩ := C19_box_object b B hb hB r ⟨R.at k, R.dir⟩ hr hd hnk mat
    rw [e2] at e3
    cases e3
    refine ⟨h, e1, ?_⟩
    by_cases hkx' : k < x
    · have hi : b.intersects r = true := hiff.2 (by
        rcases le_or_gt e k with g | g
        · exact ⟨(x - k), by linarith, by constructor <;> linarith⟩
        · exact ⟨(x - k), by linarith, by constructor <;> linarith⟩)
      obtain ⟨t, N, ht, h0, hs, -⟩ := hhit hi
      obtain ⟨t', ht', h0', hs', hfirst, -⟩ := C19_distance b B hb hB r ⟨R.at k, R.dir⟩ hr hd hnk hi
      have hbt : h.t = b.intersect r := by
        rw [BBox.hit] at e2
        have : (b.intersect r >. lit 0) = true := hi
        simp only [this, Bool.not_true, Bool.false_eq_true, if_false] at e2
        obtain ⟨n, _, e3⟩ := bind_eq_ok.1 e2
        cases e3
        rfl
      have htt : t' = t := by
        obtain ⟨s1, q1⟩ := ht'
        obtain ⟨s2, q2⟩ := ht
        rw [hbt, q1] at q2
        cases q2; rfl
      subst htt
      rw [at_at] at hs
      simp only [at_at, hm] at hfirst
      refine ⟨fun g => ?_, fun g _ => ?_, fun g => by linarith⟩
      · have hsu := hfirst (by rintro ⟨q, -⟩; linarith) (e - k) (by linarith)
        rcases hface _ hs with q | q
        · rw [show e - k = t' by linarith]; exact ht
        · exact absurd ⟨by linarith, by linarith⟩ (hsu (by linarith))
      · rcases hface _ hs with q | q
        · linarith
        · rw [show x - k = t' by linarith]; exact ht
    · have hxk : x < k := lt_of_le_of_ne (not_lt.1 hkx') (Ne.symm hkx)
      have hi : b.intersects r = false := by
        rw [← Bool.not_eq_true, hiff]
        rintro ⟨t, h0, -, h2⟩
        linarith
      rw [hmiss hi]
      exact ⟨fun g => by linarith, fun _ g => by linarith, fun _ => miss_t⟩

/-- The squared distance. -/
noncomputable def d2 (p c : Vec ℝ) : ℝ := (p.x - c.x) ^ 2 + (p.y - c.y) ^ 2 + (p.z - c.z) ^ 2

private theorem coord_bound {u r w : ℝ} (hr : 0 ≤ r) (h : u ^ 2 + w ≤ r ^ 2) (hw : 0 ≤ w) : -r ≤ u ∧ u ≤ r :=
  abs_le.1 (abs_le_of_sq_le_sq (by linarith) hr)

private theorem lit2_is : (lit 2 : Ext).Is 2 := by simpa using Ext.Is.lit 2
private theorem lit4_is : (lit 4 : Ext).Is 4 := by simpa using Ext.Is.lit 4
private theorem lit1_is : (lit 1 : Ext).Is 1 := by simpa using Ext.Is.lit 1

private theorem sphere_bounds (m : Option M) {diam : Ext} {d : ℝ} (hdm : diam.Is d) (h0 : 0 ≤ d) {c : Vec Ext} {C : Vec ℝ}
    (hc : c.Is C) {p : Vec Ext} {P : Vec ℝ} (hp : p.Is P) (h : d2 P C ≤ (d / 2) ^ 2) :
    (Obj.sphereQ m diam c).bounds.inside p = true := by
  have hr : (diam / lit 2).Is (d / 2) := hdm.div lit2_is two_ne_zero
  have lo : ∀ {q : Ext} {Q : ℝ}, q.Is Q → (-(diam / lit 2) + q + -tiny).Is (-(d / 2) + Q + -(1 / (1204 * 1024))) :=
    fun hq => ((hr.neg).add hq).add tiny_is.neg
  have hi : ∀ {q : Ext} {Q : ℝ}, q.Is Q → ((diam / lit 2) + q + tiny).Is ((d / 2) + Q + 1 / (1204 * 1024)) :=
    fun hq => (hr.add hq).add tiny_is
  unfold d2 at h
  have hx := coord_bound (u := P.x - C.x) (w := (P.y - C.y) ^ 2 + (P.z - C.z) ^ 2) (r := d / 2) (by positivity)
    (by linarith) (by positivity)
  have hy := coord_bound (u := P.y - C.y) (w := (P.x - C.x) ^ 2 + (P.z - C.z) ^ 2) (r := d / 2) (by positivity)
    (by linarith) (by positivity)
  have hz := coord_bound (u := P.z - C.z) (w := (P.x - C.x) ^ 2 + (P.y - C.y) ^ 2) (r := d / 2) (by positivity)
    (by linarith) (by positivity)
  unfold BBox.inside
  simp only [Obj.sphereQ, BBox.translated, BBox.withMargin, Vec.add]
  rw [(lo hc.1).lt hp.1, hp.1.lt (hi hc.1), (lo hc.2.1).lt hp.2.1, hp.2.1.lt (hi hc.2.1), (lo hc.2.2).lt hp.2.2,
    hp.2.2.lt (hi hc.2.2)]
  simp only [Bool.and_eq_true, decide_eq_true_eq]
  refine ⟨⟨⟨⟨⟨?_, ?_⟩, ?_⟩, ?_⟩, ?_⟩, ?_⟩ <;> norm_num <;> linarith [hx.1, hx.2, hy.1, hy.2, hz.1, hz.2]

private theorem sqrt_is {a : Ext} {x : ℝ} (h : a.Is x) (h0 : 0 ≤ x) : (GoFloat.sqrt a).Is (Real.sqrt x) := by
  obtain ⟨s, rfl⟩ := h
  refine ⟨s, ?_⟩
  change (if x < 0 then Ext.nan else Ext.num (Real.sqrt x) s) = _
  rw [if_neg (not_lt.2 h0)]

theorem sphere_inside (m : Option M) {diam : Ext} {d : ℝ} (hdm : diam.Is d) (h0 : 0 ≤ d) {c : Vec Ext} {C : Vec ℝ}
    (hc : c.Is C) {p : Vec Ext} {P : Vec ℝ} (hp : p.Is P) :
    (Obj.sphere m diam c).inside p = .ok (decide (d2 P C < (d / 2) ^ 2)) := by
  have hr : (diam / lit 2).Is (d / 2) := hdm.div lit2_is two_ne_zero
  have hv : (((Obj.sphereQ m diam c).a.mul3 (p.sub c)).dot (p.sub c)).Is (d2 P C) := by
    have h1 := (hp.sub hc)
    have := (((lit1_is.mul h1.1).mul h1.1).add ((lit1_is.mul h1.2.1).mul h1.2.1)).add ((lit1_is.mul h1.2.2).mul h1.2.2)
    have e : d2 P C = 1 * (P.sub C).x * (P.sub C).x + 1 * (P.sub C).y * (P.sub C).y + 1 * (P.sub C).z * (P.sub C).z := by
      simp only [d2, Vec.sub]; ring
    rw [e]
    exact this
  have hlt := hv.lt (hr.mul hr)
  simp only [Obj.sphere, Obj.inside, Quadric.inside]
  congr 1
  have e2 : (decide (d2 P C < (d / 2) ^ 2)) = decide (d2 P C < d / 2 * (d / 2)) := by rw [sq]
  rw [e2, ← hlt]
  by_cases hb : (Obj.sphereQ m diam c).bounds.inside p = true
  · rw [hb]; rfl
  · rw [Bool.not_eq_true] at hb
    rw [hb]
    simp only [Bool.not_false, if_true]
    rw [hlt, eq_comm, decide_eq_false_iff_not]
    intro hlt'
    have := sphere_bounds m hdm h0 hc hp (by rw [sq]; exact hlt'.le)
    rw [hb] at this
    cases this

/-- A sphere whose surface the line meets at two points `e < x` is, along the ray, the interval
between them. -/
theorem C17_sphere_profile (m : Option M) (diam : Ext) (d : ℝ) (hdm : diam.Is d) (h0 : 0 ≤ d) (c : Vec Ext) (C : Vec ℝ)
    (hc : c.Is C) (R : Ray ℝ) (hd : R.dir ≠ ⟨0, 0, 0⟩) (e x : ℝ) (hex : e < x)
    (he : AtDistance (R.at e) C (d / 2)) (hx : AtDistance (R.at x) C (d / 2)) :
    (Obj.sphere m diam c).Profile R {e, x} (within e x) := by
  obtain ⟨A, hA⟩ : ∃ A, A = R.dir.x ^ 2 + R.dir.y ^ 2 + R.dir.z ^ 2 := ⟨_, rfl⟩
  have hA0 : 0 < A := by
    have : R.dir.x ≠ 0 ∨ R.dir.y ≠ 0 ∨ R.dir.z ≠ 0 := by
      by_contra h
      push Not at h
      exact hd (Vec.ext h.1 h.2.1 h.2.2)
    rw [hA]
    rcases this with h | h | h <;> positivity
  obtain ⟨B0, hB0⟩ : ∃ B0, B0 = R.dir.x * (R.start.x - C.x) + R.dir.y * (R.start.y - C.y) + R.dir.z * (R.start.z - C.z) :=
    ⟨_, rfl⟩
  have hq : ∀ t, d2 (R.at t) C - (d / 2) ^ 2 = A * t ^ 2 + 2 * B0 * t + (d2 R.start C - (d / 2) ^ 2) := by
    intro t
    rw [hA, hB0]
    simp only [d2, Ray.at, Vec.madd]
    ring
  have he' : d2 (R.at e) C = (d / 2) ^ 2 := he.1
  have hx' : d2 (R.at x) C = (d / 2) ^ 2 := hx.1
  have e1 := hq e
  have e2 := hq x
  rw [he', sub_self] at e1
  rw [hx', sub_self] at e2
  have hB : 2 * B0 = -A * (e + x) := by
    have : (x - e) * (A * (e + x) + 2 * B0) = 0 := by linear_combination e1 - e2
    rcases mul_eq_zero.1 this with h | h
    · linarith
    · linarith
  have hQ : ∀ t, d2 (R.at t) C - (d / 2) ^ 2 = A * ((t - e) * (t - x)) := by
    intro t
    rw [hq t]
    linear_combination (t - e) * hB - e1
  have hr : (diam / lit 2).Is (d / 2) := hdm.div lit2_is two_ne_zero
  refine interval_profile _ R e x hex (fun t _ hte htx p hp => ?_) (fun k _ hke hkx r hrk => ?_)
  · rw [sphere_inside m hdm h0 hc hp]
    congr 1
    rw [within, decide_eq_decide, ← sub_neg, hQ t]
    constructor
    · intro h
      have h1 : (t - e) * (t - x) < 0 := by
        by_contra hn
        exact absurd h (not_lt.2 (mul_nonneg hA0.le (not_lt.1 hn)))
      rcases mul_neg_iff.1 h1 with g | g
      · constructor <;> linarith [g.1, g.2]
      · linarith [g.1, g.2]
    · rintro ⟨h1, h2⟩
      exact mul_neg_of_pos_of_neg hA0 (mul_neg_of_pos_of_neg (by linarith) (by linarith))
  · obtain ⟨⟨px, py, pz⟩, qx, qy, qz⟩ := hrk
    have sx := px.sub hc.1
    have sy := py.sub hc.2.1
    have sz := pz.sub hc.2.2
    have cA : ((Obj.sphereQ m diam c).coeffs r).1.Is A := by
      have := (((lit1_is.mul qx).mul qx).add ((lit1_is.mul qy).mul qy)).add ((lit1_is.mul qz).mul qz)
      rw [hA, show R.dir.x ^ 2 + R.dir.y ^ 2 + R.dir.z ^ 2 =
        1 * R.dir.x * R.dir.x + 1 * R.dir.y * R.dir.y + 1 * R.dir.z * R.dir.z by ring]
      exact this
    have cB : ((Obj.sphereQ m diam c).coeffs r).2.1.Is (-A * ((e - k) + (x - k))) := by
      have := lit2_is.mul ((((lit1_is.mul qx).mul sx).add ((lit1_is.mul qy).mul sy)).add ((lit1_is.mul qz).mul sz))
      have e3 : -A * ((e - k) + (x - k)) = 2 * (1 * R.dir.x * ((R.at k).x - C.x) + 1 * R.dir.y * ((R.at k).y - C.y) +
          1 * R.dir.z * ((R.at k).z - C.z)) := by
        have : -A * ((e - k) + (x - k)) = 2 * B0 + 2 * A * k := by rw [hB]; ring
        rw [this, hA, hB0]
        simp only [Ray.at, Vec.madd]; ring
      rw [e3]
      exact this
    have cC : ((Obj.sphereQ m diam c).coeffs r).2.2.Is (A * ((k - e) * (k - x))) := by
      have := ((((lit1_is.mul sx).mul sx).add ((lit1_is.mul sy).mul sy)).add ((lit1_is.mul sz).mul sz)).sub (hr.mul hr)
      rw [← hQ k]
      have e3 : d2 (R.at k) C - (d / 2) ^ 2 = 1 * ((R.at k).x - C.x) * ((R.at k).x - C.x) +
          1 * ((R.at k).y - C.y) * ((R.at k).y - C.y) + 1 * ((R.at k).z - C.z) * ((R.at k).z - C.z) -
          d / 2 * (d / 2) := by simp only [d2]; ring
      rw [e3]
      exact this
    generalize hco : (Obj.sphereQ m diam c).coeffs r = co at cA cB cC
    obtain ⟨a, b, cc⟩ := co
    dsimp only at cA cB cC
    have cD : (b * b - lit 4 * a * cc).Is ((A * (x - e)) ^ 2) := by
      have := (cB.mul cB).sub ((lit4_is.mul cA).mul cC)
      rw [show (A * (x - e)) ^ 2 = -A * ((e - k) + (x - k)) * (-A * ((e - k) + (x - k))) -
        4 * A * (A * ((k - e) * (k - x))) by ring]
      exact this
    have cV : (GoFloat.sqrt (b * b - lit 4 * a * cc)).Is (A * (x - e)) := by
      have := sqrt_is cD (by positivity)
      rwa [Real.sqrt_sq (mul_nonneg hA0.le (by linarith))] at this
    have hA2 : (2 : ℝ) * A ≠ 0 := by positivity
    have c1 : ((-b - GoFloat.sqrt (b * b - lit 4 * a * cc)) / (lit 2 * a)).Is (e - k) := by
      have := ((cB.neg).sub cV).div (lit2_is.mul cA) hA2
      rwa [show (-(-A * ((e - k) + (x - k))) - A * (x - e)) / (2 * A) = e - k by field_simp; ring] at this
    have c2 : ((-b + GoFloat.sqrt (b * b - lit 4 * a * cc)) / (lit 2 * a)).Is (x - k) := by
      have := ((cB.neg).add cV).div (lit2_is.mul cA) hA2
      rwa [show (-(-A * ((e - k) + (x - k))) + A * (x - e)) / (2 * A) = x - k by field_simp; ring] at this
    have hD : (b * b - lit 4 * a * cc <. lit 0) = false := by
      rw [cD.lt lit0_is, decide_eq_false_iff_not, not_lt]; positivity
    have hsw : ((-b + GoFloat.sqrt (b * b - lit 4 * a * cc)) / (lit 2 * a) <.
        (-b - GoFloat.sqrt (b * b - lit 4 * a * cc)) / (lit 2 * a)) = false := by
      rw [c2.lt c1, decide_eq_false_iff_not, not_lt]; linarith
    have hrk' : r.Is ⟨R.at k, R.dir⟩ := ⟨⟨px, py, pz⟩, qx, qy, qz⟩
    have hacc : ∀ {t : Ext} {T : ℝ}, t.Is (T - k) → d2 (R.at T) C = (d / 2) ^ 2 →
        (Obj.sphereQ m diam c).accept r t = decide (k < T) := by
      intro t T ht hT
      have hpt : (r.at t).Is (R.at T) := by
        have := hrk'.at ht
        rwa [at_at, add_sub_cancel] at this
      rw [Quadric.accept, sphere_bounds m hdm h0 hc hpt hT.le, lit0_is.lt ht, Bool.and_true, decide_eq_decide]
      constructor <;> intro h <;> linarith
    refine ⟨(Obj.sphereQ m diam c).hit r, by simp only [Obj.sphere, Obj.intersect], ?_⟩
    unfold Quadric.hit
    rw [hco]
    simp only [hD, hsw, Bool.false_eq_true, if_false, hacc c1 he', hacc c2 hx', decide_eq_true_eq]
    refine ⟨fun g => ?_, fun g g' => ?_, fun g => ?_⟩
    · rw [if_pos g]; exact c1
    · rw [if_neg (by linarith), if_pos g']; exact c2
    · rw [if_neg (by linarith), if_neg (by linarith)]; exact miss_t

/-! ## Non-vacuity -/

open Ext in
/-- A cube of size 4 minus a ball of diameter 2 in its middle, seen along the x axis through the
middle: from the start the first crossing is the near face of the cube, and from between the near
face and the ball it is the surface of the ball. -/
example : ∃ D : Finset ℝ, ∃ I : ℝ → Bool,
    ((Obj.and (.box ⟨⟨fin (-2), fin (-2), fin (-2)⟩, ⟨fin 2, fin 2, fin 2⟩⟩ none)
      (.not (Obj.sphere none (fin 2) ⟨fin 0, fin 0, fin 0⟩)) : Obj Ext Unit)).Profile ⟨⟨-10, 0, 0⟩, ⟨1, 0, 0⟩⟩ D I ∧
    IsLeast {c | 0 < c ∧ Crosses I c} 8 ∧ IsLeast {c | (17 : ℝ) / 2 < c ∧ Crosses I c} 9 := by
  have fi : ∀ q : ℝ, (fin q).Is q := fun q => ⟨false, rfl⟩
  have hbox : (Obj.box ⟨⟨fin (-2), fin (-2), fin (-2)⟩, ⟨fin 2, fin 2, fin 2⟩⟩ none : Obj Ext Unit).Profile
      ⟨⟨-10, 0, 0⟩, ⟨1, 0, 0⟩⟩ {8, 12} (within 8 12) := by
    refine C17_box_profile _ ⟨⟨-2, -2, -2⟩, ⟨2, 2, 2⟩⟩ ⟨⟨fi _, fi _, fi _⟩, fi _, fi _, fi _⟩ ?_ none _ ?_ ?_ 8 12
      (by norm_num) ?_
    · norm_num [BBox.Proper]
    · simp
    · norm_num [BBox.NotInFace]
    · intro t
      simp only [BBox.Mem, Ray.at, Vec.madd]
      constructor
      · rintro ⟨h1, h2, -⟩; constructor <;> linarith
      · rintro ⟨h1, h2⟩; refine ⟨?_, ?_, ?_, ?_, ?_, ?_⟩ <;> norm_num <;> linarith
  have hsph : (Obj.sphere none (fin 2) ⟨fin 0, fin 0, fin 0⟩ : Obj Ext Unit).Profile
      ⟨⟨-10, 0, 0⟩, ⟨1, 0, 0⟩⟩ {9, 11} (within 9 11) := by
    refine C17_sphere_profile none _ 2 (fi 2) (by norm_num) _ ⟨0, 0, 0⟩ ⟨fi _, fi _, fi _⟩ _ (by simp) 9 11 (by norm_num)
      ?_ ?_
    · norm_num [AtDistance, Ray.at, Vec.madd]
    · norm_num [AtDistance, Ray.at, Vec.madd]
  have hnot := C17_not_first _ _ _ _ hsph
  have hs : Separated ({8, 12} ∪ {9, 11} : Finset ℝ) := by
    intro c hc d hd
    simp only [Finset.mem_union, Finset.mem_insert, Finset.mem_singleton] at hc hd
    rcases hc with (rfl | rfl) | (rfl | rfl) <;> rcases hd with (rfl | rfl) | (rfl | rfl) <;> norm_num
  have hdj : Disjoint ({8, 12} : Finset ℝ) {9, 11} := by
    rw [Finset.disjoint_left]
    intro c hc hd
    simp only [Finset.mem_insert, Finset.mem_singleton] at hc hd
    rcases hc with rfl | rfl <;> rcases hd with h | h <;> norm_num at h
  have c2 : ∀ a b : ℝ, ({a, b} : Finset ℝ).card ≤ 100 := fun a b => (Finset.card_le_two).trans (by norm_num)
  refine ⟨_, _, C17_and_first_partial _ _ _ _ _ _ _ hbox hnot hs hdj (c2 _ _) (c2 _ _), ?_⟩
  have hc : ∀ c, Crosses (fun t => within 8 12 t && !within 9 11 t) c ↔ c = 8 ∨ c = 12 ∨ c = 9 ∨ c = 11 := by
    intro c
    have hn : ∀ c, Crosses (fun t => !within 9 11 t) c ↔ Crosses (within 9 11) c := by
      intro c
      unfold Crosses
      simp only [ne_eq, Bool.not_eq_eq_eq_not, Bool.not_not]
    by_cases hcD : c ∈ ({9, 11} : Finset ℝ)
    · have hcB : c ∉ ({8, 12} : Finset ℝ) := fun h => Finset.disjoint_left.1 hdj h hcD
      have e1 : (fun t => within 8 12 t && !within 9 11 t) = fun t => both true (!within 9 11 t) (within 8 12 t) := by
        funext t; simp [both, Bool.and_comm]
      rw [e1, cross_both (I := fun t => !within 9 11 t) hbox hcB, hn, crosses_within (by norm_num)]
      simp only [Finset.mem_insert, Finset.mem_singleton] at hcD
      rcases hcD with rfl | rfl <;> norm_num [within]
    · have e1 : (fun t => within 8 12 t && !within 9 11 t) = fun t => both true (within 8 12 t) (!within 9 11 t) := by
        funext t; simp [both]
      rw [e1, cross_both (J := fun t => !within 9 11 t) hnot hcD, crosses_within (by norm_num)]
      simp only [Finset.mem_insert, Finset.mem_singleton, not_or] at hcD
      constructor
      · rintro ⟨h | h, -⟩
        · exact .inl h
        · exact .inr (.inl h)
      · rintro (rfl | rfl | h | h)
        · norm_num [within]
        · norm_num [within]
        · exact absurd h hcD.1
        · exact absurd h hcD.2
  simp only [hc]
  constructor
  · refine ⟨⟨by norm_num, .inl rfl⟩, ?_⟩
    rintro d ⟨-, rfl | rfl | rfl | rfl⟩ <;> norm_num
  · refine ⟨⟨by norm_num, .inr (.inr (.inl rfl))⟩, ?_⟩
    rintro d ⟨h, rfl | rfl | rfl | rfl⟩ <;> first | (norm_num; done) | (norm_num at h)

end BR
