import Verif.Spec.BoxSeen
import Verif.Lemmas.BoxWhere
import Verif.Lemmas.BallErr

/-! What a box reports in double precision. -/

namespace BR
set_option linter.unusedSectionVars false

open CmpModel

section
variable {F : Type} [Add F] [Sub F] [Mul F] [Div F] [Neg F] [GoFloat F] [CmpModel F]

theorem upper_key_ge {a b : F} {x : EReal} (ha : key a = some x) : ∃ z, key (BBox.upper a b) = some z ∧ x ≤ z := by
  cases hb : key b with
  | none =>
    have : (a <. b) = false := by
      rw [Bool.eq_false_iff]
      intro h
      obtain ⟨_, _, -, h1, -⟩ := (lt_iff _ _).1 h
      rw [hb] at h1; cases h1
    refine ⟨x, ?_, le_rfl⟩
    rw [BBox.upper, show (b >. a) = (a <. b) from rfl, this]; simpa using ha
  | some y => exact ⟨_, key_upper ha hb, le_max_left _ _⟩

/-- If the first number is not NaN, the greatest of three is at least each of them that is not NaN. -/
theorem max3_key_ge {a b c v : F} {x y : EReal} (ha : key a = some x) (hv : v = a ∨ v = b ∨ v = c) (hy : key v = some y) :
    ∃ z, key (BBox.max3 a b c) = some z ∧ y ≤ z := by
  change ∃ z, key (BBox.upper (BBox.upper a b) c) = some z ∧ y ≤ z
  rcases hv with rfl | rfl | rfl
  · obtain ⟨z, hz, h⟩ := upper_key_ge (b := b) hy
    obtain ⟨w, hw, h'⟩ := upper_key_ge (b := c) hz
    exact ⟨w, hw, h.trans h'⟩
  · obtain ⟨w, hw, h'⟩ := upper_key_ge (b := c) (key_upper ha hy)
    exact ⟨w, hw, (le_max_right _ _).trans h'⟩
  · obtain ⟨z, hz, -⟩ := upper_key_ge (b := b) ha
    exact ⟨_, key_upper hz hy, le_max_right _ _⟩

/-- The slab of an axis. -/
def axisSlab (b : BBox F) (r : Ray F) (i : Fin 3) : F × F :=
  BBox.slab (b.min.get i) (b.max.get i) (r.start.get i) (r.dir.get i)

/-- The parameter reported is not before the entry nor after the exit of any axis. -/
theorem box_between (b : BBox F) (r : Ray F) (ht : (b.intersect r >. lit 0) = true) {T : EReal}
    (hT : key (b.intersect r) = some T) (i : Fin 3) :
    (∀ k, key (axisSlab b r i).1 = some k → k ≤ T) ∧ ∀ k, key (axisSlab b r i).2 = some k → T ≤ k := by
  unfold axisSlab
  unfold BBox.intersect BBox.tenTex at ht hT
  dsimp only at ht hT
  generalize e0 : BBox.slab b.min.x b.max.x r.start.x r.dir.x = sx at *
  generalize e1 : BBox.slab b.min.y b.max.y r.start.y r.dir.y = sy at *
  generalize e2 : BBox.slab b.min.z b.max.z r.start.z r.dir.z = sz at *
  have hnan : key sx.2 = none → key sx.1 = none := by rw [← e0]; exact slab_nan _ _ _ _
  obtain ⟨x, hx⟩ : ∃ x, key sx.1 = some x := by
    cases hn : key sx.1 with
    | some x => exact ⟨x, rfl⟩
    | none =>
      exfalso
      have hm := max3_nan (b := sy.1) (c := sz.1) hn
      split at ht
      · rw [zero_not_pos] at ht; cases ht
      · split at ht
        next h =>
          obtain ⟨_, _, h, -, -⟩ := (lt_iff _ _).1 h
          rw [hm] at h; cases h
        next =>
          obtain ⟨_, _, -, h, -⟩ := (lt_iff _ _).1 ht
          rw [hm] at h; cases h
  obtain ⟨x', hx'⟩ : ∃ x, key sx.2 = some x := by
    cases hn : key sx.2 with
    | some x => exact ⟨x, rfl⟩
    | none => rw [hnan hn] at hx; cases hx
  have lo : ∀ v k, (v = sx.1 ∨ v = sy.1 ∨ v = sz.1) → key v = some k → ∃ z, key (BBox.max3 sx.1 sy.1 sz.1) = some z ∧ k ≤ z :=
    fun v k hv hk => max3_key_ge hx hv hk
  have up : ∀ v k, (v = sx.2 ∨ v = sy.2 ∨ v = sz.2) → key v = some k → ∃ z, key (BBox.min3 sx.2 sy.2 sz.2) = some z ∧ z ≤ k :=
    fun v k hv hk => min3_key_le hx' hv hk
  obtain ⟨p, hp, -⟩ := lo _ _ (.inl rfl) hx
  obtain ⟨q, hq, -⟩ := up _ _ (.inl rfl) hx'
  have hpq : p ≤ T ∧ T ≤ q := by
    split at hT
    next h =>
      rw [if_pos h, zero_not_pos] at ht; cases ht
    next h =>
      have hle : p ≤ q := by
        by_contra hlt
        exact h ((lt_iff _ _).2 ⟨_, _, hq, hp, not_le.1 hlt⟩)
      split at hT
      · rw [hq, Option.some.injEq] at hT
        exact hT ▸ ⟨hle, le_rfl⟩
      · rw [hp, Option.some.injEq] at hT
        exact hT ▸ ⟨le_rfl, hle⟩
  have lo' : ∀ v k, (v = sx.1 ∨ v = sy.1 ∨ v = sz.1) → key v = some k → k ≤ T := by
    intro v k hv hk
    obtain ⟨z, hz, h⟩ := lo v k hv hk
    rw [hp, Option.some.injEq] at hz
    exact (h.trans hz.symm.le).trans hpq.1
  have up' : ∀ v k, (v = sx.2 ∨ v = sy.2 ∨ v = sz.2) → key v = some k → T ≤ k := by
    intro v k hv hk
    obtain ⟨z, hz, h⟩ := up v k hv hk
    rw [hq, Option.some.injEq] at hz
    exact hpq.2.trans (hz.le.trans h)
  fin_cases i
  · exact ⟨fun k hk => lo' sx.1 k (.inl rfl) (by rw [← e0]; exact hk), fun k hk => up' sx.2 k (.inl rfl) (by rw [← e0]; exact hk)⟩
  · exact ⟨fun k hk => lo' sy.1 k (.inr (.inl rfl)) (by rw [← e1]; exact hk),
      fun k hk => up' sy.2 k (.inr (.inl rfl)) (by rw [← e1]; exact hk)⟩
  · exact ⟨fun k hk => lo' sz.1 k (.inr (.inr rfl)) (by rw [← e2]; exact hk),
      fun k hk => up' sz.2 k (.inr (.inr rfl)) (by rw [← e2]; exact hk)⟩

/-- If all entries come before `T` and all exits after it, the box reports the last entry, or the first exit if the last
entry is negative. -/
theorem box_report (b : BBox F) (r : Ray F) {T : EReal} (h : ∀ i, ∃ a c, key (axisSlab b r i).1 = some a ∧
      key (axisSlab b r i).2 = some c ∧ a < T ∧ T < c) :
    ∃ p q, p < T ∧ T < q ∧ (∀ i a, key (axisSlab b r i).1 = some a → a ≤ p) ∧
      (∃ i, key (axisSlab b r i).1 = some p) ∧
      (p < 0 → key (b.intersect r) = some q) ∧ (0 ≤ p → key (b.intersect r) = some p) := by
  obtain ⟨a0, c0, ha0, hc0, l0, u0⟩ := h 0
  obtain ⟨a1, c1, ha1, hc1, l1, u1⟩ := h 1
  obtain ⟨a2, c2, ha2, hc2, l2, u2⟩ := h 2
  change key (BBox.slab b.min.x b.max.x r.start.x r.dir.x).1 = _ at ha0
  change key (BBox.slab b.min.x b.max.x r.start.x r.dir.x).2 = _ at hc0
  change key (BBox.slab b.min.y b.max.y r.start.y r.dir.y).1 = _ at ha1
  change key (BBox.slab b.min.y b.max.y r.start.y r.dir.y).2 = _ at hc1
  change key (BBox.slab b.min.z b.max.z r.start.z r.dir.z).1 = _ at ha2
  change key (BBox.slab b.min.z b.max.z r.start.z r.dir.z).2 = _ at hc2
  have hten := key_upper (key_upper ha0 ha1) ha2
  have htex := key_lower (key_lower hc0 hc1) hc2
  change key (BBox.max3 _ _ _) = _ at hten
  change key (BBox.min3 _ _ _) = _ at htex
  have hp : max (max a0 a1) a2 < T := max_lt (max_lt l0 l1) l2
  have hq : T < min (min c0 c1) c2 := lt_min (lt_min u0 u1) u2
  refine ⟨_, _, hp, hq, ?_, ?_, ?_, ?_⟩
  · intro i a hia
    fin_cases i
    · have : a = a0 := by
        have := ha0.symm.trans hia
        simpa using this.symm
      subst this; exact (le_max_left _ _).trans (le_max_left _ _)
    · have : a = a1 := by
        have := ha1.symm.trans hia
        simpa using this.symm
      subst this; exact (le_max_right _ _).trans (le_max_left _ _)
    · have : a = a2 := by
        have := ha2.symm.trans hia
        simpa using this.symm
      subst this; exact le_max_right _ _
  · rcases max_choice (max a0 a1) a2 with e | e
    · rcases max_choice a0 a1 with e' | e'
      · exact ⟨0, by rw [e, e']; exact ha0⟩
      · exact ⟨1, by rw [e, e']; exact ha1⟩
    · exact ⟨2, by rw [e]; exact ha2⟩
  · intro hneg
    unfold BBox.intersect BBox.tenTex
    dsimp only
    rw [if_neg, if_pos]
    · exact htex
    · exact (lt_iff _ _).2 ⟨_, _, hten, key_zero, hneg⟩
    · intro hgt
      obtain ⟨u, v, h1, h2, h3⟩ := (lt_iff _ _).1 hgt
      rw [htex, Option.some.injEq] at h1
      rw [hten, Option.some.injEq] at h2
      subst h1 h2
      exact absurd (hp.trans hq) (not_lt.2 h3.le)
  · intro hpos
    unfold BBox.intersect BBox.tenTex
    dsimp only
    rw [if_neg, if_neg]
    · exact hten
    · intro hlt
      obtain ⟨u, v, h1, h2, h3⟩ := (lt_iff _ _).1 hlt
      rw [hten, Option.some.injEq] at h1
      rw [key_zero, Option.some.injEq] at h2
      subst h1 h2
      exact absurd h3 (not_lt.2 hpos)
    · intro hgt
      obtain ⟨u, v, h1, h2, h3⟩ := (lt_iff _ _).1 hgt
      rw [htex, Option.some.injEq] at h1
      rw [hten, Option.some.injEq] at h2
      subst h1 h2
      exact absurd (hp.trans hq) (not_lt.2 h3.le)

end

/-- A vector of length at least `√½` has a component of at least a quarter. -/
theorem big_comp {d : Vec ℝ} (h : 1 / 2 ≤ d.x ^ 2 + d.y ^ 2 + d.z ^ 2) : 1 / 4 ≤ |d.x| ∨ 1 / 4 ≤ |d.y| ∨ 1 / 4 ≤ |d.z| := by
  by_contra hn
  rw [not_or, not_or, not_le, not_le, not_le] at hn
  have sq : ∀ {x : ℝ}, |x| < 1 / 4 → x ^ 2 ≤ 1 / 16 := by
    intro x hx
    rw [← sq_abs]
    nlinarith [abs_nonneg x]
  have := sq hn.1
  have := sq hn.2.1
  have := sq hn.2.2
  linarith

theorem small_comp {x y z : ℝ} (h : x ^ 2 + y ^ 2 + z ^ 2 ≤ 2) : |x| ≤ 2 ∧ |y| ≤ 2 ∧ |z| ≤ 2 := by
  refine ⟨?_, ?_, ?_⟩ <;> refine abs_le_of_sq_le_sq ?_ (by norm_num) <;> nlinarith [sq_nonneg x, sq_nonneg y, sq_nonneg z]

namespace LookingAtBox

variable {r : Ray Flo} {b : BBox Flo} {s d lo hi : Vec ℝ}

theorem quarter (h : LookingAtBox r b s d lo hi) : ∃ (i : Fin 3), 1 / 4 ≤ |d.get i| := by
  rcases big_comp h.long with e | e | e
  · exact ⟨0, e⟩
  · exact ⟨1, e⟩
  · exact ⟨2, e⟩

/-- The data of one axis. -/
theorem axis (h : LookingAtBox r b s d lo hi) (i : Fin 3) : (r.start.get i).Is (s.get i) ∧ (r.dir.get i).Is (d.get i) ∧
    (b.min.get i).Is (lo.get i) ∧ (b.max.get i).Is (hi.get i) ∧ |s.get i| ≤ 2 ^ 10 ∧ |lo.get i| ≤ 2 ^ 10 ∧
    |hi.get i| ≤ 2 ^ 10 ∧ lo.get i ≤ hi.get i ∧ |d.get i| ≤ 2 := by
  have hd := small_comp h.short
  have e : (2 : ℝ) ^ 10 = 1024 := by norm_num
  rw [e]
  fin_cases i
  · exact ⟨h.start.1, h.dir.1, h.min.1, h.max.1, h.start_le.1, h.min_le.1, h.max_le.1, h.ordered.1, hd.1⟩
  · exact ⟨h.start.2.1, h.dir.2.1, h.min.2.1, h.max.2.1, h.start_le.2.1, h.min_le.2.1, h.max_le.2.1, h.ordered.2.1, hd.2.1⟩
  · exact ⟨h.start.2.2, h.dir.2.2, h.min.2.2, h.max.2.2, h.start_le.2.2, h.min_le.2.2, h.max_le.2.2, h.ordered.2.2, hd.2.2⟩

theorem answers {M : Type} (h : LookingAtBox r b s d lo hi) (m : Option M) : ∃ hit, b.hit m r = .ok hit := by
  obtain ⟨i, hi4⟩ := h.quarter
  have up : ∀ {x : ℝ}, |x| ≤ 2 ^ 10 → |x| ≤ 2 ^ 22 := fun hx => hx.trans (by norm_num)
  refine box_hit_flo b m r (fun i => ?_) (fun i => ?_) (fun i => ?_) (fun i => ?_) ⟨i, _, (h.axis i).2.1, hi4⟩
  · exact ⟨_, (h.axis i).2.2.1, up (h.axis i).2.2.2.2.2.1⟩
  · exact ⟨_, (h.axis i).2.2.2.1, up (h.axis i).2.2.2.2.2.2.1⟩
  · exact ⟨_, (h.axis i).1, up (h.axis i).2.2.2.2.1⟩
  · exact ⟨_, (h.axis i).2.1, (h.axis i).2.2.2.2.2.2.2.2.trans (by norm_num)⟩

/-- The parameter reported is a positive number of moderate size. -/
theorem param (h : LookingAtBox r b s d lo hi) (ht : (b.intersect r >. lit 0) = true) :
    ∃ T, (b.intersect r).Is T ∧ 0 < T ∧ T ≤ 2 ^ 14 := by
  obtain ⟨i, hi4⟩ := h.quarter
  obtain ⟨a1, a2, a3, a4, a5, a6, a7, a8, a9⟩ := h.axis i
  obtain ⟨k, hk, hk'⟩ := slab_soon a3 a4 a1 a2 a6 a7 a5 a9 hi4
  obtain ⟨_, T, h0, hT, hpos⟩ := (lt_iff _ _).1 ht
  rw [key_zero, Option.some.injEq] at h0
  subst h0
  have hle := (box_between b r ht hT i).2 k hk
  have hlt := lt_of_le_of_lt hle hk'
  induction T with
  | bot => simp at hpos
  | top => simp at hlt
  | coe T =>
    exact ⟨T, flo_of_key hT, by exact_mod_cast hpos, (EReal.coe_lt_coe_iff.1 hlt).le⟩

/-- Where the parameter reported is. -/
theorem between (h : LookingAtBox r b s d lo hi) (ht : (b.intersect r >. lit 0) = true) {T : ℝ} (hT : (b.intersect r).Is T)
    (hT0 : 0 ≤ T) (hT1 : T ≤ 2 ^ 14) (i : Fin 3) :
    lo.get i - 1 / 2 ^ 38 ≤ s.get i + T * d.get i ∧ s.get i + T * d.get i ≤ hi.get i + 1 / 2 ^ 38 := by
  obtain ⟨a1, a2, a3, a4, a5, a6, a7, a8, a9⟩ := h.axis i
  obtain ⟨b1, b2⟩ := box_between b r ht hT.key i
  exact slab_sound a3 a4 a1 a2 a6 a7 a5 a9 a8 hT0 hT1 b1 b2

/-- It is at a face. -/
theorem face (h : LookingAtBox r b s d lo hi) (ht : (b.intersect r >. lit 0) = true) {T : ℝ} (hT : (b.intersect r).Is T)
    (hT0 : 0 ≤ T) (hT1 : T ≤ 2 ^ 14) :
    ∃ i, |s.get i + T * d.get i - lo.get i| ≤ 1 / 2 ^ 40 ∨ |s.get i + T * d.get i - hi.get i| ≤ 1 / 2 ^ 40 := by
  obtain ⟨j, hj4⟩ := h.quarter
  obtain ⟨c1, c2, c3, c4, c5, c6, c7, c8, c9⟩ := h.axis j
  obtain ⟨k, hk, hk'⟩ := slab_soon c3 c4 c1 c2 c6 c7 c5 c9 hj4
  have fin : ∃ x : ℝ, key (BBox.slab (b.min.get j) (b.max.get j) (r.start.get j) (r.dir.get j)).2 = some (x : EReal) := by
    have hle := (box_between b r ht hT.key j).2 k hk
    induction k with
    | bot => simp at hle
    | top => simp at hk'
    | coe x => exact ⟨x, hk⟩
  obtain ⟨x, hx⟩ := fin
  obtain ⟨-, i, hface⟩ := box_face b r ⟨j, x, hx⟩ ht
  obtain ⟨a1, a2, a3, a4, a5, a6, a7, a8, a9⟩ := h.axis i
  obtain ⟨σ, hσ, -, law⟩ := plane_law a1 a2 a5 a9
  refine ⟨i, hface.imp (fun e => ?_) (fun e => ?_)⟩
  · have l := (law _ _ a3 a6 T hT0 hT1).2 T (by rw [← e]; exact hT.key)
    have u1 := l.1 le_rfl
    have u2 := l.2 le_rfl
    rw [abs_le]
    rcases hσ with rfl | rfl <;> constructor <;> linarith
  · have l := (law _ _ a4 a7 T hT0 hT1).2 T (by rw [← e]; exact hT.key)
    have u1 := l.1 le_rfl
    have u2 := l.2 le_rfl
    rw [abs_le]
    rcases hσ with rfl | rfl <;> constructor <;> linarith

/-- A point clearly in the box is not far along the ray. -/
theorem soon (h : LookingAtBox r b s d lo hi) {T : ℝ} (hT : 0 ≤ T) (hin : InBox lo hi 0 (along s d T)) : T ≤ 2 ^ 14 := by
  obtain ⟨i, hi4⟩ := h.quarter
  obtain ⟨-, -, -, -, a5, a6, a7, -, -⟩ := h.axis i
  have hi' : lo.get i ≤ s.get i + T * d.get i ∧ s.get i + T * d.get i ≤ hi.get i := by
    unfold InBox along at hin
    simp only [sub_zero, add_zero] at hin
    fin_cases i
    · exact hin.1
    · exact hin.2.1
    · exact hin.2.2
  rw [abs_le] at a5 a6 a7
  have h1 : |T * d.get i| ≤ 2 ^ 11 := by rw [abs_le]; constructor <;> linarith
  rw [abs_mul, abs_of_nonneg hT] at h1
  have h2 := mul_le_mul_of_nonneg_left hi4 hT
  norm_num at *
  linarith

/-- The point computed for a parameter. -/
theorem point (h : LookingAtBox r b s d lo hi) (ht : (b.intersect r >. lit 0) = true) {T : ℝ} (hT : (b.intersect r).Is T)
    (hT0 : 0 ≤ T) (hT1 : T ≤ 2 ^ 14) (i : Fin 3) :
    ((r.start.get i + b.intersect r * r.dir.get i)).Near (s.get i + T * d.get i) (1 / 2 ^ 40) 1025 := by
  obtain ⟨a1, a2, a3, a4, a5, a6, a7, a8, a9⟩ := h.axis i
  have hb := h.between ht hT hT0 hT1 i
  have a5' := abs_le.1 a5
  have a6' := abs_le.1 a6
  have a7' := abs_le.1 a7
  have hp : |s.get i + T * d.get i| ≤ 1025 := by
    rw [abs_le]; constructor <;> norm_num at * <;> linarith
  have htd : |T * d.get i| ≤ 2050 := by
    rw [abs_le]; constructor <;> norm_num at * <;> linarith
  have i1 := Flo.mul_is hT a2 (htd.trans (by norm_num))
  have e1 := err_le (E := 2051 / 2 ^ 53) (roundBits_err 53 (by norm_num) _) htd (by norm_num)
  have near1 : (b.intersect r * r.dir.get i).Near (T * d.get i) (2051 / 2 ^ 53) 2050 := ⟨⟨_, i1, e1⟩, htd⟩
  exact ((a1.near a5).add (1 / 2 ^ 40) 4000 near1).bound hp

end LookingAtBox

/-- Numbers the box takes for equal differ by little. -/
theorem approx_near {p m : Flo} {X M : ℝ} (hp : p.Near X (1 / 2 ^ 40) 1025) (hm : m.Is M) (hM : |M| ≤ 2 ^ 10)
    (h : BBox.approx p m = true) : |X - M| ≤ 1 / 2 ^ 26 := by
  obtain ⟨⟨z, hz, hze⟩, -⟩ := hp.sub (1 / 2 ^ 39) 2049 (hm.near hM)
  have iabs : (GoFloat.abs (p - m)).Is |z| := by
    obtain ⟨sz, ez⟩ := hz
    refine ⟨false, ?_⟩
    change GoFloat.abs (p - m).e = _
    rw [ez]
    rfl
  have itol := Flo.lit_near (1 / 10 ^ 8) (1 / 2 ^ 53) (1 / 1000) (by norm_num [abs_le]) (by norm_num) (by norm_num)
  obtain ⟨⟨tol, itol, etol⟩, -⟩ := itol
  unfold BBox.approx at h
  rw [Flo.lt_is iabs itol, decide_eq_true_eq] at h
  push_cast at etol
  rw [abs_le] at etol hze ⊢
  rw [abs_lt] at h
  constructor <;> norm_num at * <;> linarith

end BR
