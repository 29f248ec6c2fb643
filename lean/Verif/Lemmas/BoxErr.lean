import Verif.Lemmas.FloErr
import Verif.Lemmas.Sturdy
import Mathlib.Tactic.FinCases

/-! In double precision boxes of moderate size recognise the face that was hit. -/

namespace BR
set_option linter.unusedSectionVars false

open CmpModel

section
variable {F : Type} [Add F] [Sub F] [Mul F] [Div F] [Neg F] [GoFloat F] [CmpModel F]

theorem lower_cases (m v : F) : BBox.lower m v = m ∨ BBox.lower m v = v := by
  unfold BBox.lower; split <;> simp

theorem upper_cases (m v : F) : BBox.upper m v = m ∨ BBox.upper m v = v := by
  unfold BBox.upper; split <;> simp

theorem max3_cases (a b c : F) : BBox.max3 a b c = a ∨ BBox.max3 a b c = b ∨ BBox.max3 a b c = c := by
  rcases upper_cases (BBox.upper a b) c with h | h
  · rcases upper_cases a b with h' | h'
    · exact .inl (h.trans h')
    · exact .inr (.inl (h.trans h'))
  · exact .inr (.inr h)

theorem min3_cases (a b c : F) : BBox.min3 a b c = a ∨ BBox.min3 a b c = b ∨ BBox.min3 a b c = c := by
  rcases lower_cases (BBox.lower a b) c with h | h
  · rcases lower_cases a b with h' | h'
    · exact .inl (h.trans h')
    · exact .inr (.inl (h.trans h'))
  · exact .inr (.inr h)

theorem lower_key_le {a b : F} {x : EReal} (ha : key a = some x) : ∃ z, key (BBox.lower a b) = some z ∧ z ≤ x := by
  cases hb : key b with
  | none =>
    have : (b <. a) = false := by
      rw [Bool.eq_false_iff]
      intro h
      obtain ⟨_, _, h1, -, -⟩ := (lt_iff _ _).1 h
      rw [hb] at h1; cases h1
    exact ⟨x, by rw [BBox.lower, this]; simpa using ha, le_rfl⟩
  | some y => exact ⟨_, key_lower ha hb, min_le_left _ _⟩

theorem lower_key_le' {a b : F} {x y : EReal} (ha : key a = some x) (hb : key b = some y) :
    ∃ z, key (BBox.lower a b) = some z ∧ z ≤ y := ⟨_, key_lower ha hb, min_le_right _ _⟩

/-- If the first number is not NaN, the least of three is at most each of them that is not NaN. -/
theorem min3_key_le {a b c v : F} {x y : EReal} (ha : key a = some x) (hv : v = a ∨ v = b ∨ v = c) (hy : key v = some y) :
    ∃ z, key (BBox.min3 a b c) = some z ∧ z ≤ y := by
  change ∃ z, key (BBox.lower (BBox.lower a b) c) = some z ∧ z ≤ y
  rcases hv with rfl | rfl | rfl
  · obtain ⟨z, hz, h⟩ := lower_key_le (b := b) hy
    obtain ⟨w, hw, h'⟩ := lower_key_le (b := c) hz
    exact ⟨w, hw, h'.trans h⟩
  · obtain ⟨z, hz, h⟩ := lower_key_le' ha hy
    obtain ⟨w, hw, h'⟩ := lower_key_le (b := c) hz
    exact ⟨w, hw, h'.trans h⟩
  · obtain ⟨z, hz, -⟩ := lower_key_le (b := b) ha
    exact lower_key_le' hz hy

/-- With NaN first, the greatest of three is NaN. -/
theorem max3_nan {a b c : F} (ha : key a = none) : key (BBox.max3 a b c) = none := by
  have no : ∀ b, (a <. b) = false := by
    intro b
    rw [Bool.eq_false_iff]
    intro h
    obtain ⟨_, _, h1, -, -⟩ := (lt_iff _ _).1 h
    rw [ha] at h1; cases h1
  unfold BBox.max3
  simp [no, ha]

/-- The two crossing parameters of an axis. -/
def planeT (face start dir : F) : F := (face - start) * (lit 1 / dir)

theorem slab_fst_cases (mn mx s d : F) : (BBox.slab mn mx s d).1 = planeT mn s d ∨ (BBox.slab mn mx s d).1 = planeT mx s d := by
  unfold BBox.slab fmin
  dsimp only
  split
  · exact .inl rfl
  · exact .inr rfl

theorem slab_snd_cases (mn mx s d : F) : (BBox.slab mn mx s d).2 = planeT mn s d ∨ (BBox.slab mn mx s d).2 = planeT mx s d := by
  unfold BBox.slab fmax
  dsimp only
  split
  · exact .inl rfl
  · exact .inr rfl

/-- Entry into and exit from a slab are NaN together. -/
theorem slab_nan (mn mx s d : F) (h : key (BBox.slab mn mx s d).2 = none) : key (BBox.slab mn mx s d).1 = none := by
  unfold BBox.slab at h ⊢
  dsimp only at h ⊢
  generalize (mn - s) * (lit 1 / d) = a at *
  generalize (mx - s) * (lit 1 / d) = b at *
  unfold fmax at h
  unfold fmin
  cases ha : key a with
  | none =>
    have h1 : (b <. a) = false := by
      rw [Bool.eq_false_iff]
      intro h
      obtain ⟨_, _, -, h1, -⟩ := (lt_iff _ _).1 h
      rw [ha] at h1; cases h1
    rw [h1, if_neg (by simp)] at h
    split
    · exact ha
    · exact h
  | some x =>
    cases hb : key b with
    | none =>
      have h1 : (a <. b) = false := by
        rw [Bool.eq_false_iff]
        intro h
        obtain ⟨_, _, -, h1, -⟩ := (lt_iff _ _).1 h
        rw [hb] at h1; cases h1
      rw [h1, if_neg (by simp), hb]
    | some y =>
      rw [← fmax, key_fmax ha hb] at h
      cases h

/-- The crossing parameter of a plane the box reports: it is finite if on some axis the exit is, and belongs to a face. -/
theorem box_face (b : BBox F) (r : Ray F) (hk : ∃ (i : Fin 3) (x : ℝ),
      key (BBox.slab (b.min.get i) (b.max.get i) (r.start.get i) (r.dir.get i)).2 = some (x : EReal))
    (ht : (b.intersect r >. lit 0) = true) :
    (∃ y : ℝ, key (b.intersect r) = some (y : EReal)) ∧
      ∃ i : Fin 3, b.intersect r = planeT (b.min.get i) (r.start.get i) (r.dir.get i) ∨
        b.intersect r = planeT (b.max.get i) (r.start.get i) (r.dir.get i) := by
  obtain ⟨i, x, hx⟩ := hk
  unfold BBox.intersect BBox.tenTex at ht ⊢
  dsimp only at ht ⊢
  generalize e0 : BBox.slab b.min.x b.max.x r.start.x r.dir.x = sx at *
  generalize e1 : BBox.slab b.min.y b.max.y r.start.y r.dir.y = sy at *
  generalize e2 : BBox.slab b.min.z b.max.z r.start.z r.dir.z = sz at *
  have hv : ∃ v, (v = sx.2 ∨ v = sy.2 ∨ v = sz.2) ∧ key v = some (x : EReal) := by
    fin_cases i
    · exact ⟨sx.2, .inl rfl, by rw [← e0]; exact hx⟩
    · exact ⟨sy.2, .inr (.inl rfl), by rw [← e1]; exact hx⟩
    · exact ⟨sz.2, .inr (.inr rfl), by rw [← e2]; exact hx⟩
  obtain ⟨v, hv, hvx⟩ := hv
  have hnan : key sx.2 = none → key sx.1 = none := by rw [← e0]; exact slab_nan _ _ _ _
  have face1 : ∀ t, (t = sx.1 ∨ t = sy.1 ∨ t = sz.1) ∨ (t = sx.2 ∨ t = sy.2 ∨ t = sz.2) →
      ∃ i : Fin 3, t = planeT (b.min.get i) (r.start.get i) (r.dir.get i) ∨
        t = planeT (b.max.get i) (r.start.get i) (r.dir.get i) := by
    rintro t ((rfl | rfl | rfl) | (rfl | rfl | rfl))
    · exact ⟨0, by rw [← e0]; exact slab_fst_cases _ _ _ _⟩
    · exact ⟨1, by rw [← e1]; exact slab_fst_cases _ _ _ _⟩
    · exact ⟨2, by rw [← e2]; exact slab_fst_cases _ _ _ _⟩
    · exact ⟨0, by rw [← e0]; exact slab_snd_cases _ _ _ _⟩
    · exact ⟨1, by rw [← e1]; exact slab_snd_cases _ _ _ _⟩
    · exact ⟨2, by rw [← e2]; exact slab_snd_cases _ _ _ _⟩
  have pos : ∀ {t : F} {z : EReal}, (t >. lit 0) = true → key t = some z → z ≤ x → ∃ y : ℝ, key t = some (y : EReal) := by
    intro t z h hz hzx
    obtain ⟨p, q, h1, h2, h3⟩ := (lt_iff _ _).1 h
    rw [key_zero, Option.some.injEq] at h1
    rw [hz, Option.some.injEq] at h2
    subst h1 h2
    induction z with
    | bot => simp at h3
    | top => simp at hzx
    | coe y => exact ⟨y, hz⟩
  split at ht
  · rw [zero_not_pos] at ht; cases ht
  next h =>
    rw [if_neg h]
    split at ht
    next h' =>
      rw [if_pos h']
      refine ⟨?_, face1 _ (.inr (min3_cases _ _ _))⟩
      cases hn : key sx.2 with
      | none =>
        exfalso
        obtain ⟨_, _, h1, -, -⟩ := (lt_iff _ _).1 h'
        rw [max3_nan (hnan hn)] at h1; cases h1
      | some a =>
        obtain ⟨z, hz, hzx⟩ := min3_key_le hn hv hvx
        exact pos ht hz hzx
    next h' =>
      rw [if_neg h']
      refine ⟨?_, face1 _ (.inl (max3_cases _ _ _))⟩
      obtain ⟨_, w, -, hw, -⟩ := (lt_iff _ _).1 ht
      cases hn : key sx.2 with
      | none => rw [max3_nan (hnan hn)] at hw; cases hw
      | some a =>
        obtain ⟨z, hz, hzx⟩ := min3_key_le hn hv hvx
        refine pos ht hw (le_trans (not_lt.1 fun hlt => h ?_) hzx)
        exact (lt_iff _ _).2 ⟨_, _, hz, hw, hlt⟩

end

theorem Flo.Is.of_eq {a : Flo} {x y : ℝ} (h : a.Is x) (e : x = y) : a.Is y := e ▸ h

theorem flo_lit_one : (lit 1 : Flo).Is 1 := by
  have := Flo.rnd_exact_is 1 false 1 0 (by norm_num) (by norm_num) (by norm_num) (by rw [abs_of_pos] <;> norm_num)
  change (Flo.rnd (lit 1)).Is _
  rw [Ext.lit_ext]
  push_cast
  exact this

theorem Flo.Is.key {a : Flo} {x : ℝ} (h : a.Is x) : CmpModel.key a = some (x : EReal) := by
  obtain ⟨s, hs⟩ := h
  change Ext.key a.e = _
  rw [hs]; rfl

/-- A number at a real position is finite. -/
theorem flo_of_key {a : Flo} {x : ℝ} (h : CmpModel.key a = some (x : EReal)) : a.Is x := by
  change Ext.key a.e = _ at h
  cases he : a.e with
  | nan => rw [he] at h; cases h
  | inf s => rw [he] at h; cases s <;> simp [Ext.key] at h
  | num y s =>
    rw [he] at h
    simp only [Ext.key, Option.some.injEq, EReal.coe_eq_coe_iff] at h
    exact ⟨s, by rw [he, h]⟩

/-- Products of infinities and finite numbers are not finite. -/
theorem not_is_inf_mul {a b : Flo} {s : Bool} {x : ℝ} (hb : b.e = .inf s) (h : (a * b).Is x) : False := by
  obtain ⟨t, ht⟩ := h
  change (Flo.rnd (a.e * b.e)).e = _ at ht
  rw [hb] at ht
  cases ha : a.e with
  | nan => rw [ha] at ht; cases ht
  | inf s => rw [ha] at ht; cases ht
  | num y u =>
    rw [ha, Ext.num_mul_inf] at ht
    split at ht <;> cases ht

theorem mul_finite {a b : Flo} {x y T : ℝ} (ha : a.Is x) (hb : b.Is y) (h : (a * b).Is T) : T = roundBits 53 (x * y) := by
  obtain ⟨s, hs⟩ := ha
  obtain ⟨t, ht⟩ := hb
  obtain ⟨u, hu⟩ := h
  change (Flo.rnd (a.e * b.e)).e = _ at hu
  rw [hs, ht, Ext.num_mul_num] at hu
  rcases Flo.rnd_cases (x * y) ((Ext.num x s).sgn ^^ (Ext.num y t).sgn) with ⟨v, h⟩ | ⟨v, h⟩
  · rw [h] at hu; cases hu
  · rw [h] at hu
    injection hu with h1 _
    exact h1.symm

theorem err_le {x y B E : ℝ} (h : |y - x| ≤ |x| / 2 ^ 53 + 1 / 2 ^ 200) (hx : |x| ≤ B) (hB : B / 2 ^ 53 + 1 / 2 ^ 200 ≤ E) :
    |y - x| ≤ E := by
  have := div_le_div_of_nonneg_right hx (by positivity : (0 : ℝ) ≤ 2 ^ 53)
  linarith

/-- If a ray's crossing with the plane of a face is a finite number, the point at that parameter is within the tolerance
`10^-8` of the plane, for coordinates up to four million. -/
theorem plane_hit {m s d t : Flo} {M S D T : ℝ} (hm : m.Is M) (hs : s.Is S) (hd : d.Is D) (hM : |M| ≤ 2 ^ 22)
    (hD1 : |D| ≤ 2 ^ 100)
    (hS : |S| ≤ 2 ^ 22) (et : t = planeT m s d) (ht : t.Is T) : BBox.approx (s + t * d) m = true := by
  rw [planeT] at et
  subst et
  rw [abs_le] at hM hS
  have big : (2 : ℝ) ^ 60 ≤ 2 ^ 200 := pow_le_pow_right₀ (by norm_num) (by norm_num)
  -- the difference
  have hMS : |M - S| ≤ 2 ^ 23 := by rw [abs_le]; constructor <;> linarith
  have hA := Flo.sub_is hm hs (hMS.trans ((by norm_num : (2 : ℝ) ^ 23 ≤ 2 ^ 60).trans big))
  have hA1 := roundBits_err 53 (by norm_num) (M - S)
  generalize roundBits 53 (M - S) = A at *
  -- the reciprocal
  obtain ⟨sd, ed⟩ := hd
  obtain ⟨s1, e1⟩ := flo_lit_one
  have ei : ((lit 1 : Flo) / d).e = (Flo.rnd ((.num 1 s1) / (.num D sd))).e := by
    change (Flo.rnd ((lit 1 : Flo).e / d.e)).e = _
    rw [e1, ed]
  have hD : D ≠ 0 := by
    rintro rfl
    rw [Ext.num_div_zero] at ei
    simp only [one_ne_zero, if_false] at ei
    exact not_is_inf_mul ei ht
  rw [Ext.num_div_num _ _ _ _ hD] at ei
  rcases Flo.rnd_cases (1 / D) ((Ext.num 1 s1).sgn ^^ (Ext.num D sd).sgn) with ⟨u, h⟩ | ⟨u, h⟩
  · exact (not_is_inf_mul (ei.trans h) ht).elim
  have hR : ((lit 1 : Flo) / d).Is (roundBits 53 (1 / D)) := ⟨_, ei.trans h⟩
  have hR1 := roundBits_rel 53 (by norm_num) (by norm_num) (x := 1 / D) (by
    rw [abs_div, abs_one]
    refine one_div_le_one_div_of_le (abs_pos.2 hD) (hD1.trans ?_)
    norm_num)
  generalize roundBits 53 (1 / D) = R at *
  clear h
  -- the parameter
  have eT := mul_finite hA hR ht
  have hT1 := roundBits_err 53 (by norm_num) (A * R)
  rw [← eT] at hT1
  -- its product with the direction
  have hq : |R * D - 1| ≤ 1 / 2 ^ 53 := by
    have e : R * D - 1 = (R - 1 / D) * D := by field_simp
    rw [e, abs_mul]
    refine (mul_le_mul_of_nonneg_right hR1 (abs_nonneg D)).trans (le_of_eq ?_)
    rw [abs_div, abs_one]
    field_simp
  have hA2 : |A - (M - S)| ≤ 101 / 100 / 2 ^ 30 := by
    exact err_le hA1 hMS (by norm_num)
  have hA3 : |A| ≤ 2 ^ 23 + 1 := by
    rw [abs_le] at hA2 hMS ⊢
    constructor <;> norm_num at * <;> linarith
  have hAq : |A * (R * D) - (M - S)| ≤ 21 / 10 / 2 ^ 30 := by
    have e : A * (R * D) - (M - S) = A * (R * D - 1) + (A - (M - S)) := by ring
    rw [e]
    refine (abs_add_le _ _).trans ?_
    rw [abs_mul]
    have := mul_le_mul hA3 hq (abs_nonneg _) (by positivity)
    norm_num at *
    linarith
  have hTD : |T * D - A * (R * D)| ≤ 11 / 10 / 2 ^ 30 := by
    have e : T * D - A * (R * D) = (T - A * R) * D := by ring
    rw [e, abs_mul]
    have h1 := mul_le_mul_of_nonneg_right hT1 (abs_nonneg D)
    have h2 : (|A * R| / 2 ^ 53 + 1 / 2 ^ 200) * |D| = |A * (R * D)| / 2 ^ 53 + 1 / 2 ^ 200 * |D| := by
      rw [← mul_assoc A R D, abs_mul (A * R) D]; ring
    rw [h2] at h1
    refine h1.trans ?_
    have h4 : 1 / 2 ^ 200 * |D| ≤ 1 / 2 ^ 100 := by
      refine (mul_le_mul_of_nonneg_left hD1 (by positivity)).trans (by norm_num)
    rw [abs_le] at hAq hMS
    have h3 : |A * (R * D)| ≤ 2 ^ 23 + 1 := by
      rw [abs_le]; constructor <;> norm_num at * <;> linarith
    have h5 := div_le_div_of_nonneg_right h3 (by positivity : (0 : ℝ) ≤ 2 ^ 53)
    refine (add_le_add h5 h4).trans (by norm_num)
  have hP : |T * D - (M - S)| ≤ 32 / 10 / 2 ^ 30 := by
    rw [abs_le] at hAq hTD ⊢
    constructor <;> norm_num at * <;> linarith
  have hP2 : |T * D| ≤ 2 ^ 23 + 1 := by
    rw [abs_le] at hP hMS ⊢
    constructor <;> norm_num at * <;> linarith
  have iP := Flo.mul_is ht ⟨sd, ed⟩ (hP2.trans ((by norm_num : (2 : ℝ) ^ 23 + 1 ≤ 2 ^ 60).trans big))
  have hP3 := roundBits_err 53 (by norm_num) (T * D)
  generalize roundBits 53 (T * D) = P at *
  have hP4 : |P - T * D| ≤ 11 / 10 / 2 ^ 30 := by
    exact err_le hP3 hP2 (by norm_num)
  have hP5 : |S + P - M| ≤ 43 / 10 / 2 ^ 30 := by
    rw [abs_le] at hP hP4 ⊢
    constructor <;> norm_num at * <;> linarith
  -- the point
  have hQ2 : |S + P| ≤ 2 ^ 22 + 1 := by
    rw [abs_le] at hP5 ⊢
    constructor <;> norm_num at * <;> linarith
  have iQ := Flo.add_is hs iP (hQ2.trans ((by norm_num : (2 : ℝ) ^ 22 + 1 ≤ 2 ^ 60).trans big))
  have hQ3 := roundBits_err 53 (by norm_num) (S + P)
  generalize roundBits 53 (S + P) = Q at *
  have hQ4 : |Q - (S + P)| ≤ 6 / 10 / 2 ^ 30 := by
    exact err_le hQ3 hQ2 (by norm_num)
  have hQ5 : |Q - M| ≤ 5 / 2 ^ 30 := by
    rw [abs_le] at hQ4 hP5 ⊢
    constructor <;> norm_num at * <;> linarith
  -- the comparison
  have iZ := Flo.sub_is iQ hm (hQ5.trans ((by norm_num : (5 : ℝ) / 2 ^ 30 ≤ 2 ^ 60).trans big))
  have hZ := roundBits_err 53 (by norm_num) (Q - M)
  generalize roundBits 53 (Q - M) = Z at *
  have hZ2 : |Z| ≤ 6 / 2 ^ 30 := by
    have h2 : |Z - (Q - M)| ≤ 1 / 2 ^ 30 := by
      exact err_le hZ hQ5 (by norm_num)
    rw [abs_le] at h2 hQ5 ⊢
    constructor <;> norm_num at * <;> linarith
  have iabs : (GoFloat.abs (s + (m - s) * (lit 1 / d) * d - m)).Is |Z| := by
    obtain ⟨sz, ez⟩ := iZ
    refine ⟨false, ?_⟩
    change GoFloat.abs (s + (m - s) * (lit 1 / d) * d - m).e = _
    rw [ez]
    rfl
  have itol : (lit (1 / 10 ^ 8) : Flo).Is (roundBits 53 (1 / 10 ^ 8)) := by
    change (Flo.rnd (lit (1 / 10 ^ 8))).Is _
    rw [Ext.lit_ext]
    push_cast
    refine Flo.rnd_is _ ?_
    rw [abs_of_pos (by positivity)]
    exact (by norm_num : (1 / 10 ^ 8 : ℝ) ≤ 2 ^ 60).trans big
  have htol := roundBits_err 53 (by norm_num) (1 / 10 ^ 8)
  generalize roundBits 53 (1 / 10 ^ 8) = tol at *
  unfold BBox.approx
  rw [Flo.lt_is iabs itol, decide_eq_true_eq]
  refine hZ2.trans_lt ?_
  rw [abs_le, abs_of_pos (by positivity : (0 : ℝ) < 1 / 10 ^ 8)] at htol
  norm_num at *
  linarith

/-- In double precision a box with coordinates up to four million does not fail for a ray that starts within four
million and whose direction has a component of at least a quarter. -/
theorem box_hit_flo {M : Type} (b : BBox Flo) (m : Option M) (r : Ray Flo)
    (hmin : ∀ i, ∃ x, (b.min.get i).Is x ∧ |x| ≤ 2 ^ 22) (hmax : ∀ i, ∃ x, (b.max.get i).Is x ∧ |x| ≤ 2 ^ 22)
    (hs : ∀ i, ∃ x, (r.start.get i).Is x ∧ |x| ≤ 2 ^ 22) (hd : ∀ i, ∃ x, (r.dir.get i).Is x ∧ |x| ≤ 2 ^ 100)
    (hbig : ∃ i x, (r.dir.get i).Is x ∧ 1 / 4 ≤ |x|) : ∃ h, b.hit m r = .ok h := by
  unfold BBox.hit
  dsimp only
  cases ht : b.intersect r >. lit 0 with
  | false => exact ⟨_, rfl⟩
  | true =>
    have key : ∃ (i : Fin 3) (x : ℝ),
        CmpModel.key (BBox.slab (b.min.get i) (b.max.get i) (r.start.get i) (r.dir.get i)).2 = some (x : EReal) := by
      obtain ⟨i, D, iD, hD⟩ := hbig
      refine ⟨i, ?_⟩
      obtain ⟨S, iS, hS⟩ := hs i
      have fin : ∀ {f : Flo} {X : ℝ}, f.Is X → |X| ≤ 2 ^ 22 → ∃ x : ℝ, (planeT f (r.start.get i) (r.dir.get i)).Is x := by
        intro f X iX hX
        have big : (2 : ℝ) ^ 60 ≤ 2 ^ 200 := pow_le_pow_right₀ (by norm_num) (by norm_num)
        have hXS : |X - S| ≤ 2 ^ 23 := by rw [abs_le] at *; constructor <;> linarith
        have hA := Flo.sub_is iX iS (hXS.trans ((by norm_num : (2 : ℝ) ^ 23 ≤ 2 ^ 60).trans big))
        have hA1 := roundBits_err 53 (by norm_num) (X - S)
        have hA2 : |roundBits 53 (X - S)| ≤ 2 ^ 24 := by
          have h1 : |roundBits 53 (X - S) - (X - S)| ≤ 1 := err_le hA1 hXS (by norm_num)
          rw [abs_le] at h1 hXS ⊢
          constructor <;> norm_num at * <;> linarith
        have hD0 : D ≠ 0 := by rintro rfl; norm_num at hD
        have hDi : |1 / D| ≤ 4 := by
          rw [abs_div, abs_one, div_le_iff₀ (by linarith)]; linarith
        have hR := Flo.div_is flo_lit_one iD hD0 (hDi.trans ((by norm_num : (4 : ℝ) ≤ 2 ^ 60).trans big))
        have hR1 := roundBits_err 53 (by norm_num) (1 / D)
        have hR2 : |roundBits 53 (1 / D)| ≤ 5 := by
          have h1 : |roundBits 53 (1 / D) - (1 / D)| ≤ 1 := err_le hR1 hDi (by norm_num)
          have h2 := abs_sub_abs_le_abs_sub (roundBits 53 (1 / D)) (1 / D)
          linarith
        refine ⟨_, Flo.mul_is hA hR ?_⟩
        rw [abs_mul]
        refine (mul_le_mul hA2 hR2 (abs_nonneg _) (by positivity)).trans ((by norm_num : (2 : ℝ) ^ 24 * 5 ≤ 2 ^ 60).trans big)
      rcases slab_snd_cases (b.min.get i) (b.max.get i) (r.start.get i) (r.dir.get i) with h | h
      · obtain ⟨X, iX, hX⟩ := hmin i
        obtain ⟨x, ix⟩ := fin iX hX
        exact ⟨x, by rw [h]; exact ix.key⟩
      · obtain ⟨X, iX, hX⟩ := hmax i
        obtain ⟨x, ix⟩ := fin iX hX
        exact ⟨x, by rw [h]; exact ix.key⟩
    obtain ⟨⟨T, hT⟩, i, hface⟩ := box_face b r key ht
    have iT := flo_of_key hT
    obtain ⟨S, iS, hS⟩ := hs i
    obtain ⟨D, iD, hD⟩ := hd i
    obtain ⟨X, iX, hX⟩ := hmin i
    obtain ⟨Y, iY, hY⟩ := hmax i
    generalize b.intersect r = t at *
    have hn : ∃ n, b.normal (r.at t) = .ok n := by
      have h : BBox.approx (r.start.get i + t * r.dir.get i) (b.min.get i) = true ∨
          BBox.approx (r.start.get i + t * r.dir.get i) (b.max.get i) = true :=
        hface.imp (fun e => plane_hit iX iS iD hX hD hS e iT) (fun e => plane_hit iY iS iD hY hD hS e iT)
      unfold BBox.normal Ray.at Vec.madd
      dsimp only
      split
      · exact ⟨_, rfl⟩
      split
      · exact ⟨_, rfl⟩
      split
      · exact ⟨_, rfl⟩
      split
      · exact ⟨_, rfl⟩
      split
      · exact ⟨_, rfl⟩
      split
      · exact ⟨_, rfl⟩
      exfalso
      fin_cases i <;> rcases h with h | h <;> simp_all [Vec.get]
    obtain ⟨n, hn⟩ := hn
    exact ⟨⟨t, n, (r.at t).sub b.min, m⟩, by rw [hn]; rfl⟩

end BR
