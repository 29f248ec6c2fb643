import Verif.Lemmas.BoxErr
import Verif.Lemmas.Near

/-! In double precision, where the planes of a box are crossed. -/

namespace BR

open CmpModel

/-- Where a ray crosses planes at right angles to an axis, in double precision: `σ` is the sense in which the ray moves
along the axis. A crossing before `T` is behind the point at `T`, a crossing after `T` ahead of it, up to `2^-40`. -/
theorem plane_law {s d : Flo} {S D : ℝ} (hs : s.Is S) (hd : d.Is D) (hS : |S| ≤ 2 ^ 10) (hD2 : |D| ≤ 2) :
    ∃ σ : ℝ, (σ = 1 ∨ σ = -1) ∧ (1 / 2 ^ 100 < |D| → 0 < σ * D) ∧ ∀ (f : Flo) (F : ℝ), f.Is F → |F| ≤ 2 ^ 10 → ∀ T : ℝ, 0 ≤ T → T ≤ 2 ^ 14 →
      (key (planeT f s d) = none → |F - S| ≤ 1 / 2 ^ 40 ∧ |T * D| ≤ 1 / 2 ^ 40) ∧
      ∀ k, key (planeT f s d) = some k → (k ≤ (T : EReal) → σ * (F - (S + T * D)) ≤ 1 / 2 ^ 40) ∧
        ((T : EReal) ≤ k → σ * (S + T * D - F) ≤ 1 / 2 ^ 40) := by
  obtain ⟨sd, ed⟩ := hd
  obtain ⟨s1, e1⟩ := flo_lit_one
  have ei : ((lit 1 : Flo) / d).e = (Flo.rnd ((.num 1 s1) / (.num D sd))).e := by
    change (Flo.rnd ((lit 1 : Flo).e / d.e)).e = _
    rw [e1, ed]
  -- the difference
  have diff : ∀ (f : Flo) (F : ℝ), f.Is F → |F| ≤ 2 ^ 10 → ∃ A, (f - s).Is A ∧ |A - (F - S)| ≤ 101 / 100 / 2 ^ 42 ∧ |F - S| ≤ 2 ^ 11 := by
    intro f F hf hF
    have hFS : |F - S| ≤ 2 ^ 11 := by rw [abs_le] at *; constructor <;> linarith
    exact ⟨_, Flo.sub_is hf hs (hFS.trans (by norm_num)), err_le (roundBits_err 53 (by norm_num) _) hFS (by norm_num), hFS⟩
  -- nearly parallel to the plane
  have flat : ∀ t, ((lit 1 : Flo) / d).e = .inf t → |D| ≤ 1 / 2 ^ 100 → ∃ σ : ℝ, (σ = 1 ∨ σ = -1) ∧ (1 / 2 ^ 100 < |D| → 0 < σ * D) ∧
      ∀ (f : Flo) (F : ℝ), f.Is F → |F| ≤ 2 ^ 10 → ∀ T : ℝ, 0 ≤ T → T ≤ 2 ^ 14 →
      (key (planeT f s d) = none → |F - S| ≤ 1 / 2 ^ 40 ∧ |T * D| ≤ 1 / 2 ^ 40) ∧
      ∀ k, key (planeT f s d) = some k → (k ≤ (T : EReal) → σ * (F - (S + T * D)) ≤ 1 / 2 ^ 40) ∧
        ((T : EReal) ≤ k → σ * (S + T * D - F) ≤ 1 / 2 ^ 40) := by
    intro t et hDs
    refine ⟨if t then -1 else 1, by cases t <;> simp, fun h => absurd hDs (not_le.2 h), ?_⟩
    intro f F hf hF T hT0 hT1
    obtain ⟨A, ⟨sA, hA⟩, hA1, hFS⟩ := diff f F hf hF
    have hTD : |T * D| ≤ 1 / 2 ^ 50 := by
      rw [abs_mul, abs_of_nonneg hT0]
      exact (mul_le_mul hT1 hDs (abs_nonneg _) (by positivity)).trans (by norm_num)
    have ep : (planeT f s d).e = (Flo.rnd (if A = 0 then .nan else .inf (Ext.sgn (.num A sA) ^^ t))).e := by
      change (Flo.rnd ((f - s).e * ((lit 1 : Flo) / d).e)).e = _
      rw [hA, et, Ext.num_mul_inf]
    rw [abs_le] at hA1 hTD
    by_cases hA0 : A = 0
    · rw [if_pos hA0] at ep
      have ek : key (planeT f s d) = none := by
        change Ext.key _ = _
        rw [ep]; rfl
      rw [ek]
      refine ⟨fun _ => ⟨?_, ?_⟩, fun k hk => by cases hk⟩
      · rw [abs_le]; subst hA0; constructor <;> norm_num at * <;> linarith
      · rw [abs_le]; constructor <;> norm_num at * <;> linarith
    · rw [if_neg hA0] at ep
      have es : Ext.sgn (.num A sA) = decide (A < 0) := by simp [Ext.sgn, hA0]
      have ek : key (planeT f s d) = Ext.key (.inf (decide (A < 0) ^^ t)) := by
        change Ext.key _ = _
        rw [ep, es]; rfl
      rw [ek]
      refine ⟨fun h => ?_, fun k hk => ?_⟩
      · cases hh : (decide (A < 0) ^^ t) <;> rw [hh] at h <;> cases h
      · rcases lt_or_gt_of_ne hA0 with hneg | hpos
        · rw [decide_eq_true hneg] at hk
          cases t with
          | true =>
            simp only [Bool.xor_self, Ext.key, Option.some.injEq] at hk
            subst hk
            refine ⟨fun h => by simp at h, fun _ => ?_⟩
            simp only [if_true]
            norm_num at *; linarith
          | false =>
            simp only [Bool.xor_false, Ext.key, Option.some.injEq] at hk
            subst hk
            refine ⟨fun _ => ?_, fun h => by simp at h⟩
            simp only [Bool.false_eq_true, if_false]
            norm_num at *; linarith
        · rw [decide_eq_false (not_lt.2 hpos.le)] at hk
          cases t with
          | true =>
            simp only [Bool.xor_true, Bool.not_false, Ext.key, Option.some.injEq] at hk
            subst hk
            refine ⟨fun _ => ?_, fun h => by simp at h⟩
            simp only [if_true]
            norm_num at *; linarith
          | false =>
            simp only [Bool.xor_false, Ext.key, Option.some.injEq] at hk
            subst hk
            refine ⟨fun h => by simp at h, fun _ => ?_⟩
            simp only [Bool.false_eq_true, if_false]
            norm_num at *; linarith
  rcases eq_or_ne D 0 with hD | hD
  · subst hD
    rw [Ext.num_div_zero, if_neg one_ne_zero] at ei
    exact flat _ ei (by norm_num)
  rw [Ext.num_div_num _ _ _ _ hD] at ei
  rcases Flo.rnd_cases (1 / D) ((Ext.num 1 s1).sgn ^^ (Ext.num D sd).sgn) with ⟨u, h⟩ | ⟨u, h⟩
  · refine flat u (ei.trans h) ?_
    by_contra hlt
    rw [not_le] at hlt
    have h2 : |1 / D| ≤ 2 ^ 200 := by
      rw [abs_div, abs_one, div_le_iff₀ (abs_pos.2 hD)]
      have := mul_le_mul_of_nonneg_left hlt.le (by positivity : (0 : ℝ) ≤ 2 ^ 200)
      norm_num at *; linarith
    obtain ⟨v, hv⟩ := Flo.rnd_is ((Ext.num 1 s1).sgn ^^ (Ext.num D sd).sgn) h2
    rw [h] at hv; cases hv
  have hR : ((lit 1 : Flo) / d).Is (roundBits 53 (1 / D)) := ⟨_, ei.trans h⟩
  have hR1 := roundBits_rel 53 (by norm_num) (by norm_num) (x := 1 / D) (by
    rw [abs_div, abs_one]
    refine one_div_le_one_div_of_le (abs_pos.2 hD) (hD2.trans ?_)
    norm_num)
  generalize roundBits 53 (1 / D) = R at *
  clear h ei flat
  have hq : |R * D - 1| ≤ 1 / 2 ^ 53 := by
    have e : R * D - 1 = (R - 1 / D) * D := by field_simp
    rw [e, abs_mul]
    refine (mul_le_mul_of_nonneg_right hR1 (abs_nonneg D)).trans (le_of_eq ?_)
    rw [abs_div, abs_one]
    field_simp
  obtain ⟨σ, hσ, hσD⟩ : ∃ σ : ℝ, (σ = 1 ∨ σ = -1) ∧ 0 < σ * D := by
    rcases lt_or_gt_of_ne hD with h | h
    · exact ⟨-1, .inr rfl, by linarith⟩
    · exact ⟨1, .inl rfl, by linarith⟩
  refine ⟨σ, hσ, fun _ => hσD, ?_⟩
  intro f F hf hF T hT0 hT1
  obtain ⟨A, hA, hA2, hFS⟩ := diff f F hf hF
  have hA3 : |A| ≤ 2 ^ 11 + 1 := by
    rw [abs_le] at hA2 hFS ⊢
    constructor <;> norm_num at * <;> linarith
  have hAq : |A * R * D - (F - S)| ≤ 21 / 10 / 2 ^ 42 := by
    have e : A * R * D - (F - S) = A * (R * D - 1) + (A - (F - S)) := by ring
    rw [e]
    refine (abs_add_le _ _).trans ?_
    rw [abs_mul]
    have := mul_le_mul hA3 hq (abs_nonneg _) (by positivity)
    norm_num at *
    linarith
  have hσle : ∀ {x : ℝ} {e : ℝ}, |x| ≤ e → σ * x ≤ e := by
    intro x e hx
    rw [abs_le] at hx
    rcases hσ with rfl | rfl <;> linarith
  obtain ⟨sA, eA⟩ := hA
  obtain ⟨sR, eR⟩ := hR
  have ep : (planeT f s d).e = (Flo.rnd (.num (A * R) (Ext.sgn (.num A sA) ^^ Ext.sgn (.num R sR)))).e := by
    change (Flo.rnd ((f - s).e * ((lit 1 : Flo) / d).e)).e = _
    rw [eA, eR, Ext.num_mul_num]
  generalize (Ext.sgn (.num A sA) ^^ Ext.sgn (.num R sR)) = w at ep
  by_cases hbig : (2 : ℝ) ^ 1024 ≤ |roundBits 53 (A * R)|
  · have ek : key (planeT f s d) = Ext.key (.inf (decide (A * R < 0))) := by
      change Ext.key _ = _
      rw [ep]
      unfold Flo.rnd Flo.roundTo
      dsimp only
      rw [if_pos hbig]
    have hlarge : 2 ^ 200 < |A * R| := by
      by_contra hle
      obtain ⟨v, hv⟩ := Flo.rnd_is w (not_lt.1 hle)
      unfold Flo.rnd Flo.roundTo at hv
      dsimp only at hv
      rw [if_pos hbig] at hv
      cases hv
    have hbT : T ≤ 2 ^ 200 := hT1.trans (by norm_num)
    rw [ek]
    by_cases hneg : A * R < 0
    · rw [decide_eq_true hneg]
      refine ⟨fun h => by simp [Ext.key] at h, fun k hk => ?_⟩
      simp only [Ext.key, Option.some.injEq] at hk
      subst hk
      refine ⟨fun _ => ?_, fun h => by simp at h⟩
      rw [abs_of_neg hneg] at hlarge
      have h1 := mul_le_mul_of_nonneg_right (show A * R ≤ T by linarith) hσD.le
      have h2 := hσle (x := F - S - A * R * D) (e := 21 / 10 / 2 ^ 42) (by rwa [abs_sub_comm])
      have e3 : σ * (F - (S + T * D)) = σ * (F - S - A * R * D) + (A * R * (σ * D) - T * (σ * D)) := by ring
      rw [e3]
      norm_num at *; linarith
    · rw [decide_eq_false hneg]
      refine ⟨fun h => by simp [Ext.key] at h, fun k hk => ?_⟩
      simp only [Ext.key, Option.some.injEq] at hk
      subst hk
      refine ⟨fun h => by simp at h, fun _ => ?_⟩
      rw [abs_of_nonneg (not_lt.1 hneg)] at hlarge
      have h1 := mul_le_mul_of_nonneg_right (show T ≤ A * R by linarith) hσD.le
      have h2 := hσle (x := A * R * D - (F - S)) hAq
      have e3 : σ * (S + T * D - F) = σ * (A * R * D - (F - S)) + (T * (σ * D) - A * R * (σ * D)) := by ring
      rw [e3]
      norm_num at *; linarith
  · have ek : key (planeT f s d) = some ((roundBits 53 (A * R) : ℝ) : EReal) := by
      change Ext.key _ = _
      rw [ep]
      unfold Flo.rnd Flo.roundTo
      dsimp only
      rw [if_neg hbig]
      rfl
    rw [ek]
    have hK := roundBits_err 53 (by norm_num) (A * R)
    generalize roundBits 53 (A * R) = K at *
    have hKD : |K * D - (F - S)| ≤ 33 / 10 / 2 ^ 42 := by
      have e : K * D - (F - S) = (K - A * R) * D + (A * R * D - (F - S)) := by ring
      rw [e]
      refine (abs_add_le _ _).trans ?_
      rw [abs_mul]
      have h1 := mul_le_mul_of_nonneg_right hK (abs_nonneg D)
      have h2 : (|A * R| / 2 ^ 53 + 1 / 2 ^ 200) * |D| = |A * R * D| / 2 ^ 53 + 1 / 2 ^ 200 * |D| := by
        rw [abs_mul (A * R) D]; ring
      rw [h2] at h1
      have h4 : 1 / 2 ^ 200 * |D| ≤ 1 / 2 ^ 100 :=
        (mul_le_mul_of_nonneg_left hD2 (by positivity)).trans (by norm_num)
      have h3 : |A * R * D| ≤ 2 ^ 11 + 1 := by
        rw [abs_le] at hAq hFS ⊢
        constructor <;> norm_num at * <;> linarith
      have h5 := div_le_div_of_nonneg_right h3 (by positivity : (0 : ℝ) ≤ 2 ^ 53)
      norm_num at *
      linarith
    refine ⟨fun h => by simp at h, fun k hk => ?_⟩
    simp only [Option.some.injEq] at hk
    subst hk
    refine ⟨fun h => ?_, fun h => ?_⟩
    · have h1 := mul_le_mul_of_nonneg_right (EReal.coe_le_coe_iff.1 h) hσD.le
      have h2 := hσle (x := F - S - K * D) (e := 33 / 10 / 2 ^ 42) (by rwa [abs_sub_comm])
      have e3 : σ * (F - (S + T * D)) = σ * (F - S - K * D) + (K * (σ * D) - T * (σ * D)) := by ring
      rw [e3]
      norm_num at *; linarith
    · have h1 := mul_le_mul_of_nonneg_right (EReal.coe_le_coe_iff.1 h) hσD.le
      have h2 := hσle (x := K * D - (F - S)) hKD
      have e3 : σ * (S + T * D - F) = σ * (K * D - (F - S)) + (T * (σ * D) - K * (σ * D)) := by ring
      rw [e3]
      norm_num at *; linarith

/-- Entry into and exit from the space between two faces: if the entry is not after `T` and the exit not before it, the
point at `T` is between the faces, up to `2^-38`. -/
theorem slab_sound {lo hi s d : Flo} {Lo Hi S D : ℝ} (hlo : lo.Is Lo) (hhi : hi.Is Hi) (hs : s.Is S) (hd : d.Is D)
    (bLo : |Lo| ≤ 2 ^ 10) (bHi : |Hi| ≤ 2 ^ 10) (bS : |S| ≤ 2 ^ 10) (bD : |D| ≤ 2) (hle : Lo ≤ Hi) {T : ℝ} (hT0 : 0 ≤ T)
    (hT1 : T ≤ 2 ^ 14) (h1 : ∀ k, key (BBox.slab lo hi s d).1 = some k → k ≤ T)
    (h2 : ∀ k, key (BBox.slab lo hi s d).2 = some k → (T : EReal) ≤ k) :
    Lo - 1 / 2 ^ 38 ≤ S + T * D ∧ S + T * D ≤ Hi + 1 / 2 ^ 38 := by
  obtain ⟨σ, hσ, -, law⟩ := plane_law hs hd bS bD
  obtain ⟨n1, l1⟩ := law lo Lo hlo bLo T hT0 hT1
  obtain ⟨n2, l2⟩ := law hi Hi hhi bHi T hT0 hT1
  unfold BBox.slab at h1 h2
  dsimp only at h1 h2
  rw [planeT] at n1 l1 n2 l2
  generalize (lo - s) * (lit 1 / d) = t1 at *
  generalize (hi - s) * (lit 1 / d) = t2 at *
  cases k2 : key t2 with
  | none =>
    obtain ⟨a, b⟩ := n2 k2
    rw [abs_le] at a b
    constructor <;> norm_num at * <;> linarith
  | some y =>
    cases k1 : key t1 with
    | none =>
      have e1 : fmin t1 t2 = t2 := by
        unfold fmin
        rw [if_neg]
        intro h
        obtain ⟨_, _, h, -, -⟩ := (lt_iff _ _).1 h
        rw [k1] at h; cases h
      have e2 : fmax t1 t2 = t2 := by
        unfold fmax
        rw [if_neg]
        intro h
        obtain ⟨_, _, -, h, -⟩ := (lt_iff _ _).1 h
        rw [k1] at h; cases h
      rw [e1] at h1
      rw [e2] at h2
      have a := (l2 y k2).1 (h1 y k2)
      have b := (l2 y k2).2 (h2 y k2)
      rcases hσ with rfl | rfl <;> constructor <;> norm_num at * <;> linarith
    | some x =>
      have a := h1 _ (key_fmin k1 k2)
      have b := h2 _ (key_fmax k1 k2)
      rw [min_le_iff] at a
      rw [le_max_iff] at b
      have a' : σ * (Lo - (S + T * D)) ≤ 1 / 2 ^ 40 ∨ σ * (Hi - (S + T * D)) ≤ 1 / 2 ^ 40 :=
        a.imp (l1 x k1).1 (l2 y k2).1
      have b' : σ * (S + T * D - Lo) ≤ 1 / 2 ^ 40 ∨ σ * (S + T * D - Hi) ≤ 1 / 2 ^ 40 :=
        b.imp (l1 x k1).2 (l2 y k2).2
      rcases hσ with rfl | rfl <;> rcases a' with a' | a' <;> rcases b' with b' | b' <;> constructor <;>
        norm_num at * <;> linarith

/-- If the point at `T` is clearly between the faces, the entry is before `T` and the exit after it. -/
theorem slab_clear {lo hi s d : Flo} {Lo Hi S D : ℝ} (hlo : lo.Is Lo) (hhi : hi.Is Hi) (hs : s.Is S) (hd : d.Is D)
    (bLo : |Lo| ≤ 2 ^ 10) (bHi : |Hi| ≤ 2 ^ 10) (bS : |S| ≤ 2 ^ 10) (bD : |D| ≤ 2) {T : ℝ} (hT0 : 0 ≤ T)
    (hT1 : T ≤ 2 ^ 14) (h1 : Lo + 1 / 2 ^ 38 ≤ S + T * D) (h2 : S + T * D ≤ Hi - 1 / 2 ^ 38) :
    ∃ a b, key (BBox.slab lo hi s d).1 = some a ∧ key (BBox.slab lo hi s d).2 = some b ∧ a < T ∧ (T : EReal) < b := by
  obtain ⟨σ, hσ, -, law⟩ := plane_law hs hd bS bD
  obtain ⟨n1, l1⟩ := law lo Lo hlo bLo T hT0 hT1
  obtain ⟨n2, l2⟩ := law hi Hi hhi bHi T hT0 hT1
  unfold BBox.slab
  dsimp only
  rw [planeT] at n1 l1 n2 l2
  generalize (lo - s) * (lit 1 / d) = t1 at *
  generalize (hi - s) * (lit 1 / d) = t2 at *
  cases k1 : key t1 with
  | none =>
    obtain ⟨a, b⟩ := n1 k1
    rw [abs_le] at a b
    exfalso
    norm_num at *; linarith
  | some x =>
    cases k2 : key t2 with
    | none =>
      obtain ⟨a, b⟩ := n2 k2
      rw [abs_le] at a b
      exfalso
      norm_num at *; linarith
    | some y =>
      refine ⟨_, _, key_fmin k1 k2, key_fmax k1 k2, ?_, ?_⟩
      · rw [min_lt_iff]
        by_contra hn
        rw [not_or, not_lt, not_lt] at hn
        have a := (l1 x k1).2 hn.1
        have b := (l2 y k2).2 hn.2
        rcases hσ with rfl | rfl <;> norm_num at * <;> linarith
      · rw [lt_max_iff]
        by_contra hn
        rw [not_or, not_lt, not_lt] at hn
        have a := (l1 x k1).1 hn.1
        have b := (l2 y k2).1 hn.2
        rcases hσ with rfl | rfl <;> norm_num at * <;> linarith

/-- If the start is clearly not between the faces and the point at `T` clearly is, the entry is ahead. -/
theorem slab_enter {lo hi s d : Flo} {Lo Hi S D : ℝ} (hlo : lo.Is Lo) (hhi : hi.Is Hi) (hs : s.Is S) (hd : d.Is D)
    (bLo : |Lo| ≤ 2 ^ 10) (bHi : |Hi| ≤ 2 ^ 10) (bS : |S| ≤ 2 ^ 10) (bD : |D| ≤ 2) {T : ℝ} (hT0 : 0 ≤ T)
    (hT1 : T ≤ 2 ^ 14) (h1 : Lo + 1 / 2 ^ 38 ≤ S + T * D) (h2 : S + T * D ≤ Hi - 1 / 2 ^ 38)
    (hout : S ≤ Lo - 1 / 2 ^ 38 ∨ Hi + 1 / 2 ^ 38 ≤ S) {a : EReal} (ha : key (BBox.slab lo hi s d).1 = some a) : 0 < a := by
  obtain ⟨σ, hσ, -, law⟩ := plane_law hs hd bS bD
  obtain ⟨n1, l1⟩ := law lo Lo hlo bLo T hT0 hT1
  obtain ⟨n2, l2⟩ := law hi Hi hhi bHi T hT0 hT1
  have z1 := (law lo Lo hlo bLo 0 le_rfl (by norm_num)).2
  have z2 := (law hi Hi hhi bHi 0 le_rfl (by norm_num)).2
  unfold BBox.slab at ha
  dsimp only at ha
  rw [planeT] at n1 l1 n2 l2 z1 z2
  generalize (lo - s) * (lit 1 / d) = t1 at *
  generalize (hi - s) * (lit 1 / d) = t2 at *
  cases k1 : key t1 with
  | none =>
    obtain ⟨a, b⟩ := n1 k1
    rw [abs_le] at a b
    exfalso
    norm_num at *; linarith
  | some x =>
    cases k2 : key t2 with
    | none =>
      obtain ⟨a, b⟩ := n2 k2
      rw [abs_le] at a b
      exfalso
      norm_num at *; linarith
    | some y =>
      rw [key_fmin k1 k2, Option.some.injEq] at ha
      subst ha
      have l1 := l1 x k1
      have l2 := l2 y k2
      have z1 := z1 x k1
      have z2 := z2 y k2
      have hTe : (0 : EReal) ≤ T := by exact_mod_cast hT0
      rw [EReal.coe_zero] at z1 z2
      rw [lt_min_iff]
      rcases hout with hout | hout
      · have hσ1 : σ = 1 := by
          rcases hσ with h | h
          · exact h
          · exfalso
            subst h
            rcases le_total x (T : EReal) with h | h
            · have := l1.1 h; norm_num at *; linarith
            · have := z1.2 (hTe.trans h); norm_num at *; linarith
        subst hσ1
        constructor
        · by_contra h
          have := z1.1 (not_lt.1 h); norm_num at *; linarith
        · by_contra h
          have := z2.1 (not_lt.1 h); norm_num at *; linarith
      · have hσ1 : σ = -1 := by
          rcases hσ with h | h
          · exfalso
            subst h
            rcases le_total y (T : EReal) with h | h
            · have := l2.1 h; norm_num at *; linarith
            · have := z2.2 (hTe.trans h); norm_num at *; linarith
          · exact h
        subst hσ1
        constructor
        · by_contra h
          have := z1.1 (not_lt.1 h); norm_num at *; linarith
        · by_contra h
          have := z2.1 (not_lt.1 h); norm_num at *; linarith

/-- Along an axis on which the ray moves the exit is not far away. -/
theorem slab_soon {lo hi s d : Flo} {Lo Hi S D : ℝ} (hlo : lo.Is Lo) (hhi : hi.Is Hi) (hs : s.Is S) (hd : d.Is D)
    (bLo : |Lo| ≤ 2 ^ 10) (bHi : |Hi| ≤ 2 ^ 10) (bS : |S| ≤ 2 ^ 10) (bD : |D| ≤ 2) (hD : 1 / 4 ≤ |D|) :
    ∃ b : EReal, key (BBox.slab lo hi s d).2 = some b ∧ b < ((2 ^ 14 : ℝ) : EReal) := by
  obtain ⟨σ, hσ, hσD, law⟩ := plane_law hs hd bS bD
  obtain ⟨n1, l1⟩ := law lo Lo hlo bLo (2 ^ 14) (by positivity) le_rfl
  obtain ⟨n2, l2⟩ := law hi Hi hhi bHi (2 ^ 14) (by positivity) le_rfl
  have hσD := hσD (lt_of_lt_of_le (by norm_num) hD)
  have hσD4 : 1 / 4 ≤ σ * D := by
    rcases hσ with rfl | rfl
    · rwa [one_mul, ← abs_of_pos (by linarith : 0 < D)]
    · rwa [neg_one_mul, ← abs_of_neg (by linarith : D < 0)]
  unfold BBox.slab
  dsimp only
  rw [planeT] at n1 l1 n2 l2
  generalize (lo - s) * (lit 1 / d) = t1 at *
  generalize (hi - s) * (lit 1 / d) = t2 at *
  have big : 2 ^ 12 ≤ |2 ^ 14 * D| := by
    rw [abs_mul, abs_of_pos (by positivity)]
    norm_num at *; linarith
  rw [abs_le] at bLo bHi bS
  have far : ∀ {k : EReal} {t : Flo} {Fc : ℝ}, -2 ^ 10 ≤ Fc ∧ Fc ≤ 2 ^ 10 →
      ((((2 : ℝ) ^ 14 : ℝ) : EReal) ≤ k → σ * (S + 2 ^ 14 * D - Fc) ≤ 1 / 2 ^ 40) → k < ((2 ^ 14 : ℝ) : EReal) := by
    intro k t Fc hF h
    by_contra hn
    have h := h (not_lt.1 hn)
    have e : σ * (S + 2 ^ 14 * D - Fc) = 2 ^ 14 * (σ * D) + σ * (S - Fc) := by ring
    rw [e] at h
    rcases hσ with rfl | rfl <;> norm_num at * <;> linarith
  cases k1 : key t1 with
  | none =>
    obtain ⟨a, b⟩ := n1 k1
    exfalso
    norm_num at *; linarith
  | some x =>
    cases k2 : key t2 with
    | none =>
      obtain ⟨a, b⟩ := n2 k2
      exfalso
      norm_num at *; linarith
    | some y =>
      refine ⟨_, key_fmax k1 k2, max_lt ?_ ?_⟩
      · exact far (t := t1) bLo (l1 x k1).2
      · exact far (t := t2) bHi (l2 y k2).2

end BR
