import Verif.Props.C78_Converge
import Verif.Props.C25_Quadric
import Verif.Lemmas.FogGlow
import Verif.Spec.FogGlow

/-!
C79: fog shows the light scattered in it.
-/

namespace BR

open MeasureTheory Filter Topology Set

theorem IsChannel.add {ch : Color ℝ → ℝ} (h : IsChannel ch) (a b : Color ℝ) : ch (a.add b) = ch a + ch b := by
  rcases h with rfl | rfl | rfl <;> rfl

theorem IsChannel.mul {ch : Color ℝ → ℝ} (h : IsChannel ch) (a : Color ℝ) (s : ℝ) : ch (a.mul s) = ch a * s := by
  rcases h with rfl | rfl | rfl <;> simp only [Color.mul] <;> ring

theorem IsChannel.madd {ch : Color ℝ → ℝ} (h : IsChannel ch) (a b : Color ℝ) (s : ℝ) : ch (a.madd s b) = ch a + s * ch b := by
  rcases h with rfl | rfl | rfl <;> rfl

theorem IsChannel.black {ch : Color ℝ → ℝ} (h : IsChannel ch) : ch Color.black = 0 := by
  rcases h with rfl | rfl | rfl <;> simp [Color.black]

theorem IsChannel.zero {ch : Color ℝ → ℝ} (h : IsChannel ch) : ch ⟨0, 0, 0⟩ = 0 := by
  rcases h with rfl | rfl | rfl <;> rfl

theorem isZero_iff (c : Color ℝ) : c.isZero = true ↔ c = ⟨0, 0, 0⟩ := by
  cases c; simp [Color.isZero, and_assoc]

/-- The light of point lamps collected at a point of the fog. -/
theorem fogLoop_points {S : Type} (rng : Rng ℝ S) (occl : Ray ℝ → ℝ → Color ℝ → GoM (Color ℝ × Ray ℝ)) (p : Vec ℝ) (w : ℝ)
    (blocked : Vec ℝ → Vec ℝ → ℝ → Prop) (hs : Stops occl p (blocked p)) (lamps : List PointLamp) (n : Int) (acc : Color ℝ)
    (ctx : Ctx ℝ S) :
    ∃ c, fogLoop rng occl p w n (lamps.map fun l => .point l.pos l.power) acc ctx = .ok (c, ctx) ∧
      ∀ ch, IsChannel ch → ch c = ch acc + w * ((countedLamps n lamps).map fun l => l.at' blocked ch p).sum := by
  induction lamps generalizing n acc with
  | nil =>
    refine ⟨acc, rfl, fun ch _ => ?_⟩
    simp [countedLamps]
  | cons l ls ih =>
    by_cases hn : n = 0
    · refine ⟨acc, by simp [fogLoop, hn], fun ch _ => ?_⟩
      simp [countedLamps, hn]
    · have hc : countedLamps n (l :: ls) = l :: countedLamps (n - 1) ls := by
        unfold countedLamps
        rcases lt_or_gt_of_ne hn with h | h
        · rw [if_pos h, if_pos (by omega)]
        · rw [if_neg (by omega), if_neg (by omega)]
          obtain ⟨m, rfl⟩ : ∃ m : ℕ, n = m + 1 := ⟨(n - 1).toNat, by omega⟩
          simp
      have hk : ∀ ch, IsChannel ch → ch (l.power.mul (Light.pointIntensity p l.pos)) =
          ch l.power / (4 * Real.pi * (l.pos.sub p).len2) := by
        intro ch h
        have e : (p.sub l.pos).len2 = (l.pos.sub p).len2 := by simp only [Vec.sub, Vec.len2]; ring
        rw [h.mul, Light.pointIntensity, e]
        simp only [lit_real, pi_real]
        push_cast
        rw [div_div, mul_one_div]
      rw [List.map_cons, fogLoop, if_neg hn, Light.sample, ok_bind, hc]
      dsimp only
      by_cases hz : (l.power.mul (Light.pointIntensity p l.pos)).isZero = true
      · rw [if_pos hz]
        obtain ⟨c, e, hch⟩ := ih (n - 1) acc
        refine ⟨c, e, fun ch h => ?_⟩
        rw [hch ch h, List.map_cons, List.sum_cons]
        have h0 : l.at' blocked ch p = 0 := by
          rw [PointLamp.at', ← hk ch h, (isZero_iff _).1 hz, h.zero]
          split_ifs <;> rfl
        rw [h0]; ring
      · rw [if_neg hz]
        obtain ⟨r', h1, h2⟩ := hs (l.pos.sub p).normalized (l.pos.sub p).len (l.power.mul (Light.pointIntensity p l.pos))
        by_cases hb : InShade blocked p l.pos
        · rw [h1 hb, ok_bind]
          dsimp only
          obtain ⟨c, e, hch⟩ := ih (n - 1) (acc.madd w ⟨0, 0, 0⟩)
          refine ⟨c, e, fun ch h => ?_⟩
          rw [hch ch h, List.map_cons, List.sum_cons, PointLamp.at', if_pos hb, h.madd, h.zero]; ring
        · rw [h2 hb, ok_bind]
          dsimp only
          obtain ⟨c, e, hch⟩ := ih (n - 1) (acc.madd w (l.power.mul (Light.pointIntensity p l.pos)))
          refine ⟨c, e, fun ch h => ?_⟩
          rw [hch ch h, List.map_cons, List.sum_cons, PointLamp.at', if_neg hb, h.madd, hk ch h]; ring

/-- The points at which a fog entered at `start` is sampled: `t` into the fog, less a micrometre. -/
noncomputable def fogPoint (r : Ray ℝ) (start t : ℝ) : Vec ℝ := r.at (start + t - tiny)

theorem len2_pos {a b : Vec ℝ} (h : a ≠ b) : 0 < (a.sub b).len2 := by
  by_contra hc
  apply h
  have h1 : (a.x - b.x) * (a.x - b.x) + (a.y - b.y) * (a.y - b.y) + (a.z - b.z) * (a.z - b.z) ≤ 0 := not_lt.1 hc
  have hx := mul_self_nonneg (a.x - b.x)
  have hy := mul_self_nonneg (a.y - b.y)
  have hz := mul_self_nonneg (a.z - b.z)
  ext
  · linarith [mul_self_eq_zero.1 (by linarith : (a.x - b.x) * (a.x - b.x) = 0)]
  · linarith [mul_self_eq_zero.1 (by linarith : (a.y - b.y) * (a.y - b.y) = 0)]
  · linarith [mul_self_eq_zero.1 (by linarith : (a.z - b.z) * (a.z - b.z) = 0)]

theorem tame_at (l : PointLamp) (blocked : Vec ℝ → Vec ℝ → ℝ → Prop) (ch : Color ℝ → ℝ) (r : Ray ℝ) (start len : ℝ)
    (hoff : ∀ t ∈ Icc 0 len, l.pos ≠ fogPoint r start t)
    (hB : MeasurableSet {t | InShade blocked (fogPoint r start t) l.pos})
    (h0 : volume (Icc 0 len ∩ frontier {t | InShade blocked (fogPoint r start t) l.pos}) = 0) :
    Tame (Ico 0 len) fun t => l.at' blocked ch (fogPoint r start t) := by
  have e : (fun t => l.at' blocked ch (fogPoint r start t)) = ({t | InShade blocked (fogPoint r start t) l.pos}ᶜ).indicator
      fun t => ch l.power / (4 * Real.pi * (l.pos.sub (fogPoint r start t)).len2) := by
    funext t
    by_cases h : InShade blocked (fogPoint r start t) l.pos
    · rw [PointLamp.at', if_pos h, indicator_of_notMem (by simpa using h)]
    · rw [PointLamp.at', if_neg h, indicator_of_mem (by simpa using h)]
  have hcd : Continuous fun t => (l.pos.sub (fogPoint r start t)).len2 := by
    simp only [fogPoint, Vec.sub, Vec.len2, Ray.at, Vec.madd]; fun_prop
  have hpos : ∀ t ∈ Icc 0 len, 0 < 4 * Real.pi * (l.pos.sub (fogPoint r start t)).len2 := fun t ht =>
    mul_pos (by positivity) (len2_pos (hoff t ht))
  have hcont : ContinuousOn (fun t => ch l.power / (4 * Real.pi * (l.pos.sub (fogPoint r start t)).len2)) (Icc 0 len) :=
    continuousOn_const.div (hcd.const_mul _ |>.continuousOn) fun t ht => (hpos t ht).ne'
  rw [e]
  refine ⟨Measurable.indicator (measurable_const.div (hcd.measurable.const_mul _)) hB.compl, ?_, ?_⟩
  · obtain ⟨C, hC⟩ := isCompact_Icc.exists_bound_of_continuousOn hcont
    refine ⟨max C 0, fun t ht => ?_⟩
    have := hC t ⟨ht.1, ht.2.le⟩
    by_cases h : t ∈ {t | InShade blocked (fogPoint r start t) l.pos}ᶜ
    · rw [indicator_of_mem h]; exact this.trans (le_max_left _ _)
    · rw [indicator_of_notMem h, abs_zero]; exact le_max_right _ _
  · rw [ae_restrict_iff' measurableSet_Ico]
    filter_upwards [measure_eq_zero_iff_ae_notMem.1 h0] with t ht hm
    refine continuousAt_indicator_off ?_ (continuousAt_const.div (hcd.const_mul _).continuousAt (hpos t ⟨hm.1, hm.2.le⟩).ne')
    rw [frontier_compl]
    exact fun h => ht ⟨⟨hm.1, hm.2.le⟩, h⟩

theorem tame_sum {P A : Type} [TopologicalSpace P] [MeasureSpace P] {Q : Set P} (ls : List A) (g : A → P → ℝ)
    (h : ∀ l ∈ ls, Tame Q (g l)) : Tame Q fun p => (ls.map fun l => g l p).sum := by
  induction ls with
  | nil => exact ⟨measurable_const, ⟨0, fun p _ => by simp⟩, .of_forall fun p => continuousAt_const⟩
  | cons a ls ih =>
    obtain ⟨m1, ⟨C1, b1⟩, c1⟩ := h a (by simp)
    obtain ⟨m2, ⟨C2, b2⟩, c2⟩ := ih fun l hl => h l (by simp [hl])
    simp only [List.map_cons, List.sum_cons]
    refine ⟨m1.add m2, ⟨C1 + C2, fun p hp => ?_⟩, ?_⟩
    · exact (abs_add_le _ _).trans (add_le_add (b1 p hp) (b2 p hp))
    · filter_upwards [c1, c2] with p h1 h2
      exact h1.add h2

/-- Fog in the light of point lamps. Over the passes the colour tends to the colour behind the fog, dimmed, plus the
light of the counted lamps that the fog scatters towards the camera. -/
theorem C79_points_partial {S : Type} (rng : Rng ℝ S) (s : Scene ℝ) (D : ℝ) (hD : 0 < D) (r : Ray ℝ) (start stop : ℝ)
    (hlen : start < stop) (numLight : Int) (orig : Color ℝ) (lamps : List PointLamp)
    (hl : s.lights = lamps.map fun l => .point l.pos l.power)
    (blocked : Vec ℝ → Vec ℝ → ℝ → Prop)
    (hs : ∀ t, 0 ≤ t → t < stop - start → Stops s.occlude (fogPoint r start t) (blocked (fogPoint r start t)))
    (hoff : ∀ l ∈ lamps, ∀ t ∈ Icc 0 (stop - start), l.pos ≠ fogPoint r start t)
    (hB : ∀ l ∈ lamps, MeasurableSet {t | InShade blocked (fogPoint r start t) l.pos})
    (h0 : ∀ l ∈ lamps, volume (Icc 0 (stop - start) ∩ frontier {t | InShade blocked (fogPoint r start t) l.pos}) = 0)
    (q : HaltonSeq ℝ) (hu : 2 ≤ q.baseU) (hv : 2 ≤ q.baseV) (hco : Nat.Coprime q.baseU q.baseV) (pixel : ℕ)
    (c : ℕ → Ctx ℝ S) (hc : ∀ k, (c k).depth = 1 ∧ q.init pixel k = .ok (c k).seq1) :
    ∃ col : ℕ → Color ℝ, (∀ k, ∃ c', fogScatter rng s D numLight r start stop orig (c k) = .ok (col k, c')) ∧
      ∀ ch, IsChannel ch → Tendsto (mean fun k => ch (col k)) atTop (𝓝 (
        ch orig * Real.exp (-D * (stop - start)) + fogGlow D (stop - start) (fogPoint r start) fun p =>
          ((countedLamps numLight lamps).map fun l => l.at' blocked ch p).sum)) := by
  have hL : 0 < stop - start := by linarith
  have hpair : ∀ k, ∃ uv : ℝ × ℝ, uv.1 ∈ Ico (0 : ℝ) 1 ∧ GivesPair q pixel k uv ∧ (c k).generate2 rng = .ok (uv, c k) := by
    intro k
    have hb : (c k).seq1.baseU = q.baseU ∧ (c k).seq1.baseV = q.baseV := by
      have := (hc k).2
      unfold HaltonSeq.init at this
      split at this
      · cases this
      · rw [Except.ok.injEq] at this
        rw [← this]; exact ⟨rfl, rfl⟩
    obtain ⟨u, v, huv, ⟨hu0, hu1⟩, -⟩ := C10_range (c k).seq1 (by rw [hb.1]; exact hu) (by rw [hb.2]; exact hv)
    refine ⟨(u, v), ⟨hu0, hu1⟩, ⟨_, (hc k).2, huv⟩, ?_⟩
    simp only [Ctx.generate2, (hc k).1, huv]
    rfl
  choose pair hpr hp hg using hpair
  have hcol : ∀ k, ∃ col c', fogScatter rng s D numLight r start stop orig (c k) = .ok (col, c') ∧
      ∀ ch, IsChannel ch → ch col = ch orig * Real.exp (-D * (stop - start)) + fogPart D (stop - start) *
        ((countedLamps numLight lamps).map fun l => l.at' blocked ch (fogPoint r start (fogTau D (stop - start) (pair k).1))).sum := by
    intro k
    have hm := fogTau_mem hD hL (hpr k)
    obtain ⟨x, e, hx⟩ := fogLoop_points rng s.occlude _ (fogPart D (stop - start)) blocked (hs _ hm.1 hm.2) lamps numLight
      Color.black (c k).takeRay.2
    refine ⟨(orig.mul (GoFloat.exp (-(stop - start) * D))).add x, (c k).takeRay.2.putRay (c k).takeRay.1, ?_, ?_⟩
    · simp only [fogScatter, hg k, ok_bind, randExp_real, hl]
      rw [fogPoint] at e
      rw [e, ok_bind]
      rfl
    · intro ch h
      rw [h.add, hx ch h, h.black, h.mul, exp_real, neg_mul, mul_comm (stop - start) D, neg_mul, zero_add]
  choose col c' e hch using hcol
  refine ⟨col, fun k => ⟨_, e k⟩, fun ch h => ?_⟩
  have ht : Tame (Ico 0 (stop - start)) fun t =>
      ((countedLamps numLight lamps).map fun l => l.at' blocked ch (fogPoint r start t)).sum := by
    refine tame_sum _ _ fun l hl' => ?_
    have hmem : l ∈ lamps := by
      unfold countedLamps at hl'
      split_ifs at hl'
      · exact hl'
      · exact List.mem_of_mem_take hl'
    exact tame_at l blocked ch r start _ (hoff l hmem) (hB l hmem) (h0 l hmem)
  have h2 : Tame unitSq fun _ : ℝ × ℝ => ch orig * Real.exp (-D * (stop - start)) :=
    ⟨measurable_const, ⟨_, fun _ _ => le_rfl⟩, .of_forall fun _ => continuousAt_const⟩
  have h3 := tame_fogTau hD hL ht
  have h1 := C78_pairs q hu hv hco pixel pair hp _ (h2.add h3)
  rw [integral_add h2.integrable h3.integrable, integral_fst fun u => fogPart D (stop - start) *
      ((countedLamps numLight lamps).map fun l => l.at' blocked ch (fogPoint r start (fogTau D (stop - start) u))).sum,
    integral_fogTau hD hL fun t => ((countedLamps numLight lamps).map fun l => l.at' blocked ch (fogPoint r start t)).sum,
    integral_fst fun _ => ch orig * Real.exp (-D * (stop - start))] at h1
  simp only [integral_const, MeasurableSet.univ, measureReal_restrict_apply, univ_inter, Real.volume_real_Ico, sub_zero, zero_le_one,
    sup_of_le_left, smul_eq_mul, one_mul] at h1
  have e2 : (fun k => ch (col k)) = fun k => ch orig * Real.exp (-D * (stop - start)) + fogPart D (stop - start) *
      ((countedLamps numLight lamps).map fun l => l.at' blocked ch (fogPoint r start (fogTau D (stop - start) (pair k).1))).sum :=
    funext fun k => hch k ch h
  rw [e2]
  exact h1

/-- The medium scatters light on camera rays only, on the part of the ray that is in the fog (`fogInterval`, which
C48 and C49 describe), in any arithmetic. -/
theorem C79_camera_only {F S : Type} [Add F] [Sub F] [Mul F] [Div F] [Neg F] [GoFloat F] (rng : Rng F S) (s : Scene F)
    (D height : F) (numLight : Int) (r : Ray F) (tMax : F) (orig : Color F) (ctx : Ctx F S) :
    (ctx.depth = 1 → (Medium.fog D height numLight).filter rng s r tMax orig ctx =
      fogScatter rng s D numLight r (fogInterval height r tMax).1 (fogInterval height r tMax).2 orig ctx) ∧
    (2 ≤ ctx.depth → (Medium.fog D height numLight).filter rng s r tMax orig ctx = .ok (orig, ctx)) := by
  constructor
  · intro h
    have hi : ctx.isInitial = .ok true := by simp [Ctx.isInitial, h]
    rw [Medium.filter, hi, ok_bind]
    rfl
  · intro h
    have hi : ctx.isInitial = .ok false := by
      have h0 : ctx.depth ≠ 0 := by omega
      have h1 : ctx.depth ≠ 1 := by omega
      simp [Ctx.isInitial, h0, h1]
    rw [Medium.filter, hi, ok_bind]
    rfl

/-! ### Lamps with a size -/

/-- A ball of radius `R` around `c` is in the way between `p` and `q`. -/
def BallBetween (c : Vec ℝ) (R : ℝ) (p q : Vec ℝ) : Prop :=
  ∃ k : ℝ, 0 < k ∧ k < 1 ∧ ((p.madd k (q.sub p)).sub c).len2 ≤ R ^ 2

open Classical in
/-- What the fog should show of a lamp whose surface is sampled by `pos`, of the given power: the light arriving at a
point of the fog is averaged over the lamp, leaving out what is behind the ball. -/
noncomputable def areaGlow (D len : ℝ) (P : ℝ → Vec ℝ) (power : ℝ) (pos : ℝ × ℝ → Vec ℝ) (c : Vec ℝ) (R : ℝ) : ENNReal :=
  ∫⁻ t in Ico 0 len, ENNReal.ofReal (D * Real.exp (-D * t)) *
    ∫⁻ uv in unitSq, if BallBetween c R (P t) (pos uv) then 0 else ENNReal.ofReal (power * lambert (pos uv) (P t))

theorem normalized_at (p v : Vec ℝ) (hv : 0 < v.len) (k : ℝ) : (⟨p, v.normalized⟩ : Ray ℝ).at (k * v.len) = p.madd k v := by
  have hl : v.len = Real.sqrt (v.x * v.x + v.y * v.y + v.z * v.z) := rfl
  rw [hl] at hv ⊢
  simp only [Ray.at, Vec.madd, Vec.normalized, lit_real, sqrt_real, Vec.ext_iff]
  push_cast
  generalize Real.sqrt (v.x * v.x + v.y * v.y + v.z * v.z) = l at hv
  refine ⟨?_, ?_, ?_⟩ <;> field_simp

/-- A ball between a point outside it and the lamp is hit on the way to the lamp. -/
theorem ball_hit (m : Option (Mat ℝ)) (diam : ℝ) (c p q : Vec ℝ) (hd : 0 ≤ diam) (hout : (diam / 2) ^ 2 < (p.sub c).len2)
    (k : ℝ) (hk0 : 0 < k) (hk1 : k < 1) (hin : ((p.madd k (q.sub p)).sub c).len2 ≤ (diam / 2) ^ 2) (hpq : 0 < (q.sub p).len) :
    0 < ((Obj.sphereQ m diam c).hit ⟨p, (q.sub p).normalized⟩).t ∧
      ((Obj.sphereQ m diam c).hit ⟨p, (q.sub p).normalized⟩).t < (q.sub p).len := by
  generalize hv : q.sub p = v at *
  let f : ℝ → ℝ := fun s => (((⟨p, v.normalized⟩ : Ray ℝ).at s).sub c).len2
  have hf : Continuous f := by
    simp only [f, Ray.at, Vec.madd, Vec.sub, Vec.len2]; fun_prop
  have hf0 : (diam / 2) ^ 2 < f 0 := by
    have : (⟨p, v.normalized⟩ : Ray ℝ).at 0 = p := by simp [Ray.at, Vec.madd]
    simp only [f, this]; exact hout
  have hfk : f (k * v.len) ≤ (diam / 2) ^ 2 := by
    simp only [f, normalized_at p v hpq]; exact hin
  have hkl : 0 ≤ k * v.len := by positivity
  obtain ⟨s, ⟨hs0, hs1⟩, hs⟩ := intermediate_value_Icc' hkl hf.continuousOn ⟨hfk, hf0.le⟩
  have hs0' : 0 < s := by
    rcases hs0.lt_or_eq with h | h
    · exact h
    · rw [← h] at hs; exact absurd hs hf0.ne'
  have hat : AtDistance ((⟨p, v.normalized⟩ : Ray ℝ).at s) c (diam / 2) := by
    refine ⟨?_, by positivity⟩
    rw [← hs]
    simp only [f, Vec.len2, Vec.sub]
    ring
  have hdir : v.normalized ≠ Vec.zero := by
    intro h0
    have h1 := normalized_at p v hpq (1 / v.len)
    rw [one_div_mul_cancel hpq.ne', h0] at h1
    have h2 : p = p.madd (1 / v.len) v := by
      rw [← h1]; simp [Ray.at, Vec.madd, Vec.zero]
    simp only [Vec.madd, Vec.ext_iff, left_eq_add, mul_eq_zero, one_div, inv_eq_zero, hpq.ne', false_or] at h2
    have : v.len = 0 := by simp [Vec.len, h2.1, h2.2.1, h2.2.2]
    exact hpq.ne' this
  rcases C25_sphere m diam c hd ⟨p, v.normalized⟩ hdir with ⟨t, ⟨⟨ht0, -⟩, hfirst⟩, e⟩ | ⟨hno, -⟩
  · rw [e]
    refine ⟨ht0, ?_⟩
    have := hfirst s hs0' hat
    change t < v.len
    nlinarith
  · exact absurd hat (hno s hs0')

/-- The distance drawn in a thin fog is nearly proportional to the random number. -/
theorem fogTau_thin {u : ℝ} (hu : u ∈ Ico (0 : ℝ) 1) : 19 / 20 * u ≤ fogTau (1 / 10) 1 u ∧ fogTau (1 / 10) 1 u ≤ u := by
  have hD : (0 : ℝ) < 1 / 10 := by norm_num
  obtain ⟨h0, h1⟩ := fogTau_mem hD one_pos hu
  have e := fogPhi_tau hD one_pos hu.2
  have hw := fogPart_pos hD (one_pos : (0 : ℝ) < 1)
  rw [fogPhi, div_eq_iff hw.ne'] at e
  generalize fogTau (1 / 10) 1 u = t at *
  constructor
  · -- `1 - exp (-s) ≤ s` and `1 - exp (-1/10) ≥ 1/10 - 1/200`
    have h2 : fogPart (1 / 10) t ≤ t / 10 := by
      have := Real.add_one_le_exp (-(1 / 10) * t)
      unfold fogPart; linarith
    have h3 : 19 / 200 ≤ fogPart (1 / 10) 1 := by
      have h4 : Real.exp (1 / 10 : ℝ) ≥ 1 / 10 + 1 + (1 / 10) ^ 2 / 2 := by
        have := Real.quadratic_le_exp_of_nonneg (x := 1 / 10) (by norm_num); linarith
      have h5 : Real.exp (-(1 / 10) * 1 : ℝ) = (Real.exp (1 / 10))⁻¹ := by rw [mul_one, Real.exp_neg]
      have h6 : (Real.exp (1 / 10))⁻¹ ≤ (181 / 200 : ℝ) := by
        rw [inv_le_comm₀ (Real.exp_pos _) (by norm_num)]
        refine le_trans ?_ h4
        norm_num
      unfold fogPart; rw [h5]; linarith
    nlinarith [hu.1]
  · -- convexity of `exp`
    have h2 : Real.exp (-(1 / 10) * t) ≤ (1 - t) * Real.exp 0 + t * Real.exp (-(1 / 10) * 1) := by
      have := convexOn_exp.2 (mem_univ 0) (mem_univ (-(1 / 10) * 1)) (sub_nonneg.2 h1.le) h0 (by ring)
      simp only [smul_eq_mul] at this
      refine le_trans (le_of_eq ?_) this
      ring_nf
    rw [Real.exp_zero] at h2
    have h3 : t * fogPart (1 / 10) 1 ≤ fogPart (1 / 10) t := by unfold fogPart; linarith
    rw [e] at h3
    exact le_of_mul_le_mul_right h3 hw

/-- The scene of the counterexample: a lamp of 1 by 1/10 at height 4, a black ball below it. -/
noncomputable def ballScene (obj : Obj ℝ (Mat ℝ)) : Scene ℝ where
  lights := [.planar 1 (1 / 10) ⟨5 / 2, 4 - tiny, 0⟩ (Color.mul ⟨1, 1, 1⟩ (1 * (1 / 10) * lit 1)) obj Light.transfRect]
  objects := [Obj.sphere (some (.flat (Color.tex ⟨0, 0, 0⟩))) (2 / 5) ⟨1, 2, 0⟩]
  media := [.fog (1 / 10) (1 + tiny) 1]
  recursionDepth := 1

/-- Points of the lamp. -/
noncomputable def lampPos (uv : ℝ × ℝ) : Vec ℝ := ⟨2 + uv.1, 4, (2 * uv.2 - 1) / 20⟩

/-- The line of sight: straight up, through fog from height 0 to height 1. -/
noncomputable def upRay : Ray ℝ := ⟨⟨0, tiny, 0⟩, ⟨0, 1, 0⟩⟩

theorem upRay_point (t : ℝ) : fogPoint upRay 0 t = ⟨0, t, 0⟩ := by
  simp only [fogPoint, upRay, Ray.at, Vec.madd, Vec.ext_iff]
  refine ⟨by ring, by ring, by ring⟩

/-- The point of the fog and the point of the lamp drawn in one pass always have the ball between them. -/
theorem drawn_behind {u v : ℝ} (hu : u ∈ Ico (0 : ℝ) 1) (hv : v ∈ Ico (0 : ℝ) 1) :
    ∃ k : ℝ, 0 < k ∧ k < 1 ∧ (((⟨0, fogTau (1 / 10) 1 u, 0⟩ : Vec ℝ).madd k ((lampPos (u, v)).sub ⟨0, fogTau (1 / 10) 1 u, 0⟩)).sub
      ⟨1, 2, 0⟩).len2 ≤ (2 / 5 / 2) ^ 2 := by
  obtain ⟨h1, h2⟩ := fogTau_thin hu
  obtain ⟨hu0, hu1⟩ := hu
  obtain ⟨hv0, hv1⟩ := hv
  generalize fogTau (1 / 10) 1 u = t at *
  have h4 : 0 < 4 - t := by linarith
  refine ⟨(2 - t) / (4 - t), div_pos (by linarith) h4, by rw [div_lt_one h4]; linarith, ?_⟩
  have hk : (2 - t) / (4 - t) * (4 - t) = 2 - t := div_mul_cancel₀ _ h4.ne'
  have hk0 : 0 ≤ (2 - t) / (4 - t) := div_nonneg (by linarith) h4.le
  have hk1 : (2 - t) / (4 - t) ≤ 1 / 2 := by rw [div_le_iff₀ h4]; linarith
  generalize (2 - t) / (4 - t) = k at *
  simp only [lampPos, Vec.sub, Vec.madd, Vec.len2]
  have hx0 : 1 ≤ k * (2 + u) := by
    -- `(2+u)(2-t) ≥ 4-t`
    have : (4 - t) * 1 ≤ (4 - t) * (k * (2 + u)) := by
      have e : (4 - t) * (k * (2 + u)) = (2 - t) * (2 + u) := by rw [← hk]; ring
      rw [e]; nlinarith
    exact le_of_mul_le_mul_left this h4
  have hx1 : k * (2 + u) ≤ 11 / 10 := by
    have : (4 - t) * (k * (2 + u)) ≤ (4 - t) * (11 / 10) := by
      have e : (4 - t) * (k * (2 + u)) = (2 - t) * (2 + u) := by rw [← hk]; ring
      rw [e]; nlinarith [sq_nonneg (u - 3 / 5)]
    exact le_of_mul_le_mul_left this h4
  have hy : t + k * (4 - t) - 2 = 0 := by rw [hk]; ring
  have hz : (k * ((2 * v - 1) / 20)) ^ 2 ≤ 1 / 400 := by
    have ha : k * ((2 * v - 1) / 20) ≤ 1 / 20 := by nlinarith
    have hb : -(1 / 20) ≤ k * ((2 * v - 1) / 20) := by nlinarith
    nlinarith
  have e : (0 + k * (2 + u - 0) - 1) * (0 + k * (2 + u - 0) - 1) + (t + k * (4 - t) - 2) * (t + k * (4 - t) - 2) +
      (0 + k * ((2 * v - 1) / 20 - 0) - 0) * (0 + k * ((2 * v - 1) / 20 - 0) - 0) =
      (k * (2 + u) - 1) ^ 2 + (t + k * (4 - t) - 2) ^ 2 + (k * ((2 * v - 1) / 20)) ^ 2 := by ring
  rw [e, hy]
  nlinarith

/-- From the lowest part of the fog, most of the far end of the lamp is not behind the ball. -/
theorem not_behind {t u v k : ℝ} (ht0 : 0 ≤ t) (ht1 : t ≤ 1 / 10) (hu0 : 9 / 10 ≤ u) (hu1 : u ≤ 1) :
    ¬ (((⟨0, t, 0⟩ : Vec ℝ).madd k ((lampPos (u, v)).sub ⟨0, t, 0⟩)).sub ⟨1, 2, 0⟩).len2 ≤ (1 / 5) ^ 2 := by
  simp only [lampPos, Vec.sub, Vec.madd, Vec.len2, not_le]
  have e : (0 + k * (2 + u - 0) - 1) * (0 + k * (2 + u - 0) - 1) + (t + k * (4 - t) - 2) * (t + k * (4 - t) - 2) +
      (0 + k * ((2 * v - 1) / 20 - 0) - 0) * (0 + k * ((2 * v - 1) / 20 - 0) - 0) =
      (k * (2 + u) - 1) ^ 2 + (t + k * (4 - t) - 2) ^ 2 + (k * ((2 * v - 1) / 20)) ^ 2 := by ring
  rw [e]
  have h1 : (4 - t) * (k * (2 + u) - 1) - (2 + u) * (t + k * (4 - t) - 2) = (2 + u) * (2 - t) - (4 - t) := by ring
  have h2 : 3 / 2 ≤ (2 + u) * (2 - t) - (4 - t) := by nlinarith
  generalize k * (2 + u) - 1 = a at *
  generalize t + k * (4 - t) - 2 = b at *
  have h3 : 3 / 2 ≤ (4 - t) * a - (2 + u) * b := by rw [h1]; exact h2
  have h4 : ((4 - t) * a - (2 + u) * b) ^ 2 ≤ ((4 - t) ^ 2 + (2 + u) ^ 2) * (a ^ 2 + b ^ 2) := by
    nlinarith [sq_nonneg ((4 - t) * b + (2 + u) * a)]
  have h5 : (4 - t) ^ 2 + (2 + u) ^ 2 ≤ 25 := by nlinarith
  have h6 : ((4 - t) ^ 2 + (2 + u) ^ 2) * (a ^ 2 + b ^ 2) ≤ 25 * (a ^ 2 + b ^ 2) :=
    mul_le_mul_of_nonneg_right h5 (by positivity)
  nlinarith [sq_nonneg (k * ((2 * v - 1) / 20))]

theorem ballScene_stops (obj : Obj ℝ (Mat ℝ)) (p : Vec ℝ) : Stops (ballScene obj).occlude p fun d len =>
    0 < ((Obj.sphereQ (some (.flat (Color.tex ⟨0, 0, 0⟩))) (2 / 5) ⟨1, 2, 0⟩ : Quadric ℝ (Mat ℝ)).hit ⟨p, d⟩).t ∧
      ((Obj.sphereQ (some (.flat (Color.tex ⟨0, 0, 0⟩))) (2 / 5) ⟨1, 2, 0⟩ : Quadric ℝ (Mat ℝ)).hit ⟨p, d⟩).t < len := by
  have h := stops_opaque (ballScene obj) p (fun _ d =>
    (Obj.sphereQ (some (.flat (Color.tex ⟨0, 0, 0⟩))) (2 / 5) ⟨1, 2, 0⟩ : Quadric ℝ (Mat ℝ)).hit ⟨p, d⟩) ?_ ?_
  · intro d len c
    obtain ⟨r', h1, h2⟩ := h d len c
    refine ⟨r', fun hb => h1 ⟨_, List.mem_singleton.2 rfl, hb⟩, fun hb => h2 ?_⟩
    rintro ⟨-, -, hb'⟩
    exact hb hb'
  · intro o ho d
    have : o = Obj.sphere (some (.flat (Color.tex ⟨0, 0, 0⟩))) (2 / 5) ⟨1, 2, 0⟩ := by simpa [ballScene] using ho
    rw [this, Obj.sphere, Obj.intersect]
  · intro o _ d
    unfold Quadric.hit
    dsimp only
    split_ifs <;> rfl

/-- The fog and the lamp use the same random pair, so the point of the fog and the point of the lamp are not independent.
Here a ball happens to be between them in every pass: the fog shows no light at all, in every pass and so in the limit,
although the lamp lights part of the fog. -/
theorem C79_area_violated {S : Type} (rng : Rng ℝ S) (obj : Obj ℝ (Mat ℝ)) (orig : Color ℝ) :
    (∀ (ctx ctx₁ : Ctx ℝ S) (u v : ℝ), ctx.depth = 1 → ctx.generate2 rng = .ok ((u, v), ctx₁) → u ∈ Ico (0 : ℝ) 1 → v ∈ Ico (0 : ℝ) 1 →
      ∃ c', fogScatter rng (ballScene obj) (1 / 10) 1 upRay 0 1 orig ctx = .ok (orig.mul (Real.exp (-(1 / 10) * 1)), c')) ∧
    0 < areaGlow (1 / 10) 1 (fogPoint upRay 0) (1 / 10) lampPos ⟨1, 2, 0⟩ (1 / 5) := by
  constructor
  · intro ctx ctx₁ u v hd hg hu hv
    have hq : ctx.seq1.generate2 = .ok (u, v) ∧ ctx₁ = ctx := by
      simp only [Ctx.generate2, hd, one_ne_zero, if_false, if_true] at hg
      obtain ⟨uv, e1, e2⟩ := bind_eq_ok.1 hg
      rw [pure_ok, Except.ok.injEq, Prod.mk.injEq] at e2
      exact ⟨by rw [e1, e2.1], e2.2.symm⟩
    have hg' : ctx.takeRay.2.generate2 rng = .ok ((u, v), ctx.takeRay.2) := by
      have h1 : ctx.takeRay.2.depth = 1 := hd
      have h2 : ctx.takeRay.2.seq1 = ctx.seq1 := rfl
      simp only [Ctx.generate2, h1, h2, hq.1]
      rfl
    have hp : (upRay.at (0 + fogTau (1 / 10) 1 u - tiny)) = ⟨0, fogTau (1 / 10) 1 u, 0⟩ := upRay_point _
    have hpos : Light.samplePos 1 (1 / 10) ⟨5 / 2, 4 - tiny, 0⟩ Light.transfRect (u, v) = lampPos (u, v) := by
      simp only [Light.samplePos, Light.transfRect, lampPos, Vec.add, lit_real, Vec.ext_iff]
      push_cast
      refine ⟨by ring, by ring, by ring⟩
    obtain ⟨ht0, ht1⟩ := fogTau_mem (D := 1 / 10) (by norm_num) one_pos hu
    obtain ⟨k, hk0, hk1, hk⟩ := drawn_behind hu hv
    have hloop : ∃ c, fogLoop rng (ballScene obj).occlude ⟨0, fogTau (1 / 10) 1 u, 0⟩ (fogPart (1 / 10) 1) 1
        (ballScene obj).lights Color.black ctx.takeRay.2 = .ok (c, ctx.takeRay.2) ∧ c = ⟨0, 0, 0⟩ := by
      generalize fogTau (1 / 10) 1 u = t at *
      have hb : (Color.black : Color ℝ) = ⟨0, 0, 0⟩ := by simp [Color.black]
      rw [ballScene, fogLoop, if_neg one_ne_zero, Light.sample, hg']
      simp only [ok_bind, hpos, pure_ok, hb]
      split_ifs with hz
      · exact ⟨_, rfl, rfl⟩
      · have hlen : 0 < ((lampPos (u, v)).sub ⟨0, t, 0⟩).len := by
          refine Real.sqrt_pos.2 ?_
          simp only [lampPos, Vec.sub]
          nlinarith [mul_self_nonneg ((2 * v - 1) / 20 - 0), hu.1]
        obtain ⟨r', h1, -⟩ := ballScene_stops obj ⟨0, t, 0⟩ ((lampPos (u, v)).sub ⟨0, t, 0⟩).normalized
          ((lampPos (u, v)).sub ⟨0, t, 0⟩).len ((Color.mul ⟨1, 1, 1⟩ (1 * (1 / 10) * lit 1)).mul (Light.planarIntensity ⟨0, t, 0⟩ (lampPos (u, v))))
        have h2 := h1 (ball_hit _ (2 / 5) ⟨1, 2, 0⟩ ⟨0, t, 0⟩ (lampPos (u, v)) (by norm_num) ?_ k hk0 hk1 hk hlen)
        · rw [ballScene] at h2
          rw [h2]
          refine ⟨_, rfl, ?_⟩
          simp [Color.madd]
        · simp only [Vec.sub, Vec.len2]
          nlinarith
    obtain ⟨c, hc, rfl⟩ := hloop
    refine ⟨ctx.takeRay.2.putRay ctx.takeRay.1, ?_⟩
    simp only [fogScatter, hg, hq.2, ok_bind, sub_zero, randExp_real, hp, hc]
    rw [pure_ok, Except.ok.injEq, Prod.mk.injEq]
    refine ⟨?_, rfl⟩
    simp [Color.add, Color.mul]
  · have hE : ∀ t ∈ Ico (0 : ℝ) (1 / 10), ∀ uv ∈ Ico (9 / 10 : ℝ) 1 ×ˢ Ico (0 : ℝ) 1,
        ¬ BallBetween ⟨1, 2, 0⟩ (1 / 5) (fogPoint upRay 0 t) (lampPos uv) := by
      rintro t ⟨ht0, ht1⟩ ⟨u, v⟩ ⟨⟨hu0, hu1⟩, -⟩ ⟨k, -, -, hk⟩
      rw [upRay_point] at hk
      exact not_behind ht0 ht1.le hu0 hu1.le hk
    have hlow : ∀ t ∈ Ico (0 : ℝ) (1 / 10), ∀ uv ∈ Ico (9 / 10 : ℝ) 1 ×ˢ Ico (0 : ℝ) 1,
        1 / 10 * (1 / Real.pi * (1 / 36) * (1 / 2)) ≤ 1 / 10 * lambert (lampPos uv) (fogPoint upRay 0 t) := by
      rintro t ⟨ht0, ht1⟩ ⟨u, v⟩ ⟨⟨hu0, hu1⟩, hv0, hv1⟩
      rw [upRay_point, lambert]
      have hd : (⟨0, t, 0⟩ : Vec ℝ).sub (lampPos (u, v)) = ⟨0 - (2 + u), t - 4, 0 - (2 * v - 1) / 20⟩ := rfl
      have hl : ((⟨0, t, 0⟩ : Vec ℝ).sub (lampPos (u, v))).len =
          Real.sqrt ((0 - (2 + u)) * (0 - (2 + u)) + (t - 4) * (t - 4) + (0 - (2 * v - 1) / 20) * (0 - (2 * v - 1) / 20)) := by
        rw [hd]; rfl
      have h36 : ((⟨0, t, 0⟩ : Vec ℝ).sub (lampPos (u, v))).len ≤ 6 := by
        rw [hl, Real.sqrt_le_iff]
        constructor
        · norm_num
        · nlinarith
      have h0 : 0 < ((⟨0, t, 0⟩ : Vec ℝ).sub (lampPos (u, v))).len := by
        rw [hl]
        refine Real.sqrt_pos.2 ?_
        nlinarith [mul_self_nonneg (0 - (2 * v - 1) / 20)]
      dsimp only
      generalize ((⟨0, t, 0⟩ : Vec ℝ).sub (lampPos (u, v))).len = d at *
      have hpi := Real.pi_pos
      have h1 : 1 / 36 ≤ 1 / d ^ 2 := one_div_le_one_div_of_le (by positivity) (by nlinarith)
      have h2 : 1 / 2 ≤ ((lampPos (u, v)).y - t) / d := by
        rw [div_le_div_iff₀ (by norm_num) h0]
        simp only [lampPos]
        nlinarith
      have h3 : 1 / Real.pi * (1 / 36) ≤ 1 / Real.pi * (1 / d ^ 2) := mul_le_mul_of_nonneg_left h1 (by positivity)
      refine mul_le_mul_of_nonneg_left ?_ (by norm_num)
      exact mul_le_mul h3 (h2.trans (le_max_right _ _)) (by norm_num) (by positivity)
    classical
    have hrect : MeasurableSet (Ico (9 / 10 : ℝ) 1 ×ˢ Ico (0 : ℝ) 1) := measurableSet_Ico.prod measurableSet_Ico
    have hsub : Ico (9 / 10 : ℝ) 1 ×ˢ Ico (0 : ℝ) 1 ⊆ unitSq := by
      rintro ⟨u, v⟩ ⟨⟨h1, h2⟩, h3⟩
      exact ⟨⟨by linarith, h2⟩, h3⟩
    have hvol : volume (Ico (9 / 10 : ℝ) 1 ×ˢ Ico (0 : ℝ) 1) ≠ 0 := by
      rw [Measure.volume_eq_prod, Measure.prod_prod, Real.volume_Ico, Real.volume_Ico]
      norm_num
    have hin : ∀ t ∈ Ico (0 : ℝ) (1 / 10), ENNReal.ofReal (1 / 10 * (1 / Real.pi * (1 / 36) * (1 / 2))) *
        volume (Ico (9 / 10 : ℝ) 1 ×ˢ Ico (0 : ℝ) 1) ≤ ∫⁻ uv in unitSq, if BallBetween ⟨1, 2, 0⟩ (1 / 5) (fogPoint upRay 0 t) (lampPos uv) then 0
          else ENNReal.ofReal (1 / 10 * lambert (lampPos uv) (fogPoint upRay 0 t)) := by
      intro t ht
      refine le_trans ?_ (lintegral_mono_set hsub)
      rw [← setLIntegral_const]
      refine setLIntegral_mono' hrect fun uv huv => ?_
      rw [if_neg (hE t ht uv huv)]
      exact ENNReal.ofReal_le_ofReal (hlow t ht uv huv)
    refine lt_of_lt_of_le ?_ (lintegral_mono_set (Ico_subset_Ico_right (by norm_num : (1 / 10 : ℝ) ≤ 1)))
    refine lt_of_lt_of_le ?_ (setLIntegral_mono' (f := fun _ => ENNReal.ofReal (1 / 10 * Real.exp (-(1 / 10))) *
      (ENNReal.ofReal (1 / 10 * (1 / Real.pi * (1 / 36) * (1 / 2))) * volume (Ico (9 / 10 : ℝ) 1 ×ˢ Ico (0 : ℝ) 1)))
      measurableSet_Ico fun t ht => mul_le_mul' (ENNReal.ofReal_le_ofReal ?_) (hin t ht))
    · rw [setLIntegral_const]
      have hpi := Real.pi_pos
      have he := Real.exp_pos (-(1 / 10))
      refine ENNReal.mul_pos (mul_ne_zero ?_ (mul_ne_zero ?_ hvol)) ?_
      · rw [ne_eq, ENNReal.ofReal_eq_zero, not_le]; positivity
      · rw [ne_eq, ENNReal.ofReal_eq_zero, not_le]; positivity
      · rw [Real.volume_Ico]; norm_num
    · refine mul_le_mul_of_nonneg_left (Real.exp_le_exp.2 ?_) (by norm_num)
      nlinarith [ht.2]

/-! ### Non-vacuity -/

/-- The hypotheses of `C79_points_partial`: a lamp beside the line of sight, in a scene without objects, where the fog is lit. -/
example : ∃ (s : Scene ℝ) (lamps : List PointLamp) (r : Ray ℝ), s.lights = lamps.map (fun l => .point l.pos l.power) ∧
    (∀ t, 0 ≤ t → t < (2 : ℝ) - 1 → Stops s.occlude (fogPoint r 1 t) fun _ _ => False) ∧
    (∀ l ∈ lamps, ∀ t ∈ Icc 0 ((2 : ℝ) - 1), l.pos ≠ fogPoint r 1 t) ∧
    (∀ l ∈ lamps, MeasurableSet {t | InShade (fun _ _ _ => False) (fogPoint r 1 t) l.pos}) ∧
    (∀ l ∈ lamps, volume (Icc 0 ((2 : ℝ) - 1) ∩ frontier {t | InShade (fun _ _ _ => False) (fogPoint r 1 t) l.pos}) = 0) ∧
    ∀ l ∈ lamps, 0 < l.at' (fun _ _ _ => False) Color.R (fogPoint r 1 0) := by
  refine ⟨⟨[.point ⟨3, 0, 0⟩ ⟨1, 1, 1⟩], [], [], 1⟩, [⟨⟨3, 0, 0⟩, ⟨1, 1, 1⟩⟩], ⟨⟨0, 0, 0⟩, ⟨0, 0, 1⟩⟩, rfl,
    fun t _ _ => stops_nothing _ rfl _, ?_, ?_, ?_, ?_⟩
  · intro l hl t _ h
    rw [List.mem_singleton] at hl
    rw [hl] at h
    simp [fogPoint, Ray.at, Vec.madd, Vec.ext_iff] at h
  · intro l _
    simp [InShade]
  · intro l _
    simp [InShade]
  · intro l hl
    rw [List.mem_singleton] at hl
    rw [hl, PointLamp.at', if_neg (by simp [InShade])]
    have hpi := Real.pi_pos
    refine div_pos one_pos (mul_pos (by positivity) ?_)
    simp only [fogPoint, Ray.at, Vec.madd, Vec.sub, Vec.len2]
    nlinarith [mul_self_nonneg (0 - (0 + (1 + 0 - tiny) * 1) : ℝ)]

end BR
