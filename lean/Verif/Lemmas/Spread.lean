import Verif.Props.C46_Sampling
import Verif.Spec.Chance
import Mathlib.Analysis.SpecialFunctions.PolarCoord
import Mathlib.Analysis.SpecialFunctions.Sqrt
import Mathlib.Tactic.FinCases
import Mathlib.LinearAlgebra.Matrix.SemiringInverse

/-! Uniform samples of the unit square mapped to the unit disk are uniform in the disk. -/

namespace BR

open MeasureTheory Set

/-- The open unit square. -/
def openSq : Set (ℝ × ℝ) := Ioo 0 1 ×ˢ Ioo 0 1

theorem measurableSet_openSq : MeasurableSet openSq := measurableSet_Ioo.prod measurableSet_Ioo
theorem measurableSet_unitSq : MeasurableSet unitSq := measurableSet_Ico.prod measurableSet_Ico
theorem measurableSet_unitDisk : MeasurableSet unitDisk :=
  (isOpen_lt (by fun_prop) (by fun_prop)).measurableSet

theorem openSq_ae_eq : openSq =ᵐ[volume] unitSq :=
  Measure.set_prod_ae_eq Ioo_ae_eq_Ico Ioo_ae_eq_Ico

/-- `uniformDisk` as a map of the plane. -/
noncomputable def diskMap (p : ℝ × ℝ) : ℝ × ℝ := uniformDisk p.1 p.2

theorem diskMap_eq (p : ℝ × ℝ) : diskMap p =
    (Real.sqrt p.2 * Real.cos (2 * Real.pi * p.1), Real.sqrt p.2 * Real.sin (2 * Real.pi * p.1)) := by
  simp [diskMap, uniformDisk]

/-- The derivative of `diskMap`. -/
noncomputable def diskDeriv (p : ℝ × ℝ) : ℝ × ℝ →L[ℝ] ℝ × ℝ :=
  (_root_.Matrix.toLin (.finTwoProd ℝ) (.finTwoProd ℝ)
    !![-(Real.sqrt p.2 * (2 * Real.pi) * Real.sin (2 * Real.pi * p.1)),
        Real.cos (2 * Real.pi * p.1) / (2 * Real.sqrt p.2);
       Real.sqrt p.2 * (2 * Real.pi) * Real.cos (2 * Real.pi * p.1),
        Real.sin (2 * Real.pi * p.1) / (2 * Real.sqrt p.2)]).toContinuousLinearMap

theorem diskMap_hasFDerivAt (p : ℝ × ℝ) (hp : 0 < p.2) : HasFDerivAt diskMap (diskDeriv p) p := by
  have e : diskMap = fun p : ℝ × ℝ =>
      (Real.sqrt p.2 * Real.cos (2 * Real.pi * p.1), Real.sqrt p.2 * Real.sin (2 * Real.pi * p.1)) :=
    funext diskMap_eq
  rw [e]
  unfold diskDeriv
  rw [_root_.Matrix.toLin_finTwoProd_toContinuousLinearMap]
  have hs : HasFDerivAt (fun p : ℝ × ℝ => Real.sqrt p.2) ((1 / (2 * Real.sqrt p.2)) • ContinuousLinearMap.snd ℝ ℝ ℝ) p :=
    (Real.hasDerivAt_sqrt hp.ne').comp_hasFDerivAt p hasFDerivAt_snd
  have ha : HasFDerivAt (fun p : ℝ × ℝ => 2 * Real.pi * p.1) ((2 * Real.pi) • ContinuousLinearMap.fst ℝ ℝ ℝ) p :=
    hasFDerivAt_fst.const_mul _
  have hc := (Real.hasDerivAt_cos (2 * Real.pi * p.1)).comp_hasFDerivAt p ha
  have hn := (Real.hasDerivAt_sin (2 * Real.pi * p.1)).comp_hasFDerivAt p ha
  convert! (hs.mul hc).prodMk (hs.mul hn) using 2 <;>
  · ext <;> simp <;> ring

theorem diskDeriv_det (p : ℝ × ℝ) (hp : 0 < p.2) : (diskDeriv p).det = -Real.pi := by
  have h := Real.sin_sq_add_cos_sq (2 * Real.pi * p.1)
  have hs : Real.sqrt p.2 ≠ 0 := (Real.sqrt_pos.2 hp).ne'
  unfold diskDeriv
  simp only [LinearMap.det_toContinuousLinearMap, LinearMap.det_toLin, _root_.Matrix.det_fin_two_of]
  field_simp
  linear_combination (-1 : ℝ) * h

theorem diskMap_injOn : InjOn diskMap openSq := by
  rintro ⟨a, b⟩ ⟨⟨ha0, ha1⟩, hb0, hb1⟩ ⟨c, d⟩ ⟨⟨hc0, hc1⟩, hd0, hd1⟩ h
  simp only at ha0 ha1 hb0 hb1 hc0 hc1 hd0 hd1
  have h1 := (C46_disk a b hb0.le hb1.le).2.1
  have h2 := (C46_disk c d hd0.le hd1.le).2.1
  have hbd : b = d := by
    rw [← h1, ← h2]
    change (diskMap (a, b)).1 ^ 2 + (diskMap (a, b)).2 ^ 2 = (diskMap (c, d)).1 ^ 2 + (diskMap (c, d)).2 ^ 2
    rw [h]
  subst hbd
  rw [diskMap_eq, diskMap_eq] at h
  simp only [Prod.mk.injEq] at h
  have hs : Real.sqrt b ≠ 0 := (Real.sqrt_pos.2 hb0).ne'
  have ec := mul_left_cancel₀ hs h.1
  have es := mul_left_cancel₀ hs h.2
  have hang : ((2 * Real.pi * a : ℝ) : Real.Angle) = ((2 * Real.pi * c : ℝ) : Real.Angle) :=
    Real.Angle.cos_sin_inj ec es
  rw [Real.Angle.angle_eq_iff_two_pi_dvd_sub] at hang
  obtain ⟨k, hk⟩ := hang
  have hpi := Real.pi_pos
  have hk' : a - c = k := by
    have : 2 * Real.pi * (a - c) = 2 * Real.pi * k := by linarith
    exact mul_left_cancel₀ (by positivity) this
  have hk0 : k = 0 := by
    have h1 : (k : ℝ) < 1 := by rw [← hk']; linarith
    have h2 : (-1 : ℝ) < k := by rw [← hk']; linarith
    have h1' : k < 1 := by exact_mod_cast h1
    have h2' : -1 < k := by exact_mod_cast h2
    omega
  rw [hk0] at hk'
  have : a = c := by push_cast at hk'; linarith
  rw [this]

theorem diskMap_image : diskMap '' openSq =ᵐ[volume] unitDisk := by
  -- the image misses only part of the line `y = 0`
  have hline : volume {p : ℝ × ℝ | p.2 = 0} = 0 := by
    have : {p : ℝ × ℝ | p.2 = 0} = univ ×ˢ {0} := by ext ⟨a, b⟩; simp
    rw [this, Measure.volume_eq_prod, Measure.prod_prod]
    simp
  have hsub : diskMap '' openSq ⊆ unitDisk := by
    rintro _ ⟨⟨u, v⟩, ⟨_, hv0, hv1⟩, rfl⟩
    have := (C46_disk u v (le_of_lt hv0) (le_of_lt hv1)).2.1
    change (uniformDisk u v).1 ^ 2 + (uniformDisk u v).2 ^ 2 < 1
    rw [this]; exact hv1
  have hsup : unitDisk ⊆ diskMap '' openSq ∪ {p | p.2 = 0} := by
    rintro ⟨x, y⟩ h
    by_cases hy : y = 0
    · exact .inr hy
    · have h' : x ^ 2 + y ^ 2 < 1 := h
      obtain ⟨u, v, hu0, hu1, hv0, hv1, e⟩ := C46_disk_onto x y h'.le
      have hv := (C46_disk u v hv0 hv1).2.1
      rw [e] at hv
      refine .inl ⟨(u, v), ⟨⟨lt_of_le_of_ne hu0 ?_, hu1⟩, ?_, ?_⟩, e⟩
      · rintro rfl
        rw [(C46_disk 0 v hv0 hv1).2.2] at e
        simp at e
        exact hy e.2.symm
      · have : 0 < y ^ 2 := by positivity
        simp only at hv ⊢
        nlinarith [sq_nonneg x]
      · simp only at hv ⊢
        linarith
  refine (LE.le.eventuallyLE hsub).antisymm ?_
  refine (LE.le.eventuallyLE hsup).trans ?_
  exact (union_ae_eq_left_of_ae_eq_empty (ae_eq_empty.2 hline)).le

/-- Averages over the unit square become averages over the unit disk. -/
theorem lintegral_diskMap (f : ℝ × ℝ → ENNReal) :
    ∫⁻ p in unitSq, f (uniformDisk p.1 p.2) = (ENNReal.ofReal Real.pi)⁻¹ * ∫⁻ p in unitDisk, f p := by
  rw [← setLIntegral_congr openSq_ae_eq, ← setLIntegral_congr diskMap_image,
    lintegral_image_eq_lintegral_abs_det_fderiv_mul volume measurableSet_openSq
      (fun p hp => (diskMap_hasFDerivAt p hp.2.1).hasFDerivWithinAt) diskMap_injOn]
  rw [setLIntegral_congr_fun (f := fun p => ENNReal.ofReal |(diskDeriv p).det| * f (diskMap p)) measurableSet_openSq
    (g := fun p => ENNReal.ofReal Real.pi * f (diskMap p))
    (fun p hp => by simp only [diskDeriv_det p hp.2.1, abs_neg, abs_of_pos Real.pi_pos])]
  rw [lintegral_const_mul' _ _ ENNReal.ofReal_ne_top, ← mul_assoc,
    ENNReal.inv_mul_cancel (by simpa using Real.pi_pos) ENNReal.ofReal_ne_top, one_mul]
  rfl

/-! ### Directions -/

/-- The direction above the point `q` of the unit disk. -/
noncomputable def lift (a b n : Vec ℝ) (q : ℝ × ℝ) : Vec ℝ :=
  ((a.mul q.1).add (b.mul q.2)).add (n.mul (Real.sqrt (1 - (q.1 ^ 2 + q.2 ^ 2))))

/-- Vectors are sums of their components along a frame. -/
theorem IsFrame.complete {a b n : Vec ℝ} (h : IsFrame a b n) (v : Vec ℝ) :
    v = ((a.mul (v.dot a)).add (b.mul (v.dot b))).add (n.mul (v.dot n)) := by
  obtain ⟨aa, bb, nn, ab, an, bn⟩ := h
  simp only [geo] at aa bb nn ab an bn
  let M : _root_.Matrix (Fin 3) (Fin 3) ℝ := !![a.x, b.x, n.x; a.y, b.y, n.y; a.z, b.z, n.z]
  have h1 : M.transpose * M = 1 := by
    ext i j
    fin_cases i <;> fin_cases j <;>
      simp [M, _root_.Matrix.mul_apply, Fin.sum_univ_three] <;> linarith
  have h2 : M * M.transpose = 1 := mul_eq_one_comm.1 h1
  have e : ∀ i j, (M * M.transpose) i j = (1 : _root_.Matrix (Fin 3) (Fin 3) ℝ) i j := fun i j => by rw [h2]
  have e00 := e 0 0
  have e01 := e 0 1
  have e02 := e 0 2
  have e11 := e 1 1
  have e12 := e 1 2
  have e22 := e 2 2
  simp [M, _root_.Matrix.mul_apply, Fin.sum_univ_three] at e00 e01 e02 e11 e12 e22
  simp only [geo]
  refine ⟨?_, ?_, ?_⟩
  · linear_combination (-v.x) * e00 - v.y * e01 - v.z * e02
  · linear_combination (-v.x) * e01 - v.y * e11 - v.z * e12
  · linear_combination (-v.x) * e02 - v.y * e12 - v.z * e22

/-- The hemisphere samples are the directions above the disk samples, in some frame. -/
theorem cosineSphere_lift (n : Vec ℝ) (hn : n.dot n = 1) :
    ∃ a b, IsFrame a b n ∧ ∀ u v, cosineSphere u v n = lift a b n (uniformDisk u v) := by
  obtain ⟨h0, h1⟩ := cosineAxis_spec n hn
  obtain ⟨k, -, hk, hu⟩ := Vec.normalized_spec h0
  set t := (n.set (cosineSphereAxis n) (lit 1)).cross n with ht
  set e := t.normalized with he
  have hen : e.dot n = 0 := by
    rw [hk]
    have : ∀ a : Vec ℝ, (a.mul k).dot n = k * a.dot n := by intro a; simp only [geo]; ring
    rw [this, h1, mul_zero]
  have hee : e.dot e = 1 := hu
  refine ⟨e, e.cross n, ⟨hee, ?_, hn, ?_, hen, ?_⟩, ?_⟩
  · have : (e.cross n).dot (e.cross n) = e.dot e * n.dot n - (e.dot n) ^ 2 := by
      simp only [geo]; ring
    rw [this, hee, hn, hen]; norm_num
  · simp only [geo]; ring
  · simp only [geo]; ring
  · intro u v
    have hc : cosineSphere u v n = (⟨e, e.cross n, n⟩ : Matrix ℝ).mulVec
        ⟨(uniformDisk u v).1, (uniformDisk u v).2, Real.sqrt (1 - ((uniformDisk u v).1 * (uniformDisk u v).1
          + (uniformDisk u v).2 * (uniformDisk u v).2))⟩ := by
      simp [cosineSphere, e, t]
    rw [hc]
    simp only [lift, geo, pow_two]
    refine ⟨?_, ?_, ?_⟩ <;> ring

/-- The plane seen in another frame around the same `n`. -/
def turn (α β γ δ : ℝ) (q : ℝ × ℝ) : ℝ × ℝ := (α * q.1 + γ * q.2, β * q.1 + δ * q.2)

/-- Turning the disk keeps areas. -/
theorem lintegral_turn {α β γ δ : ℝ} (h1 : α ^ 2 + β ^ 2 = 1) (h2 : γ ^ 2 + δ ^ 2 = 1) (h3 : α * γ + β * δ = 0)
    (g : ℝ × ℝ → ENNReal) : ∫⁻ q in unitDisk, g (turn α β γ δ q) = ∫⁻ q in unitDisk, g q := by
  have hdet : (α * δ - γ * β) ^ 2 = 1 := by
    linear_combination (γ ^ 2 + δ ^ 2) * h1 + h2 - (α * γ + β * δ) * h3
  have hnorm : ∀ q : ℝ × ℝ, (turn α β γ δ q).1 ^ 2 + (turn α β γ δ q).2 ^ 2 = q.1 ^ 2 + q.2 ^ 2 := by
    intro q
    simp only [turn]
    linear_combination q.1 ^ 2 * h1 + q.2 ^ 2 * h2 + 2 * q.1 * q.2 * h3
  -- the inverse is the transpose
  have hinv : ∀ q : ℝ × ℝ, turn α β γ δ (turn α γ β δ q) = q := by
    intro q
    have e : (α ^ 2 + γ ^ 2 - 1) ^ 2 + (β ^ 2 + δ ^ 2 - 1) ^ 2 + 2 * (α * β + γ * δ) ^ 2 = 0 := by
      linear_combination (α ^ 2 + β ^ 2 - 1) * h1 + (γ ^ 2 + δ ^ 2 - 1) * h2 + 2 * (α * γ + β * δ) * h3
    have e1 : α ^ 2 + γ ^ 2 - 1 = 0 := by
      nlinarith [sq_nonneg (α ^ 2 + γ ^ 2 - 1), sq_nonneg (β ^ 2 + δ ^ 2 - 1), sq_nonneg (α * β + γ * δ)]
    have e2 : β ^ 2 + δ ^ 2 - 1 = 0 := by
      nlinarith [sq_nonneg (α ^ 2 + γ ^ 2 - 1), sq_nonneg (β ^ 2 + δ ^ 2 - 1), sq_nonneg (α * β + γ * δ)]
    have e3 : α * β + γ * δ = 0 := by
      nlinarith [sq_nonneg (α ^ 2 + γ ^ 2 - 1), sq_nonneg (β ^ 2 + δ ^ 2 - 1), sq_nonneg (α * β + γ * δ)]
    ext
    · simp only [turn]; linear_combination q.1 * e1 + q.2 * e3
    · simp only [turn]; linear_combination q.1 * e3 + q.2 * e2
  have hinv' : ∀ q : ℝ × ℝ, turn α γ β δ (turn α β γ δ q) = q := by
    intro q
    ext
    · simp only [turn]; linear_combination q.1 * h1 + q.2 * h3
    · simp only [turn]; linear_combination q.1 * h3 + q.2 * h2
  have himg : turn α β γ δ '' unitDisk = unitDisk := by
    apply Subset.antisymm
    · rintro _ ⟨q, hq, rfl⟩
      change (turn α β γ δ q).1 ^ 2 + (turn α β γ δ q).2 ^ 2 < 1
      rw [hnorm]; exact hq
    · intro q hq
      refine ⟨turn α γ β δ q, ?_, hinv q⟩
      change (turn α γ β δ q).1 ^ 2 + (turn α γ β δ q).2 ^ 2 < 1
      rw [← hnorm, hinv]; exact hq
  have hder : ∀ q ∈ unitDisk, HasFDerivWithinAt (turn α β γ δ)
      (_root_.Matrix.toLin (.finTwoProd ℝ) (.finTwoProd ℝ) !![α, γ; β, δ]).toContinuousLinearMap unitDisk q := by
    intro q _
    have : turn α β γ δ = (_root_.Matrix.toLin (.finTwoProd ℝ) (.finTwoProd ℝ) !![α, γ; β, δ]).toContinuousLinearMap := by
      funext q
      simp [turn, _root_.Matrix.toLin_finTwoProd_apply]
    rw [this]
    exact ContinuousLinearMap.hasFDerivWithinAt _
  have hinj : InjOn (turn α β γ δ) unitDisk := by
    intro p _ q _ e
    rw [← hinv' p, ← hinv' q, e]
  have habs : |α * δ - γ * β| = 1 := by
    rwa [← sq_eq_sq₀ (abs_nonneg _) zero_le_one, sq_abs, one_pow]
  conv_rhs => rw [← himg, lintegral_image_eq_lintegral_abs_det_fderiv_mul volume measurableSet_unitDisk hder hinj]
  simp [LinearMap.det_toContinuousLinearMap, LinearMap.det_toLin, _root_.Matrix.det_fin_two_of, habs]

theorem IsFrame.dot_comb {a b n : Vec ℝ} (h : IsFrame a b n) (x y z x' y' z' : ℝ) :
    (((a.mul x).add (b.mul y)).add (n.mul z)).dot (((a.mul x').add (b.mul y')).add (n.mul z')) =
      x * x' + y * y' + z * z' := by
  have e : (((a.mul x).add (b.mul y)).add (n.mul z)).dot (((a.mul x').add (b.mul y')).add (n.mul z')) =
      x * x' * a.dot a + y * y' * b.dot b + z * z' * n.dot n + (x * y' + y * x') * a.dot b +
        (x * z' + z * x') * a.dot n + (y * z' + z * y') * b.dot n := by
    simp only [geo]; ring
  rw [e, h.aa, h.bb, h.nn, h.ab, h.an, h.bn]; ring

/-- Averages over the unit square of hemisphere samples are averages over the disk, in every frame. -/
theorem lintegral_cosineSphere {a b n : Vec ℝ} (hF : IsFrame a b n) (f : Vec ℝ → ENNReal) :
    ∫⁻ p in unitSq, f (cosineSphere p.1 p.2 n) = (ENNReal.ofReal Real.pi)⁻¹ * ∫⁻ q in unitDisk, f (lift a b n q) := by
  obtain ⟨e, e', hE, hc⟩ := cosineSphere_lift n hF.nn
  have h0 : ∫⁻ p in unitSq, f (cosineSphere p.1 p.2 n) = ∫⁻ p in unitSq, f (lift e e' n (uniformDisk p.1 p.2)) := by
    simp only [hc]
  rw [h0, lintegral_diskMap (fun q => f (lift e e' n q))]
  congr 1
  have an0 : a.dot n = 0 := hF.an
  have bn0 : b.dot n = 0 := hF.bn
  have ea := hE.complete a
  have eb := hE.complete b
  rw [an0] at ea
  rw [bn0] at eb
  set α := a.dot e
  set β := a.dot e'
  set γ := b.dot e
  set δ := b.dot e'
  have h1 : α ^ 2 + β ^ 2 = 1 := by
    rw [← hF.aa, ea, hE.dot_comb]; ring
  have h2 : γ ^ 2 + δ ^ 2 = 1 := by
    rw [← hF.bb, eb, hE.dot_comb]; ring
  have h3 : α * γ + β * δ = 0 := by
    rw [← hF.ab, ea, eb, hE.dot_comb]; ring
  rw [← lintegral_turn h1 h2 h3]
  refine lintegral_congr fun q => ?_
  have hnorm : (turn α β γ δ q).1 ^ 2 + (turn α β γ δ q).2 ^ 2 = q.1 ^ 2 + q.2 ^ 2 := by
    simp only [turn]
    linear_combination q.1 ^ 2 * h1 + q.2 ^ 2 * h2 + 2 * q.1 * q.2 * h3
  unfold lift
  rw [hnorm]
  congr 1
  conv_rhs => rw [ea, eb]
  simp only [geo, turn]
  refine ⟨?_, ?_, ?_⟩ <;> ring

/-! ### Angles -/

theorem sin_image : Real.sin '' Ioo 0 (Real.pi / 2) = Ioo 0 1 := by
  have hp := Real.pi_pos
  apply Subset.antisymm
  · rintro _ ⟨x, ⟨h0, h1⟩, rfl⟩
    refine ⟨Real.sin_pos_of_pos_of_lt_pi h0 (by linarith), ?_⟩
    rw [← Real.sin_pi_div_two]
    exact Real.sin_lt_sin_of_lt_of_le_pi_div_two (by linarith) le_rfl h1
  · rintro y ⟨h0, h1⟩
    refine ⟨Real.arcsin y, ⟨Real.arcsin_pos.2 h0, ?_⟩, Real.sin_arcsin (by linarith) h1.le⟩
    exact Real.arcsin_lt_pi_div_two.2 h1

/-- The angles of a hemisphere: `θ` from the axis, `φ` around it. -/
def hemiAngles : Set (ℝ × ℝ) := Ioo 0 (Real.pi / 2) ×ˢ Ioo (-Real.pi) Real.pi

/-- Averages over the disk as averages over the hemisphere above it. -/
theorem lintegral_hemisphere (g : ℝ × ℝ → ENNReal) :
    ∫⁻ q in unitDisk, g q = ∫⁻ a in hemiAngles, ENNReal.ofReal (Real.cos a.1 * Real.sin a.1) *
      g (Real.sin a.1 * Real.cos a.2, Real.sin a.1 * Real.sin a.2) := by
  have hp := Real.pi_pos
  rw [← lintegral_indicator measurableSet_unitDisk, ← lintegral_comp_polarCoord_symm]
  -- only radii below one matter
  have h1 : ∫⁻ p in polarCoord.target, ENNReal.ofReal p.1 • unitDisk.indicator g (polarCoord.symm p) =
      ∫⁻ p in Ioo (0 : ℝ) 1 ×ˢ Ioo (-Real.pi) Real.pi, ENNReal.ofReal p.1 * g (p.1 * Real.cos p.2, p.1 * Real.sin p.2) := by
    rw [← lintegral_indicator polarCoord.open_target.measurableSet,
      ← lintegral_indicator (measurableSet_Ioo.prod measurableSet_Ioo)]
    refine lintegral_congr fun p => ?_
    have hd : polarCoord.symm p ∈ unitDisk ↔ p.1 ^ 2 < 1 := by
      simp only [polarCoord_symm_apply, unitDisk, mem_ofPred_eq]
      rw [show (p.1 * Real.cos p.2) ^ 2 + (p.1 * Real.sin p.2) ^ 2 = p.1 ^ 2 by
        linear_combination p.1 ^ 2 * Real.sin_sq_add_cos_sq p.2]
    by_cases ht : p ∈ polarCoord.target
    · rw [indicator_of_mem ht]
      have ht' := ht
      rw [polarCoord_target] at ht'
      have h0 : 0 < p.1 := ht'.1
      by_cases hq : p.1 < 1
      · have : polarCoord.symm p ∈ unitDisk := hd.2 (by nlinarith)
        rw [indicator_of_mem this, indicator_of_mem (show p ∈ Ioo (0 : ℝ) 1 ×ˢ Ioo (-Real.pi) Real.pi from ⟨⟨h0, hq⟩, ht'.2⟩)]
        rfl
      · have : polarCoord.symm p ∉ unitDisk := fun h => hq (by have := hd.1 h; nlinarith)
        rw [indicator_of_notMem this, indicator_of_notMem (fun h => hq h.1.2)]
        simp
    · rw [indicator_of_notMem ht, indicator_of_notMem]
      intro h
      exact ht (by rw [polarCoord_target]; exact ⟨h.1.1, h.2⟩)
  rw [h1]
  have himg : (fun a : ℝ × ℝ => (Real.sin a.1, a.2)) '' hemiAngles = Ioo (0 : ℝ) 1 ×ˢ Ioo (-Real.pi) Real.pi := by
    have : (fun a : ℝ × ℝ => (Real.sin a.1, a.2)) = Prod.map Real.sin id := rfl
    rw [this, hemiAngles, prodMap_image_prod, sin_image, image_id]
  rw [← himg]
  have hder : ∀ a ∈ hemiAngles, HasFDerivWithinAt (fun a : ℝ × ℝ => (Real.sin a.1, a.2))
      (_root_.Matrix.toLin (.finTwoProd ℝ) (.finTwoProd ℝ) !![Real.cos a.1, 0; 0, 1]).toContinuousLinearMap hemiAngles a := by
    intro a _
    apply HasFDerivAt.hasFDerivWithinAt
    rw [_root_.Matrix.toLin_finTwoProd_toContinuousLinearMap]
    convert! ((Real.hasDerivAt_sin a.1).comp_hasFDerivAt a hasFDerivAt_fst).prodMk (hasFDerivAt_snd (𝕜 := ℝ)) using 2 <;>
    · ext <;> simp
  have hinj : InjOn (fun a : ℝ × ℝ => (Real.sin a.1, a.2)) hemiAngles := by
    rintro ⟨x, y⟩ ⟨hx, _⟩ ⟨x', y'⟩ ⟨hx', _⟩ e
    simp only [Prod.mk.injEq] at e
    have hx1 : x ∈ Ioo 0 (Real.pi / 2) := hx
    have hx2 : x' ∈ Ioo 0 (Real.pi / 2) := hx'
    have : x = x' := Real.injOn_sin ⟨by linarith [hx1.1], hx1.2.le⟩ ⟨by linarith [hx2.1], hx2.2.le⟩ e.1
    rw [e.2, this]
  rw [lintegral_image_eq_lintegral_abs_det_fderiv_mul volume (measurableSet_Ioo.prod measurableSet_Ioo) hder hinj]
  refine setLIntegral_congr_fun (measurableSet_Ioo.prod measurableSet_Ioo) fun a ha => ?_
  have hc : 0 < Real.cos a.1 := Real.cos_pos_of_mem_Ioo ⟨by linarith [ha.1.1], ha.1.2⟩
  simp only [LinearMap.det_toContinuousLinearMap, LinearMap.det_toLin, _root_.Matrix.det_fin_two_of]
  rw [mul_one, mul_zero, sub_zero, abs_of_pos hc, ENNReal.ofReal_mul hc.le, mul_assoc]

/-! ### Scaling -/

/-- Stretching and displacing the plane. -/
def stretch (x0 y0 sx sy : ℝ) (q : ℝ × ℝ) : ℝ × ℝ := (x0 + sx * q.1, y0 + sy * q.2)

theorem stretch_inj {x0 y0 sx sy : ℝ} (hx : 0 < sx) (hy : 0 < sy) (p q : ℝ × ℝ)
    (e : stretch x0 y0 sx sy p = stretch x0 y0 sx sy q) : p = q := by
  simp only [stretch, Prod.mk.injEq, add_right_inj] at e
  ext
  · exact mul_left_cancel₀ hx.ne' e.1
  · exact mul_left_cancel₀ hy.ne' e.2

theorem lintegral_stretch {x0 y0 sx sy : ℝ} (hx : 0 < sx) (hy : 0 < sy) (s : Set (ℝ × ℝ)) (hs : MeasurableSet s)
    (g : ℝ × ℝ → ENNReal) :
    ∫⁻ p in s, g (stretch x0 y0 sx sy p) =
      (ENNReal.ofReal (sx * sy))⁻¹ * ∫⁻ p in stretch x0 y0 sx sy '' s, g p := by
  have hder : ∀ a ∈ s, HasFDerivWithinAt (stretch x0 y0 sx sy)
      (_root_.Matrix.toLin (.finTwoProd ℝ) (.finTwoProd ℝ) !![sx, 0; 0, sy]).toContinuousLinearMap s a := by
    intro a _
    apply HasFDerivAt.hasFDerivWithinAt
    rw [_root_.Matrix.toLin_finTwoProd_toContinuousLinearMap]
    have h1 : HasFDerivAt (fun q : ℝ × ℝ => x0 + sx * q.1) (sx • ContinuousLinearMap.fst ℝ ℝ ℝ) a :=
      (hasFDerivAt_fst.const_mul sx).const_add x0
    have h2 : HasFDerivAt (fun q : ℝ × ℝ => y0 + sy * q.2) (sy • ContinuousLinearMap.snd ℝ ℝ ℝ) a :=
      (hasFDerivAt_snd.const_mul sy).const_add y0
    convert! h1.prodMk h2 using 2 <;>
    · ext <;> simp
  have hpos : 0 < sx * sy := mul_pos hx hy
  rw [lintegral_image_eq_lintegral_abs_det_fderiv_mul volume hs hder fun p _ q _ e => stretch_inj hx hy p q e]
  simp only [LinearMap.det_toContinuousLinearMap, LinearMap.det_toLin, _root_.Matrix.det_fin_two_of]
  rw [mul_zero, sub_zero, abs_of_pos hpos, lintegral_const_mul' _ _ ENNReal.ofReal_ne_top, ← mul_assoc,
    ENNReal.inv_mul_cancel (by simpa using hpos) ENNReal.ofReal_ne_top, one_mul]

/-- The stretched unit square. -/
theorem stretch_unitSq {x0 y0 sx sy : ℝ} (hx : 0 < sx) (hy : 0 < sy) :
    stretch x0 y0 sx sy '' openSq = Ioo x0 (x0 + sx) ×ˢ Ioo y0 (y0 + sy) := by
  ext ⟨a, b⟩
  constructor
  · rintro ⟨⟨u, v⟩, ⟨⟨h1, h2⟩, h3, h4⟩, e⟩
    simp only [stretch, Prod.mk.injEq] at e h1 h2 h3 h4
    obtain ⟨rfl, rfl⟩ := e
    refine ⟨⟨?_, ?_⟩, ?_, ?_⟩ <;> simp only <;> nlinarith
  · rintro ⟨⟨h1, h2⟩, h3, h4⟩
    simp only at h1 h2 h3 h4
    refine ⟨((a - x0) / sx, (b - y0) / sy), ⟨⟨?_, ?_⟩, ?_, ?_⟩, ?_⟩
    · exact div_pos (by linarith) hx
    · simp only; rw [div_lt_one hx]; linarith
    · exact div_pos (by linarith) hy
    · simp only; rw [div_lt_one hy]; linarith
    · simp only [stretch, Prod.mk.injEq]
      constructor <;> field_simp <;> ring

/-- The stretched unit disk. -/
theorem stretch_unitDisk {x0 y0 r : ℝ} (hr : 0 < r) :
    stretch x0 y0 r r '' unitDisk = {q | (q.1 - x0) ^ 2 + (q.2 - y0) ^ 2 < r ^ 2} := by
  ext ⟨a, b⟩
  constructor
  · rintro ⟨⟨u, v⟩, h, e⟩
    have h' : u ^ 2 + v ^ 2 < 1 := h
    simp only [stretch, Prod.mk.injEq] at e
    obtain ⟨rfl, rfl⟩ := e
    simp only [mem_ofPred_eq]
    have : 0 < r ^ 2 := by positivity
    nlinarith
  · intro h
    have h' : (a - x0) ^ 2 + (b - y0) ^ 2 < r ^ 2 := h
    refine ⟨((a - x0) / r, (b - y0) / r), ?_, ?_⟩
    · change ((a - x0) / r) ^ 2 + ((b - y0) / r) ^ 2 < 1
      rw [div_pow, div_pow, ← add_div, div_lt_one (by positivity)]
      exact h'
    · simp only [stretch, Prod.mk.injEq]
      constructor <;> field_simp <;> ring

end BR
