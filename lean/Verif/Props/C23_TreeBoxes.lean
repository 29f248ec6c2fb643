import Verif.Lemmas.Tree
import Verif.Num.Flo

/-! C23: the single-precision boxes stored in a tree. -/

namespace BR

set_option linter.unusedSectionVars false

variable {F M : Type} [Add F] [Sub F] [Mul F] [Div F] [Neg F] [GoFloat F]

/-- If conversion to single precision is monotone, every box stored in a tree contains the bounds,
*rounded to single precision*, of every member below it. -/
theorem C23_rounded_partial [CmpModel F]
    (hmono : ∀ a b : F, (a <=. b) = true → (GoFloat.toF32 a <=. GoFloat.toF32 b) = true)
    (S : Sorter (Obj F M)) (ch : List (Obj F M)) (n : Node F M) (l : List (Obj F M))
    (h : buildTree S ch = .ok (n, l)) (x : BBox F × List (Obj F M)) (hx : x ∈ n.boxes) (o : Obj F M)
    (ho : o ∈ x.2) :
    ∃ b, o.bounds = .ok b ∧ x.1.Contains b.toF.min ∧ x.1.Contains b.toF.max := by
  obtain ⟨-, -, hb⟩ := buildTree_boxes S ch n l h
  obtain ⟨ch', bb, hbb, e, hp, -⟩ := hb x hx
  obtain ⟨-, h2, -⟩ := makeBoundingBox_spec ch' bb hbb
  obtain ⟨b, hob, -, -, c1, c2⟩ := h2 o (hp.mem_iff.1 ho)
  rw [e]
  obtain ⟨p1, p2, p3, p4, p5, p6⟩ := c1
  obtain ⟨q1, q2, q3, q4, q5, q6⟩ := c2
  exact ⟨b, hob, ⟨hmono _ _ p1, hmono _ _ p2, hmono _ _ p3, hmono _ _ p4, hmono _ _ p5, hmono _ _ p6⟩,
    ⟨hmono _ _ q1, hmono _ _ q2, hmono _ _ q3, hmono _ _ q4, hmono _ _ q5, hmono _ _ q6⟩⟩

/-- If moreover the member's bounds are representable in single precision, the box contains them. -/
theorem C23_contains_partial [CmpModel F]
    (hmono : ∀ a b : F, (a <=. b) = true → (GoFloat.toF32 a <=. GoFloat.toF32 b) = true)
    (S : Sorter (Obj F M)) (ch : List (Obj F M)) (n : Node F M) (l : List (Obj F M))
    (h : buildTree S ch = .ok (n, l)) (x : BBox F × List (Obj F M)) (hx : x ∈ n.boxes) (o : Obj F M)
    (ho : o ∈ x.2) (b : BBox F) (hb : o.bounds = .ok b) (hrep : b.toF = b) :
    x.1.Contains b.min ∧ x.1.Contains b.max := by
  obtain ⟨b', hb', h1, h2⟩ := C23_rounded_partial hmono S ch n l h x hx o ho
  rw [hb] at hb'; cases hb'
  rw [hrep] at h1 h2
  exact ⟨h1, h2⟩

/-- IEEE rounding to single precision is monotone, so the two theorems above apply. -/
theorem Flo.toF32_mono (a b : Flo) (h : (a <=. b) = true) : (GoFloat.toF32 a <=. GoFloat.toF32 b) = true := by
  obtain ⟨a⟩ := a
  obtain ⟨b⟩ := b
  change (a <=. b) = true at h
  change (roundTo 24 128 a <=. roundTo 24 128 b) = true
  have hpow : (0 : ℝ) < 2 ^ 128 := by positivity
  cases a with
  | nan => simp at h
  | inf s =>
    cases b with
    | nan => simp at h
    | inf t => exact h
    | num y t =>
      simp only [Ext.inf_le_num] at h
      subst h
      simp only [roundTo]
      split_ifs <;> simp
  | num x s =>
    cases b with
    | nan => simp at h
    | inf t =>
      simp only [Ext.num_le_inf, Bool.not_eq_true'] at h
      subst h
      simp only [roundTo]
      split_ifs <;> simp
    | num y t =>
      simp only [Ext.le_num, decide_eq_true_eq] at h
      have hm := roundBits_mono 24 (by norm_num) h
      have hsgn : ∀ z : ℝ, z < 0 → roundBits 24 z ≤ 0 := by
        intro z hz
        have := roundBits_mono 24 (by norm_num) hz.le
        rwa [roundBits_zero] at this
      have hsgn' : ∀ z : ℝ, 0 ≤ z → 0 ≤ roundBits 24 z := by
        intro z hz
        have := roundBits_mono 24 (by norm_num) hz
        rwa [roundBits_zero] at this
      simp only [roundTo]
      generalize (if roundBits 24 x = 0 then (Ext.num x s).sgn else s) = s'
      generalize (if roundBits 24 y = 0 then (Ext.num y t).sgn else t) = t'
      split_ifs with h1 h2 h2
      · simp only [Ext.inf_le_inf, Bool.or_eq_true, decide_eq_true_eq, Bool.not_eq_true', decide_eq_false_iff_not]
        by_cases hx : x < 0
        · exact .inl hx
        · exact .inr (by linarith)
      · simp only [Ext.inf_le_num, decide_eq_true_eq]
        by_contra hx
        have hx' := hsgn' x (not_lt.1 hx)
        rw [abs_of_nonneg hx'] at h1
        rw [abs_of_nonneg (hx'.trans hm)] at h2
        linarith
      · simp only [Ext.num_le_inf, Bool.not_eq_true', decide_eq_false_iff_not]
        intro hy
        have hy' := hsgn y hy
        rw [abs_of_nonpos hy'] at h2
        rw [abs_of_nonpos (hm.trans hy')] at h1
        linarith
      · simpa using hm

/-- **C23, violated.** In any arithmetic in which conversion to single precision makes some coordinate
smaller, a tree holding one object that extends up to that coordinate has a box that does not contain
the bounds of the object. -/
theorem C23_violated (S : Sorter (Obj F M)) (x : F) (hx : (GoFloat.toF32 x <. x) = true) (o : Obj F M)
    (b : BBox F) (hb : o.bounds = .ok b) (hbx : b.max.x = x) (hlt : (b.min.x <. x) = true)
    (n : Node F M) (l : List (Obj F M)) (h : buildTree S [o] = .ok (n, l)) :
    ∃ bb, (bb, [o]) ∈ n.boxes ∧ (bb.max.x <. b.max.x) = true := by
  rw [buildTree, if_pos (by simp [maxFacePerLeaf])] at h
  obtain ⟨bb, hbb, h⟩ := bind_eq_ok.1 h
  cases h
  refine ⟨bb.toF, by simp [Node.boxes], ?_⟩
  rw [makeBoundingBox, List.mapM_cons, hb, ok_bind] at hbb
  have : bb.max.x = x := by
    simp only [List.mapM_nil, pure_ok, List.flatMap_cons, List.flatMap_nil, List.append_nil,
      BBox.fromHull, ok_bind] at hbb
    obtain ⟨c, hc, hbb⟩ := bind_eq_ok.1 hbb
    obtain ⟨_, -, hbb⟩ := bind_eq_ok.1 hbb
    obtain ⟨_, -, hbb⟩ := bind_eq_ok.1 hbb
    cases hbb
    rw [List.foldlM_cons] at hc
    obtain ⟨c1, hc1, hc⟩ := bind_eq_ok.1 hc
    rw [BBox.hullStep] at hc1
    obtain ⟨_, -, hc1⟩ := bind_eq_ok.1 hc1
    cases hc1
    rw [List.foldlM_cons] at hc
    obtain ⟨c2, hc2, hc⟩ := bind_eq_ok.1 hc
    rw [BBox.hullStep] at hc2
    obtain ⟨_, -, hc2⟩ := bind_eq_ok.1 hc2
    cases hc2
    cases hc
    have hu : BBox.upper b.min.x b.min.x = b.min.x := by unfold BBox.upper; split <;> rfl
    simp only [hu, hbx]
    rw [BBox.upper, hlt]; rfl
  change (GoFloat.toF32 bb.max.x <. b.max.x) = true
  rw [this, hbx]
  exact hx

/-! ## A concrete object that becomes invisible at its edge -/

namespace Flo

private theorem rnd_dy (x : ℝ) (s : Bool) (m : ℤ) (k : ℕ) (hx : x * 2 ^ k = m) (hm : |m| < 2 ^ 53)
    (hb : |x| < 2 ^ 100) (hk : k ≤ 149 := by norm_num) : rnd (.num x s) = ⟨.num x s⟩ := by
  rw [rnd, roundTo_exact 53 1024 x s m (-k) ?_ hm (by omega) (hb.trans (pow_lt_pow_right₀ (by norm_num) (by norm_num)))]
  rw [← hx, zpow_neg, zpow_natCast]
  field_simp

/-- The coordinate 1 + 2⁻²⁵ is a double precision number and becomes 1 in single precision. -/
theorem f32_edge : (GoFloat.toF32 (⟨.num (1 + 1 / 2 ^ 25) false⟩ : Flo)) = ⟨.num 1 false⟩ := by
  change (⟨roundTo 24 128 _⟩ : Flo) = _
  have hlog : Int.log 2 |(1 + 1 / 2 ^ 25 : ℝ)| = 0 := by
    apply le_antisymm
    · have : (0 : ℝ) < |(1 + 1 / 2 ^ 25 : ℝ)| := by positivity
      have := (Int.lt_zpow_iff_log_lt (b := 2) (by norm_num) this (x := 1)).1 (by norm_num [abs_of_pos])
      omega
    · have : (0 : ℝ) < |(1 + 1 / 2 ^ 25 : ℝ)| := by positivity
      exact (Int.zpow_le_iff_le_log (b := 2) (by norm_num) this (x := 0)).1 (by norm_num [abs_of_pos])
  have hr : roundBits 24 (1 + 1 / 2 ^ 25) = 1 := by
    have hp : lastPlace 24 (1 + 1 / 2 ^ 25) = -23 := by
      unfold lastPlace lowest
      rw [hlog]; norm_num
    unfold roundBits
    dsimp only
    rw [hp]
    have e : (1 + 1 / 2 ^ 25 : ℝ) / 2 ^ (-23 : ℤ) = 2 ^ 23 + 1 / 4 := by
      norm_num [zpow_neg]
    rw [e]
    have fl : ⌊(2 ^ 23 + 1 / 4 : ℝ)⌋ = 2 ^ 23 := by
      rw [Int.floor_eq_iff]; norm_num
    have : roundEven (2 ^ 23 + 1 / 4) = 2 ^ 23 := by
      rw [roundEven, fl, if_pos (by norm_num)]
    rw [this]
    norm_num [zpow_neg]
  rw [roundTo, hr, if_neg (by norm_num), if_neg one_ne_zero]

private theorem sub_mk (a b : Ext) : ((⟨a⟩ - ⟨b⟩ : Flo)) = rnd (a - b) := rfl
private theorem add_mk (a b : Ext) : ((⟨a⟩ + ⟨b⟩ : Flo)) = rnd (a + b) := rfl
private theorem mul_mk (a b : Ext) : ((⟨a⟩ * ⟨b⟩ : Flo)) = rnd (a * b) := rfl
private theorem div_mk (a b : Ext) : ((⟨a⟩ / ⟨b⟩ : Flo)) = rnd (a / b) := rfl
private theorem lt_mk (a b : Ext) : ((⟨a⟩ : Flo) <. ⟨b⟩) = (a <. b) := rfl
private theorem le_mk (a b : Ext) : ((⟨a⟩ : Flo) <=. ⟨b⟩) = (a <=. b) := rfl
private theorem rnd_inf (s : Bool) : rnd (.inf s) = ⟨.inf s⟩ := rfl
private theorem lit_zero : (lit 0 : Flo) = ⟨.num 0 false⟩ := by
  change rnd (lit 0) = _
  rw [Ext.lit_ext, Rat.cast_zero, rnd_zero]
private theorem lit_one : (lit 1 : Flo) = ⟨.num 1 false⟩ := by
  change rnd (lit 1) = _
  rw [Ext.lit_ext, Rat.cast_one, rnd_dy 1 false 1 0 (by norm_num) (by norm_num) (by norm_num)]

private theorem one_div_zero : (⟨.num 1 false⟩ / ⟨.num 0 false⟩ : Flo) = ⟨.inf false⟩ := by
  rw [div_mk, Ext.num_div_zero, if_neg one_ne_zero]
  simp [Ext.sgn, rnd_inf]

private theorem mul_inf_pos {x : ℝ} (s : Bool) (hx : 0 < x) : ((⟨.num x s⟩ : Flo) * ⟨.inf false⟩) = ⟨.inf false⟩ := by
  rw [mul_mk, Ext.num_mul_inf, if_neg hx.ne']
  simp [Ext.sgn, rnd_inf, hx.ne', hx.le]

private theorem mul_inf_neg {x : ℝ} (s : Bool) (hx : x < 0) : ((⟨.num x s⟩ : Flo) * ⟨.inf false⟩) = ⟨.inf true⟩ := by
  rw [mul_mk, Ext.num_mul_inf, if_neg hx.ne]
  simp [Ext.sgn, rnd_inf, hx.ne, hx]

/-- Subtraction with an exact result. -/
private theorem sub_dy (x y : ℝ) (s t : Bool) (m : ℤ) (k : ℕ) (hx : (x - y) * 2 ^ k = m) (hm : |m| < 2 ^ 53)
    (hb : |x - y| < 2 ^ 100) (hk : k ≤ 149 := by norm_num) : ∃ u, ((⟨.num x s⟩ : Flo) - ⟨.num y t⟩) = ⟨.num (x - y) u⟩ := by
  rw [sub_mk, Ext.num_sub_num]
  exact ⟨_, rnd_dy _ _ m k hx hm hb hk⟩

/-- An axis-parallel ray: the slab is crossed for ever, or never. -/
private theorem slab_par (a b c : ℝ) (u v : Ext)
    (h1 : ∃ w, ((⟨.num a false⟩ : Flo) - ⟨.num c false⟩) = ⟨.num (a - c) w⟩)
    (h2 : ∃ w, ((⟨.num b false⟩ : Flo) - ⟨.num c false⟩) = ⟨.num (b - c) w⟩)
    (ha : a < c) (hu : u = .inf true) (hv : v = if c < b then .inf false else .inf true) (hb : b ≠ c) :
    BBox.slab (⟨.num a false⟩ : Flo) ⟨.num b false⟩ ⟨.num c false⟩ ⟨.num 0 false⟩ = (⟨u⟩, ⟨v⟩) := by
  obtain ⟨w1, e1⟩ := h1
  obtain ⟨w2, e2⟩ := h2
  unfold BBox.slab
  dsimp only
  rw [lit_one, one_div_zero, e1, e2, mul_inf_neg _ (by linarith)]
  rcases lt_or_gt_of_ne hb with h | h
  · rw [mul_inf_neg _ (by linarith)]
    simp [fmin, fmax, lt_mk, hu, hv, not_lt.2 h.le]
  · rw [mul_inf_pos _ (by linarith)]
    simp [fmin, fmax, lt_mk, hu, hv, h]

private theorem slab_y :
    BBox.slab (⟨.num 0 false⟩ : Flo) ⟨.num 1 false⟩ ⟨.num (-1) false⟩ ⟨.num 1 false⟩
      = (⟨.num 1 false⟩, ⟨.num 2 false⟩) := by
  unfold BBox.slab
  dsimp only
  rw [lit_one, div_mk, sub_mk, sub_mk, Ext.num_div_num _ _ _ _ one_ne_zero, Ext.num_sub_num, Ext.num_sub_num]
  norm_num [Ext.sgn]
  rw [rnd_dy 1 false 1 0 (by norm_num) (by norm_num) (by norm_num),
    rnd_dy 2 false 2 0 (by norm_num) (by norm_num) (by norm_num), mul_mk, mul_mk, Ext.num_mul_num, Ext.num_mul_num]
  norm_num [Ext.sgn]
  rw [rnd_dy 1 false 1 0 (by norm_num) (by norm_num) (by norm_num),
    rnd_dy 2 false 2 0 (by norm_num) (by norm_num) (by norm_num)]
  simp [fmin, fmax, lt_mk]

/-- The box from the origin to `(1 + 2⁻²⁵, 1, 1)`. -/
noncomputable def edgeBox : BBox Flo :=
  ⟨⟨⟨.num 0 false⟩, ⟨.num 0 false⟩, ⟨.num 0 false⟩⟩, ⟨⟨.num (1 + 1 / 2 ^ 25) false⟩, ⟨.num 1 false⟩, ⟨.num 1 false⟩⟩⟩

/-- A ray along +y that passes through the box at `x = 1 + 2⁻²⁶`, `z = 1/2`. -/
noncomputable def edgeRay : Ray Flo :=
  ⟨⟨⟨.num (1 + 1 / 2 ^ 26) false⟩, ⟨.num (-1) false⟩, ⟨.num (1 / 2) false⟩⟩, ⟨⟨.num 0 false⟩, ⟨.num 1 false⟩, ⟨.num 0 false⟩⟩⟩

private theorem slab_z :
    BBox.slab (⟨.num 0 false⟩ : Flo) ⟨.num 1 false⟩ ⟨.num (1 / 2) false⟩ ⟨.num 0 false⟩
      = (⟨.inf true⟩, ⟨.inf false⟩) :=
  slab_par _ _ _ _ _ (sub_dy _ _ _ _ (-1) 1 (by norm_num) (by norm_num) (by norm_num [abs_of_neg]))
    (sub_dy _ _ _ _ 1 1 (by norm_num) (by norm_num) (by norm_num [abs_of_pos])) (by norm_num) rfl
    (by norm_num) (by norm_num)

private theorem slab_x :
    BBox.slab (⟨.num 0 false⟩ : Flo) ⟨.num (1 + 1 / 2 ^ 25) false⟩ ⟨.num (1 + 1 / 2 ^ 26) false⟩ ⟨.num 0 false⟩
      = (⟨.inf true⟩, ⟨.inf false⟩) :=
  slab_par _ _ _ _ _
    (sub_dy _ _ _ _ (-(2 ^ 26 + 1)) 26 (by norm_num) (by norm_num) (by norm_num [abs_of_neg]))
    (sub_dy _ _ _ _ 1 26 (by norm_num) (by norm_num) (by norm_num [abs_of_pos])) (by norm_num) rfl
    (by norm_num) (by norm_num)

private theorem slab_x32 :
    BBox.slab (⟨.num 0 false⟩ : Flo) ⟨.num 1 false⟩ ⟨.num (1 + 1 / 2 ^ 26) false⟩ ⟨.num 0 false⟩
      = (⟨.inf true⟩, ⟨.inf true⟩) :=
  slab_par _ _ _ _ _
    (sub_dy _ _ _ _ (-(2 ^ 26 + 1)) 26 (by norm_num) (by norm_num) (by norm_num [abs_of_neg]))
    (sub_dy _ _ _ _ (-1) 26 (by norm_num) (by norm_num) (by norm_num [abs_of_neg])) (by norm_num) rfl
    (by norm_num) (by norm_num)

/-- The ray meets the box at distance 1. -/
theorem edge_hit : edgeBox.intersect edgeRay = ⟨.num 1 false⟩ := by
  unfold BBox.intersect BBox.tenTex edgeBox edgeRay
  dsimp only
  rw [slab_x, slab_y, slab_z, lit_zero]
  simp [BBox.max3, BBox.min3, lt_mk]

/-- The ray misses the box in single precision. -/
theorem edge_miss : edgeBox.toF.intersect edgeRay = ⟨.num 0 false⟩ := by
  have h0 : GoFloat.toF32 (⟨.num 0 false⟩ : Flo) = ⟨.num 0 false⟩ := by
    change (⟨roundTo 24 128 _⟩ : Flo) = _
    rw [roundTo_exact 24 128 0 false 0 0 (by norm_num) (by norm_num) (by norm_num) (by norm_num)]
  have h1 : GoFloat.toF32 (⟨.num 1 false⟩ : Flo) = ⟨.num 1 false⟩ := by
    change (⟨roundTo 24 128 _⟩ : Flo) = _
    rw [roundTo_exact 24 128 1 false 1 0 (by norm_num) (by norm_num) (by norm_num) (by norm_num)]
  have : edgeBox.toF = ⟨⟨⟨.num 0 false⟩, ⟨.num 0 false⟩, ⟨.num 0 false⟩⟩, ⟨⟨.num 1 false⟩, ⟨.num 1 false⟩, ⟨.num 1 false⟩⟩⟩ := by
    unfold BBox.toF edgeBox
    dsimp only
    rw [h0, h1, f32_edge]
  rw [this]
  unfold BBox.intersect BBox.tenTex edgeRay
  dsimp only
  rw [slab_x32, slab_y, slab_z, lit_zero]
  simp [BBox.max3, BBox.min3, lt_mk]

private theorem edge_normal : ∃ n, edgeBox.normal (edgeRay.at ⟨.num 1 false⟩) = .ok n := by
  have hy : (edgeRay.at ⟨.num 1 false⟩).y = ⟨.num 0 false⟩ := by
    change (⟨.num (-1) false⟩ : Flo) + ⟨.num 1 false⟩ * ⟨.num 1 false⟩ = _
    rw [mul_mk, Ext.num_mul_num]
    norm_num [Ext.sgn]
    rw [rnd_dy 1 false 1 0 (by norm_num) (by norm_num) (by norm_num), add_mk, Ext.num_add_num]
    norm_num [Ext.sgn]
    rw [rnd_zero]
  have ha : BBox.approx (edgeRay.at ⟨.num 1 false⟩).y edgeBox.min.y = true := by
    rw [hy, BBox.approx]
    change (GoFloat.abs ((⟨.num 0 false⟩ : Flo) - ⟨.num 0 false⟩) <. rnd (lit (1 / 10 ^ 8))) = true
    rw [sub_mk, Ext.num_sub_num]
    norm_num [Ext.sgn]
    rw [rnd_zero]
    change (Ext.num |0| false <. (rnd _).e) = true
    rw [rnd, roundTo]
    have hpos : 0 < roundBits 53 (1 / 100000000) := by
      have h1 := roundBits_mono 53 (by norm_num) (x := 1 / 2 ^ 30) (y := 1 / 100000000) (by norm_num)
      have h2 := roundBits_exact 53 1 (-30) (by norm_num) (by norm_num)
      norm_num [zpow_neg] at h1 h2 ⊢
      rw [h2] at h1
      exact lt_of_lt_of_le (by norm_num) h1
    norm_num at hpos
    split_ifs <;> norm_num [hpos]
  unfold BBox.normal
  rw [ha]
  split_ifs <;> first | exact ⟨_, rfl⟩ | (exfalso; simp_all)

/-- The box of a tree holding only the edge box, before conversion. -/
theorem edge_bounds : makeBoundingBox [(.box edgeBox none : Obj Flo Unit)] = .ok edgeBox := by
    rw [makeBoundingBox, List.mapM_cons, Obj.bounds, ok_bind, List.mapM_nil, pure_ok, ok_bind, pure_ok, ok_bind]
    have c1 : checkNaNVec edgeBox.min = .ok () := rfl
    have c2 : checkNaNVec edgeBox.max = .ok () := rfl
    have s1 : BBox.hullStep ⟨edgeBox.min, edgeBox.min⟩ edgeBox.min = .ok ⟨edgeBox.min, edgeBox.min⟩ := by
      rw [BBox.hullStep, c1, ok_bind]
      simp [BBox.lower, BBox.upper, pure_ok]
    have s2 : BBox.hullStep ⟨edgeBox.min, edgeBox.min⟩ edgeBox.max = .ok edgeBox := by
      rw [BBox.hullStep, c2, ok_bind]
      norm_num [BBox.lower, BBox.upper, pure_ok, lt_mk, edgeBox]
    simp only [List.flatMap_cons, List.flatMap_nil, List.append_nil, BBox.fromHull, List.foldlM_cons,
      List.foldlM_nil]
    rw [s1, ok_bind, s2, ok_bind, pure_ok, ok_bind, c1, ok_bind, c2]
    rfl

end Flo

open Flo in
/-- **C23, violated with a visible effect.** A ray that hits an object is reported as missing the tree
that contains only that object. -/
theorem C23_violated_missed (S : Sorter (Obj Flo Unit)) :
    ∃ (o t : Obj Flo Unit) (l : List (Obj Flo Unit)) (h h' : HitRecord Flo Unit) (r : Ray Flo),
      mkTree S [o] = .ok (t, l) ∧ o.intersect r = .ok (h, r) ∧ (lit 0 <. h.t) = true ∧
      t.intersect r = .ok (h', r) ∧ (lit 0 <. h'.t) = false := by
  obtain ⟨n, hn⟩ := edge_normal
  have hbb := edge_bounds
  refine ⟨.box edgeBox none, .tree (.leaf edgeBox.toF [.box edgeBox none]), [.box edgeBox none],
    ⟨⟨.num 1 false⟩, n, (edgeRay.at ⟨.num 1 false⟩).sub edgeBox.min, none⟩, HitRecord.miss, edgeRay, ?_, ?_, ?_, ?_, ?_⟩
  · rw [mkTree, buildTree, if_pos (by simp [maxFacePerLeaf]), hbb]; rfl
  · rw [Obj.intersect, BBox.hit]
    dsimp only
    rw [edge_hit, hn, lit_zero, lt_mk, Ext.lt_num]
    simp only [zero_lt_one, decide_true, Bool.not_true, Bool.false_eq_true, if_false, ok_bind]; rfl
  · rw [lit_zero, lt_mk, Ext.lt_num]; simp
  · rw [Obj.intersect, Node.bb, edge_miss, lit_zero, le_mk, Ext.le_num]
    simp
  · rw [HitRecord.miss, lit_zero, lt_mk, Ext.lt_num]; simp

open Flo in
/-- In double precision conversion to single precision is monotone, and the tree of the box above is built: the hypotheses
of `C23_rounded_partial` are met, and its box holds the corner `(1 + 2⁻²⁵, 1, 1)` rounded, which is `(1, 1, 1)`. -/
example (S : Sorter (Obj Flo Unit)) : ∃ n l, buildTree S [.box edgeBox none] = .ok (n, l) ∧
    ∀ x ∈ n.boxes, ∀ o ∈ x.2, ∃ b, o.bounds = .ok b ∧ x.1.Contains b.toF.min ∧ x.1.Contains b.toF.max := by
  have h : buildTree S [.box edgeBox none] = .ok (.leaf edgeBox.toF [.box edgeBox none], [.box edgeBox none]) := by
    rw [buildTree, if_pos (by simp [maxFacePerLeaf]), edge_bounds]; rfl
  exact ⟨_, _, h, fun x hx o ho => C23_rounded_partial Flo.toF32_mono S _ _ _ h x hx o ho⟩

end BR
