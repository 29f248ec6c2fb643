import Verif.Lemmas.Near
import Verif.Model.Construct

/-! Rounding errors in the intersection of a ray with a ball. -/

namespace BR

namespace Ball

/-- The coefficient of `t²` in the squared distance from the centre along a ray. -/
noncomputable def quadA (d : Vec ℝ) : ℝ := d.x * d.x + d.y * d.y + d.z * d.z

/-- The coefficient of `t`. -/
noncomputable def quadB (s d c : Vec ℝ) : ℝ := 2 * (d.x * (s.x - c.x) + d.y * (s.y - c.y) + d.z * (s.z - c.z))

/-- The constant coefficient, less the squared radius. -/
noncomputable def quadC (s c : Vec ℝ) (R : ℝ) : ℝ :=
  (s.x - c.x) * (s.x - c.x) + (s.y - c.y) * (s.y - c.y) + (s.z - c.z) * (s.z - c.z) - R * R

theorem flo_two : (lit 2 : Flo).Is 2 := (Flo.lit_is 2 2 0 (by norm_num) (by norm_num) (by norm_num) (by norm_num)).of_eq (by norm_num)

theorem flo_four : (lit 4 : Flo).Is 4 := (Flo.lit_is 4 4 0 (by norm_num) (by norm_num) (by norm_num) (by norm_num)).of_eq (by norm_num)

theorem flo_zero : (lit 0 : Flo).Is 0 := (Flo.lit_is 0 0 0 (by norm_num) (by norm_num) (by norm_num) (by norm_num)).of_eq (by norm_num)

variable {M : Type}

theorem comp_le {x y z : ℝ} (h : x * x + y * y + z * z ≤ 2) : |x| ≤ 3 / 2 := by
  rw [abs_le]
  constructor <;> nlinarith [mul_self_nonneg y, mul_self_nonneg z]

theorem coeffA {m : Option M} {diam : Flo} {center : Vec Flo} {r : Ray Flo} {d : Vec ℝ} (hd : r.dir.FIs d) (hA : quadA d ≤ 2) :
    ((Obj.sphereQ m diam center).coeffs r).1.Near (quadA d) (25 / 2 ^ 53) 2 := by
  unfold quadA at hA
  have one := flo_lit_one.near (b := 1) (by norm_num)
  have sq : ∀ {a : Flo} {x : ℝ}, a.Is x → |x| ≤ 3 / 2 → (lit 1 * a * a).Near (1 * x * x) ((4.5 + 1 / 1000) / 2 ^ 53) (9 / 4) := by
    intro a x ha hx
    exact ((one.mul ((1.5 + 1 / 10000) / 2 ^ 53) (3 / 2) (ha.near hx)).mul _ _ (ha.near hx))
  have h1 := sq hd.1 (comp_le hA)
  have h2 := sq hd.2.1 (comp_le (by linarith : d.y * d.y + d.x * d.x + d.z * d.z ≤ 2))
  have h3 := sq hd.2.2 (comp_le (by linarith : d.z * d.z + d.x * d.x + d.y * d.y ≤ 2))
  have h := ((h1.add ((13.5 + 1 / 100) / 2 ^ 53) (9 / 2) h2).add (25 / 2 ^ 53) 8 h3)
  have e : 1 * d.x * d.x + 1 * d.y * d.y + 1 * d.z * d.z = quadA d := by unfold quadA; ring
  rw [e] at h
  refine h.bound ?_
  rw [abs_of_nonneg (by unfold quadA; nlinarith [mul_self_nonneg d.x, mul_self_nonneg d.y, mul_self_nonneg d.z])]
  exact hA

theorem dot_sq_le (a b : Vec ℝ) : (a.x * b.x + a.y * b.y + a.z * b.z) ^ 2 ≤
    (a.x * a.x + a.y * a.y + a.z * a.z) * (b.x * b.x + b.y * b.y + b.z * b.z) := by
  nlinarith [sq_nonneg (a.x * b.y - a.y * b.x), sq_nonneg (a.x * b.z - a.z * b.x), sq_nonneg (a.y * b.z - a.z * b.y)]

theorem coeffB {m : Option M} {diam : Flo} {center : Vec Flo} {r : Ray Flo} {s d c : Vec ℝ} (hs : r.start.FIs s)
    (hd : r.dir.FIs d) (hc : center.FIs c) (hA : quadA d ≤ 2)
    (hsx : |s.x - c.x| ≤ 128) (hsy : |s.y - c.y| ≤ 128) (hsz : |s.z - c.z| ≤ 128) :
    ((Obj.sphereQ m diam center).coeffs r).2.1.Near (quadB s d c) (1 / 2 ^ 40) 640 := by
  unfold quadA at hA
  have one := flo_lit_one.near (b := 1) (by norm_num)
  have term : ∀ {a b e : Flo} {x y z : ℝ}, a.Is x → b.Is y → e.Is z → |x| ≤ 3 / 2 → |y - z| ≤ 128 →
      (lit 1 * a * (b - e)).Near (1 * x * (y - z)) ((576 + 1 / 10) / 2 ^ 53) 192 := by
    intro a b e x y z ha hb he hx hy
    exact ((one.mul ((1.5 + 1 / 10000) / 2 ^ 53) (3 / 2) (ha.near hx)).mul _ _
      (hb.sub_near ((128 + 1 / 10000) / 2 ^ 53) 128 he hy))
  have h1 := term hd.1 hs.1 hc.1 (comp_le hA) hsx
  have h2 := term hd.2.1 hs.2.1 hc.2.1 (comp_le (by linarith : d.y * d.y + d.x * d.x + d.z * d.z ≤ 2)) hsy
  have h3 := term hd.2.2 hs.2.2 hc.2.2 (comp_le (by linarith : d.z * d.z + d.x * d.x + d.y * d.y ≤ 2)) hsz
  have h := (flo_two.near (b := 2) (by norm_num)).mul (1 / 2 ^ 40) 1152
    ((h1.add (1537 / 2 ^ 53) 384 h2).add (2690 / 2 ^ 53) 576 h3)
  have e : 2 * (1 * d.x * (s.x - c.x) + 1 * d.y * (s.y - c.y) + 1 * d.z * (s.z - c.z)) = quadB s d c := by
    unfold quadB; ring
  rw [e] at h
  refine h.bound (abs_le_of_sq_le_sq ?_ (by norm_num))
  have h1 := dot_sq_le d (s.sub c)
  simp only [Vec.sub] at h1
  have sx := sq_le_sq' (abs_le.1 hsx).1 (abs_le.1 hsx).2
  have sy := sq_le_sq' (abs_le.1 hsy).1 (abs_le.1 hsy).2
  have sz := sq_le_sq' (abs_le.1 hsz).1 (abs_le.1 hsz).2
  have h2 : (d.x * d.x + d.y * d.y + d.z * d.z) *
      ((s.x - c.x) * (s.x - c.x) + (s.y - c.y) * (s.y - c.y) + (s.z - c.z) * (s.z - c.z)) ≤ 2 * (3 * 128 ^ 2) :=
    mul_le_mul hA (by nlinarith) (by nlinarith [mul_self_nonneg (s.x - c.x), mul_self_nonneg (s.y - c.y), mul_self_nonneg (s.z - c.z)])
      (by norm_num)
  unfold quadB
  nlinarith

theorem radius_near {diam : Flo} {R : ℝ} (h : diam.Is (2 * R)) (h0 : 0 ≤ R) (h1 : R ≤ 64) :
    (diam / lit 2).Near R (65 / 2 ^ 53) 64 := by
  have h2 : |2 * R| ≤ 128 := by rw [abs_of_nonneg (by linarith)]; linarith
  have := (h.near h2).div 2 (65 / 2 ^ 53) 64 (flo_two.near (b := 2) (by norm_num)) (by norm_num)
  rwa [mul_div_cancel_left₀ _ (by norm_num : (2 : ℝ) ≠ 0)] at this

theorem coeffC {m : Option M} {diam : Flo} {center : Vec Flo} {r : Ray Flo} {s c : Vec ℝ} {R : ℝ} (hs : r.start.FIs s)
    (hc : center.FIs c) (hr : diam.Is (2 * R)) (h0 : 0 ≤ R) (h1 : R ≤ 64)
    (hsx : |s.x - c.x| ≤ 128) (hsy : |s.y - c.y| ≤ 128) (hsz : |s.z - c.z| ≤ 128) :
    ((Obj.sphereQ m diam center).coeffs r).2.2.Near (quadC s c R) (345000 / 2 ^ 53) 49152 := by
  have one := flo_lit_one.near (b := 1) (by norm_num)
  have term : ∀ {b e : Flo} {y z : ℝ}, b.Is y → e.Is z → |y - z| ≤ 128 →
      (lit 1 * (b - e) * (b - e)).Near (1 * (y - z) * (y - z)) (65540 / 2 ^ 53) 16384 := by
    intro b e y z hb he hy
    have h := hb.sub_near ((128 + 1 / 10000) / 2 ^ 53) 128 he hy
    exact ((one.mul ((256 + 1 / 1000) / 2 ^ 53) 128 h).mul _ _ h)
  have t1 := term hs.1 hc.1 hsx
  have t2 := term hs.2.1 hc.2.1 hsy
  have t3 := term hs.2.2 hc.2.2 hsz
  have hrad := radius_near hr h0 h1
  have h := ((t1.add (163900 / 2 ^ 53) 32768 t2).add (278650 / 2 ^ 53) 49152 t3).sub (345000 / 2 ^ 53) (49152 + 4096)
    (hrad.mul (12500 / 2 ^ 53) 4096 hrad)
  have e : 1 * (s.x - c.x) * (s.x - c.x) + 1 * (s.y - c.y) * (s.y - c.y) + 1 * (s.z - c.z) * (s.z - c.z) - R * R =
      quadC s c R := by unfold quadC; ring
  rw [e] at h
  refine h.bound (abs_le.2 ?_)
  have sx := sq_le_sq' (abs_le.1 hsx).1 (abs_le.1 hsx).2
  have sy := sq_le_sq' (abs_le.1 hsy).1 (abs_le.1 hsy).2
  have sz := sq_le_sq' (abs_le.1 hsz).1 (abs_le.1 hsz).2
  unfold quadC
  constructor <;> nlinarith [mul_self_nonneg (s.x - c.x), mul_self_nonneg (s.y - c.y), mul_self_nonneg (s.z - c.z)]

/-- The discriminant. -/
noncomputable def quadD (s d c : Vec ℝ) (R : ℝ) : ℝ := quadB s d c * quadB s d c - 4 * quadA d * quadC s c R

theorem disc_near {A B C : Flo} {a b c : ℝ} (hA : A.Near a (25 / 2 ^ 53) 2) (hB : B.Near b (1 / 2 ^ 40) 640)
    (hC : C.Near c (345000 / 2 ^ 53) 49152) : (B * B - lit 4 * A * C).Near (b * b - 4 * a * c) (1 / 2 ^ 28) 802816 := by
  have h1 := hB.mul (1.3 / 2 ^ 30) 409600 hB
  have h2 := ((flo_four.near (b := 4) (by norm_num)).mul (109 / 2 ^ 53) 8 hA).mul (1.1 / 2 ^ 30) 393216 hC
  exact h1.sub _ _ h2

/-- The computed root `T` of the quadratic, before the square root `w`, with its sign, is looked at. -/
theorem root_form {A B α β N T w : ℝ} (hA1 : 1 / 2 ≤ A) (hA2 : A ≤ 2) (hα : |α - 2 * A| ≤ 55 / 2 ^ 53)
    (hβ : |β - B| ≤ 1 / 2 ^ 40) (hN : |N - (-β + w)| ≤ 1 / 2 ^ 43) (hT : |T - N / α| ≤ 1 / 2 ^ 43) (hT' : |T| ≤ 840) :
    |2 * A * T + B - w| ≤ 1 / 2 ^ 37 := by
  have hα' := abs_le.1 hα
  have hαp : 0 < α := by norm_num at hα'; linarith
  have hα5 : α ≤ 5 := by norm_num at hα'; linarith
  have e1 : |(2 * A - α) * T| ≤ 55 / 2 ^ 53 * 840 := by
    rw [abs_mul, abs_sub_comm]
    exact mul_le_mul hα hT' (abs_nonneg _) (by norm_num)
  have e2 : |α * T - N| ≤ 5 * (1 / 2 ^ 43) := by
    rw [show α * T - N = α * (T - N / α) by field_simp, abs_mul, abs_of_pos hαp]
    exact mul_le_mul hα5 hT (abs_nonneg _) (by norm_num)
  rw [show 2 * A * T + B - w = (2 * A - α) * T + (α * T - N) + (N - (-β + w)) - (β - B) by ring]
  rw [abs_le] at *
  norm_num at *
  constructor <;> linarith

/-- The computed root `T` of the quadratic nearly solves it. -/
theorem residual {A B C T w δ : ℝ} (hA1 : 1 / 2 ≤ A) (hroot : |2 * A * T + B - w| ≤ 1 / 2 ^ 37)
    (hw : |w| ≤ 182) (hδ : |w * w - δ| ≤ 1 / 2 ^ 36) (hD : |δ - (B * B - 4 * A * C)| ≤ 1 / 2 ^ 28) :
    |A * T * T + B * T + C| ≤ 1 / 2 ^ 28 := by
  obtain ⟨e, he⟩ : ∃ e, 2 * A * T + B = w + e := ⟨2 * A * T + B - w, by ring⟩
  have he' : |e| ≤ 1 / 2 ^ 37 := by rwa [he, add_sub_cancel_left] at hroot
  have h4 : 4 * A * (A * T * T + B * T + C) = (w * w - δ) + (δ - (B * B - 4 * A * C)) + (2 * w * e + e * e) := by
    have : (2 * A * T + B) * (2 * A * T + B) = (w + e) * (w + e) := by rw [he]
    linarith
  have h5 : |2 * w * e + e * e| ≤ 2 * 182 * (1 / 2 ^ 37) + 1 / 2 ^ 37 * (1 / 2 ^ 37) := by
    refine (abs_add_le _ _).trans ?_
    rw [abs_mul, abs_mul, abs_mul, abs_of_pos (by norm_num : (0 : ℝ) < 2)]
    exact add_le_add (mul_le_mul (by linarith) he' (abs_nonneg _) (by norm_num)) (mul_le_mul he' he' (abs_nonneg _) (by norm_num))
  have h6 : |4 * A * (A * T * T + B * T + C)| ≤ 2 * (1 / 2 ^ 28) := by
    rw [h4]
    refine (abs_add_three _ _ _).trans ?_
    norm_num at *
    linarith
  rw [abs_mul, abs_of_pos (by linarith : 0 < 4 * A)] at h6
  have h7 : 2 * |A * T * T + B * T + C| ≤ 4 * A * |A * T * T + B * T + C| :=
    mul_le_mul_of_nonneg_right (by linarith) (abs_nonneg _)
  linarith

/-- The computed square root of the discriminant. -/
theorem root_is {D : Flo} {δ : ℝ} (hD : D.Is δ) (h0 : 0 ≤ δ) (h1 : δ ≤ 32769) : ∃ v, (GoFloat.sqrt D).Is v ∧ 0 ≤ v ∧
    v ≤ 182 ∧ |v - Real.sqrt δ| ≤ 1 / 2 ^ 45 ∧ |v * v - δ| ≤ 1 / 2 ^ 36 := by
  have hs0 := Real.sqrt_nonneg δ
  have hs1 : Real.sqrt δ ≤ 181.1 := by
    rw [Real.sqrt_le_left (by norm_num)]
    exact h1.trans (by norm_num)
  have he : |roundBits 53 (Real.sqrt δ) - Real.sqrt δ| ≤ 1 / 2 ^ 45 :=
    err_le (roundBits_err 53 (by norm_num) _) (B := 182) (by rw [abs_of_nonneg hs0]; linarith) (by norm_num)
  have hv := roundBits_nonneg 53 (by norm_num) hs0
  refine ⟨_, Flo.sqrt_is hD h0 (h1.trans (by norm_num)), hv, ?_, he, ?_⟩
  · have := (abs_le.1 he).2
    norm_num at this hs1
    linarith
  · have hsq := Real.mul_self_sqrt h0
    have hle : roundBits 53 (Real.sqrt δ) ≤ 182 := by
      have := (abs_le.1 he).2
      norm_num at this hs1
      linarith
    have : roundBits 53 (Real.sqrt δ) * roundBits 53 (Real.sqrt δ) - δ =
        (roundBits 53 (Real.sqrt δ) - Real.sqrt δ) * (roundBits 53 (Real.sqrt δ) + Real.sqrt δ) := by
      linear_combination hsq
    rw [this, abs_mul]
    have h3 : |roundBits 53 (Real.sqrt δ) + Real.sqrt δ| ≤ 364 := by
      rw [abs_of_nonneg (by linarith)]
      linarith
    exact (mul_le_mul he h3 (abs_nonneg _) (by norm_num)).trans (by norm_num)

/-- One of the two roots; `w` is the square root or its opposite. -/
theorem root_near {A B : Flo} {a b w : ℝ} (ha1 : 1 / 2 ≤ a) (hA : A.Near a (25 / 2 ^ 53) 2)
    (hB : B.Near b (1 / 2 ^ 40) 640) {N : Flo} (hW : |w| ≤ 182)
    (hN : ∀ β, B.Is β → |-β + w| ≤ 2 ^ 200 → N.Is (roundBits 53 (-β + w))) :
    ∃ T, (N / (lit 2 * A)).Is T ∧ |T| ≤ 840 ∧ |2 * a * T + b - w| ≤ 1 / 2 ^ 37 := by
  obtain ⟨⟨β, hβ, hβe⟩, hb⟩ := hB
  have h2 := (flo_two.near (b := 2) (by norm_num)).mul (55 / 2 ^ 53) 4 hA
  obtain ⟨⟨α, hα, hαe⟩, ha2⟩ := h2
  have hx : |-β + w| ≤ 823 := by
    rw [abs_le] at *
    norm_num at *
    constructor <;> linarith
  have hN := hN β hβ (hx.trans (by norm_num))
  have eN : |roundBits 53 (-β + w) - (-β + w)| ≤ 1 / 2 ^ 43 :=
    err_le (roundBits_err 53 (by norm_num) _) hx (by norm_num)
  generalize roundBits 53 (-β + w) = n at hN eN
  have hn : |n| ≤ 824 := by
    rw [abs_le] at *
    norm_num at *
    constructor <;> linarith
  have hα1 : 0.99 ≤ α := by
    rw [abs_le] at hαe
    norm_num at *
    linarith
  have hq : |n / α| ≤ 835 := by
    rw [abs_div, abs_of_pos (by linarith : 0 < α), div_le_iff₀ (by linarith)]
    refine hn.trans ?_
    nlinarith
  have eT : |roundBits 53 (n / α) - n / α| ≤ 1 / 2 ^ 43 :=
    err_le (roundBits_err 53 (by norm_num) _) hq (by norm_num)
  have hT : |roundBits 53 (n / α)| ≤ 840 := by
    have := abs_sub_abs_le_abs_sub (roundBits 53 (n / α)) (n / α)
    norm_num at *
    linarith
  refine ⟨_, Flo.div_is hN hα (by linarith) (hq.trans (by norm_num)), hT, ?_⟩
  refine root_form ha1 ?_ hαe hβe eN eT hT
  have := le_abs_self (2 * a)
  linarith

/-- A ray, with start `s` and direction `d`, near a ball of radius `R` around `c`: all finite, and of moderate size. -/
structure Sized (diam : Flo) (center : Vec Flo) (r : Ray Flo) (s d c : Vec ℝ) (R : ℝ) : Prop where
  start : r.start.FIs s
  dir : r.dir.FIs d
  center : center.FIs c
  diam : diam.Is (2 * R)
  nonneg : 0 ≤ R
  small : R ≤ 64
  long : 1 / 2 ≤ quadA d
  short : quadA d ≤ 2
  farx : |s.x - c.x| ≤ 128
  fary : |s.y - c.y| ≤ 128
  farz : |s.z - c.z| ≤ 128

theorem disc_le {s d c : Vec ℝ} {R : ℝ} (hR : 0 ≤ R) (hR' : R ≤ 64) (hd : quadA d ≤ 2) :
    quadB s d c * quadB s d c - 4 * quadA d * quadC s c R ≤ 32768 := by
  have h := dot_sq_le d (s.sub c)
  simp only [Vec.sub] at h
  have h2 : quadA d * (R * R) ≤ 2 * (64 * 64) :=
    mul_le_mul hd (mul_le_mul hR' hR' hR (by norm_num)) (by positivity) (by norm_num)
  unfold quadB quadC at *
  unfold quadA at *
  nlinarith

/-- What the intersection routine does, with all rounding errors. -/
theorem hit_form {m : Option M} {diam : Flo} {center : Vec Flo} {r : Ray Flo} {s d c : Vec ℝ} {R : ℝ}
    (h : Sized diam center r s d c R) :
    ∃ β γ δ, |β - quadB s d c| ≤ 1 / 2 ^ 40 ∧ |γ - quadC s c R| ≤ 1 / 2 ^ 34 ∧
      |δ - (quadB s d c * quadB s d c - 4 * quadA d * quadC s c R)| ≤ 1 / 2 ^ 28 ∧
      (δ < 0 → (Obj.sphereQ m diam center).hit r = HitRecord.miss) ∧
      (0 ≤ δ → ∃ t1 t2 T1 T2 v, t1.Is T1 ∧ t2.Is T2 ∧ 0 ≤ v ∧ v ≤ 182 ∧ |v - Real.sqrt δ| ≤ 1 / 2 ^ 45 ∧
        |v * v - δ| ≤ 1 / 2 ^ 36 ∧ |T1| ≤ 840 ∧ |T2| ≤ 840 ∧ |2 * quadA d * T1 + quadB s d c - -v| ≤ 1 / 2 ^ 37 ∧
        |2 * quadA d * T2 + quadB s d c - v| ≤ 1 / 2 ^ 37 ∧
        (Obj.sphereQ m diam center).hit r =
          let q := Obj.sphereQ m diam center
          let u := if T2 < T1 then (t2, t1) else (t1, t2)
          if q.accept r u.1 then q.record r u.1 else if q.accept r u.2 then q.record r u.2 else HitRecord.miss) := by
  have hA := coeffA (m := m) (diam := diam) (center := center) h.dir h.short
  have hB := coeffB (m := m) (diam := diam) h.start h.dir h.center h.short h.farx h.fary h.farz
  have hC := coeffC (m := m) h.start h.center h.diam h.nonneg h.small h.farx h.fary h.farz
  have hDn := disc_near hA hB hC
  obtain ⟨⟨δ, hδ, hδe⟩, -⟩ := hDn
  obtain ⟨β, hβ, hβe⟩ := hB.1
  obtain ⟨γ, hγ, hγe⟩ := hC.1
  refine ⟨β, γ, δ, hβe, hγe.trans (by norm_num), hδe.trans (by norm_num), ?_, ?_⟩
  · intro hneg
    unfold Quadric.hit
    dsimp only
    rw [Flo.lt_is hδ flo_zero, if_pos (by simpa using hneg)]
  · intro hpos
    have hD2 : δ ≤ 32769 := by
      have := disc_le (s := s) (c := c) h.nonneg h.small h.short
      rw [abs_le] at hδe
      norm_num at *
      linarith
    obtain ⟨v, hv, hv0, hv1, hve, hvv⟩ := root_is hδ hpos hD2
    have nB : ∀ {β : ℝ}, ((Obj.sphereQ m diam center).coeffs r).2.1.Is β → (-((Obj.sphereQ m diam center).coeffs r).2.1).Is (-β) := by
      intro β hβ
      obtain ⟨⟨x, hx, hx'⟩, -⟩ := (hβ.near (b := |β|) le_rfl).neg
      have : x = -β := by rw [← sub_eq_zero, ← abs_nonpos_iff]; exact hx'
      exact this ▸ hx
    obtain ⟨T1, hT1, b1, f1⟩ := root_near (w := -v) h.long hA hB
      (N := -((Obj.sphereQ m diam center).coeffs r).2.1 - GoFloat.sqrt (((Obj.sphereQ m diam center).coeffs r).2.1 *
        ((Obj.sphereQ m diam center).coeffs r).2.1 - lit 4 * ((Obj.sphereQ m diam center).coeffs r).1 *
        ((Obj.sphereQ m diam center).coeffs r).2.2)) (by rw [abs_neg, abs_of_nonneg hv0]; exact hv1)
      (fun β hβ hb => Flo.sub_is (nB hβ) hv hb)
    obtain ⟨T2, hT2, b2, f2⟩ := root_near (w := v) h.long hA hB
      (N := -((Obj.sphereQ m diam center).coeffs r).2.1 + GoFloat.sqrt (((Obj.sphereQ m diam center).coeffs r).2.1 *
        ((Obj.sphereQ m diam center).coeffs r).2.1 - lit 4 * ((Obj.sphereQ m diam center).coeffs r).1 *
        ((Obj.sphereQ m diam center).coeffs r).2.2)) (by rw [abs_of_nonneg hv0]; exact hv1)
      (fun β hβ hb => Flo.add_is (nB hβ) hv hb)
    refine ⟨_, _, T1, T2, v, hT1, hT2, hv0, hv1, hve, hvv, b1, b2, f1, f2, ?_⟩
    unfold Quadric.hit
    dsimp only
    rw [Flo.lt_is hδ flo_zero, if_neg (by simpa using hpos), Flo.lt_is hT2 hT1]
    by_cases hlt : T2 < T1
    · simp only [hlt, decide_true, if_true]
    · simp only [hlt, decide_false, if_false, Bool.false_eq_true]

/-- The squared distance from the centre along the ray, less the squared radius. -/
noncomputable def excess (s d c : Vec ℝ) (R T : ℝ) : ℝ := quadA d * T * T + quadB s d c * T + quadC s c R

theorem excess_eq (s d c : Vec ℝ) (R T : ℝ) : excess s d c R T =
    ((s.x + T * d.x - c.x) ^ 2 + (s.y + T * d.y - c.y) ^ 2 + (s.z + T * d.z - c.z) ^ 2) - R ^ 2 := by
  unfold excess quadA quadB quadC; ring

theorem accept_pos {q : Quadric Flo M} {r : Ray Flo} {t : Flo} {T : ℝ} (ht : t.Is T) (h : q.accept r t = true) : 0 < T := by
  unfold Quadric.accept at h
  rw [Bool.and_eq_true] at h
  have := h.1
  rw [show (t >. lit 0) = (lit 0 <. t) from rfl, Flo.lt_is flo_zero ht] at this
  simpa using this

/-- Soundness: what is reported is nearly on the ball, and in front. -/
theorem hit_sound {m : Option M} {diam : Flo} {center : Vec Flo} {r : Ray Flo} {s d c : Vec ℝ} {R : ℝ}
    (h : Sized diam center r s d c R) :
    (Obj.sphereQ m diam center).hit r = HitRecord.miss ∨
      ∃ t T, t.Is T ∧ 0 < T ∧ T ≤ 840 ∧ |excess s d c R T| ≤ 1 / 2 ^ 28 ∧
        (Obj.sphereQ m diam center).hit r = (Obj.sphereQ m diam center).record r t := by
  obtain ⟨β, γ, δ, hβ, hγ, hδ, hneg, hpos⟩ := hit_form (m := m) h
  rcases lt_or_ge δ 0 with hd | hd
  · exact .inl (hneg hd)
  · obtain ⟨t1, t2, T1, T2, v, hT1, hT2, hv0, hv1, -, hvv, b1, b2, f1, f2, e⟩ := hpos hd
    have r1 : |excess s d c R T1| ≤ 1 / 2 ^ 28 :=
      residual h.long f1 (by rwa [abs_neg, abs_of_nonneg hv0]) (by rwa [neg_mul_neg]) hδ
    have r2 : |excess s d c R T2| ≤ 1 / 2 ^ 28 := residual h.long f2 (by rwa [abs_of_nonneg hv0]) hvv hδ
    have key : ∀ {t T}, t.Is T → |T| ≤ 840 → |excess s d c R T| ≤ 1 / 2 ^ 28 → (Obj.sphereQ m diam center).accept r t = true →
        ∃ t' T, t'.Is T ∧ 0 < T ∧ T ≤ 840 ∧ |excess s d c R T| ≤ 1 / 2 ^ 28 ∧
          (Obj.sphereQ m diam center).record r t = (Obj.sphereQ m diam center).record r t' :=
      fun ht hb hx ha => ⟨_, _, ht, accept_pos ht ha, (le_abs_self _).trans hb, hx, rfl⟩
    dsimp only at e
    rw [e]
    by_cases hlt : T2 < T1
    · simp only [hlt, if_true]
      split
      · rename_i ha; exact .inr (key hT2 b2 r2 ha)
      · split
        · rename_i ha; exact .inr (key hT1 b1 r1 ha)
        · exact .inl rfl
    · simp only [hlt, if_false]
      split
      · rename_i ha; exact .inr (key hT1 b1 r1 ha)
      · split
        · rename_i ha; exact .inr (key hT2 b2 r2 ha)
        · exact .inl rfl

theorem tiny_near : (tiny : Flo).Near (1 / (1204 * 1024)) (1 / 2 ^ 53) 1 := by
  have := Flo.lit_near (1 / (1204 * 1024)) (1 / 2 ^ 53) (1 / 1000) (by norm_num) (by norm_num) (by norm_num)
  push_cast at this
  exact this.weaken le_rfl (by norm_num)

/-- One coordinate of the point reported, and of the box around the ball. -/
theorem coord_inside {p t δ rad ce : Flo} {s d c R X : ℝ} (hs : p.Is s) (hs' : |s| ≤ 256) (hd : δ.Is d) (hd' : |d| ≤ 3 / 2)
    (hc : ce.Is c) (hc' : |c| ≤ 256) (hr : rad.Near R (65 / 2 ^ 53) 64) (ht : t.Near X (1 / 2 ^ 23) 841)
    (hin : |s + X * d - c| ≤ R) :
    ((p + t * δ) >. (-rad + ce + -tiny)) = true ∧ ((p + t * δ) <. (rad + ce + tiny)) = true := by
  have hP := (hs.near hs').add (1.9 / 10 ^ 7) 1600 (ht.mul (1.8 / 10 ^ 7) 1300 (hd.near hd'))
  have hlo := ((hr.neg.add (1 / 2 ^ 40) 320 (hc.near hc')).add (1 / 2 ^ 39) 330 tiny_near.neg)
  have hhi := ((hr.add (1 / 2 ^ 40) 320 (hc.near hc')).add (1 / 2 ^ 39) 330 tiny_near)
  obtain ⟨⟨P, iP, eP⟩, -⟩ := hP
  obtain ⟨⟨L, iL, eL⟩, -⟩ := hlo
  obtain ⟨⟨H, iH, eH⟩, -⟩ := hhi
  rw [show ((p + t * δ) >. (-rad + ce + -tiny)) = ((-rad + ce + -tiny) <. (p + t * δ)) from rfl, Flo.lt_is iL iP, Flo.lt_is iP iH]
  rw [abs_le] at *
  norm_num at *
  constructor <;> linarith

theorem accept_of {m : Option M} {diam : Flo} {center : Vec Flo} {r : Ray Flo} {s d c : Vec ℝ} {R : ℝ}
    (h : Sized diam center r s d c R) (hs : |s.x| ≤ 256 ∧ |s.y| ≤ 256 ∧ |s.z| ≤ 256) (hc : |c.x| ≤ 256 ∧ |c.y| ≤ 256 ∧ |c.z| ≤ 256)
    {t : Flo} {T X : ℝ} (ht : t.Is T) (hT : 0 < T) (hX : |T - X| ≤ 1 / 2 ^ 23) (hX' : |X| ≤ 841) (hon : excess s d c R X = 0) :
    (Obj.sphereQ m diam center).accept r t = true := by
  have near : t.Near X (1 / 2 ^ 23) 841 := ⟨⟨T, ht, hX⟩, hX'⟩
  have hr := radius_near h.diam h.nonneg h.small
  rw [excess_eq] at hon
  have hA := h.short
  unfold quadA at hA
  have inx : |s.x + X * d.x - c.x| ≤ R := abs_le_of_sq_le_sq (by nlinarith [sq_nonneg (s.y + X * d.y - c.y), sq_nonneg (s.z + X * d.z - c.z)]) h.nonneg
  have iny : |s.y + X * d.y - c.y| ≤ R := abs_le_of_sq_le_sq (by nlinarith [sq_nonneg (s.x + X * d.x - c.x), sq_nonneg (s.z + X * d.z - c.z)]) h.nonneg
  have inz : |s.z + X * d.z - c.z| ≤ R := abs_le_of_sq_le_sq (by nlinarith [sq_nonneg (s.x + X * d.x - c.x), sq_nonneg (s.y + X * d.y - c.y)]) h.nonneg
  have cx := coord_inside h.start.1 hs.1 h.dir.1 (comp_le hA) h.center.1 hc.1 hr near inx
  have cy := coord_inside h.start.2.1 hs.2.1 h.dir.2.1 (comp_le (by linarith : d.y * d.y + d.x * d.x + d.z * d.z ≤ 2)) h.center.2.1 hc.2.1 hr near iny
  have cz := coord_inside h.start.2.2 hs.2.2 h.dir.2.2 (comp_le (by linarith : d.z * d.z + d.x * d.x + d.y * d.y ≤ 2)) h.center.2.2 hc.2.2 hr near inz
  unfold Quadric.accept
  rw [show (t >. lit 0) = (lit 0 <. t) from rfl, Flo.lt_is flo_zero ht, decide_eq_true hT, Bool.true_and]
  unfold BBox.inside
  simp only [Obj.sphereQ, BBox.translated, BBox.withMargin, Ray.at, Vec.madd, Vec.add]
  rw [cx.1, cx.2, cy.1, cy.2, cz.1, cz.2]
  rfl

theorem quadB_le {s d c : Vec ℝ} (hA : quadA d ≤ 2) (hsx : |s.x - c.x| ≤ 128) (hsy : |s.y - c.y| ≤ 128)
    (hsz : |s.z - c.z| ≤ 128) : |quadB s d c| ≤ 640 := by
  unfold quadA at hA
  refine abs_le_of_sq_le_sq ?_ (by norm_num)
  have h1 := dot_sq_le d (s.sub c)
  simp only [Vec.sub] at h1
  have sx := sq_le_sq' (abs_le.1 hsx).1 (abs_le.1 hsx).2
  have sy := sq_le_sq' (abs_le.1 hsy).1 (abs_le.1 hsy).2
  have sz := sq_le_sq' (abs_le.1 hsz).1 (abs_le.1 hsz).2
  have h2 : (d.x * d.x + d.y * d.y + d.z * d.z) *
      ((s.x - c.x) * (s.x - c.x) + (s.y - c.y) * (s.y - c.y) + (s.z - c.z) * (s.z - c.z)) ≤ 2 * (3 * 128 ^ 2) :=
    mul_le_mul hA (by nlinarith) (by nlinarith [mul_self_nonneg (s.x - c.x), mul_self_nonneg (s.y - c.y), mul_self_nonneg (s.z - c.z)])
      (by norm_num)
  unfold quadB
  nlinarith

/-- The roots of a quadratic with a clearly negative value somewhere ahead and a value clearly different from zero at the
start. -/
theorem roots {A B C T0 : ℝ} (hA1 : 1 / 2 ≤ A) (hA2 : A ≤ 2) (hB : |B| ≤ 640) (hD : B * B - 4 * A * C ≤ 32768) (hT0 : 0 < T0)
    (hneg : A * T0 * T0 + B * T0 + C ≤ -(1 / 2 ^ 8)) (hC : 1 / 2 ^ 8 ≤ |C|) :
    ∃ X1 X2 S, S = Real.sqrt (B * B - 4 * A * C) ∧ 1 / 2 ^ 4 ≤ S ∧ S ≤ 182 ∧ 2 * A * X1 + B = -S ∧ 2 * A * X2 + B = S ∧ |X1| ≤ 841 ∧
      |X2| ≤ 841 ∧ (∀ T, A * T * T + B * T + C = A * (T - X1) * (T - X2)) ∧
      (1 / 2 ^ 19 ≤ X1 ∨ X1 ≤ -(1 / 2 ^ 19) ∧ 1 / 2 ^ 19 ≤ X2) := by
  have hpos : 1 / 2 ^ 7 ≤ B * B - 4 * A * C := by nlinarith [sq_nonneg (2 * A * T0 + B)]
  have hsq := Real.mul_self_sqrt (le_trans (by norm_num) hpos)
  have hS1 : 1 / 2 ^ 4 ≤ Real.sqrt (B * B - 4 * A * C) := Real.le_sqrt_of_sq_le (le_trans (by norm_num) hpos)
  have hS2 : Real.sqrt (B * B - 4 * A * C) ≤ 182 := by
    rw [Real.sqrt_le_left (by norm_num)]
    exact hD.trans (by norm_num)
  generalize hS : Real.sqrt (B * B - 4 * A * C) = S at *
  have hA0 : (2 * A) ≠ 0 := by linarith
  have hBl := abs_le.1 hB
  have e1 : 2 * A * ((-B - S) / (2 * A)) + B = -S := by rw [mul_div_cancel₀ _ hA0]; ring
  have e2 : 2 * A * ((-B + S) / (2 * A)) + B = S := by rw [mul_div_cancel₀ _ hA0]; ring
  have hX1 : |(-B - S) / (2 * A)| ≤ 841 := by
    rw [abs_div, abs_of_pos (by linarith : 0 < 2 * A), div_le_iff₀ (by linarith), abs_le]
    constructor <;> nlinarith
  have hX2 : |(-B + S) / (2 * A)| ≤ 841 := by
    rw [abs_div, abs_of_pos (by linarith : 0 < 2 * A), div_le_iff₀ (by linarith), abs_le]
    constructor <;> nlinarith
  generalize (-B - S) / (2 * A) = X1 at *
  generalize (-B + S) / (2 * A) = X2 at *
  have hsum : B = -A * (X1 + X2) := by linarith
  have hSS : S = A * (X2 - X1) := by linarith
  have hprod : C = A * (X1 * X2) := by
    have hA' : (4 * A) ≠ 0 := by linarith
    apply mul_left_cancel₀ hA'
    have : S * S = B * B - 4 * A * C := hsq
    rw [hSS, hsum] at this
    linear_combination this
  have fac : ∀ T, A * T * T + B * T + C = A * (T - X1) * (T - X2) := by
    intro T
    rw [hsum, hprod]; ring
  refine ⟨X1, X2, S, rfl, hS1, hS2, e1, e2, hX1, hX2, fac, ?_⟩
  have hlt : X1 < X2 := by
    by_contra hle
    have : A * (X2 - X1) ≤ 0 := mul_nonpos_of_nonneg_of_nonpos (by linarith) (by linarith)
    norm_num at hS1
    linarith
  rw [fac] at hneg
  have hTX : (T0 - X1) * (T0 - X2) < 0 := by
    by_contra hle
    have : 0 ≤ A * ((T0 - X1) * (T0 - X2)) := mul_nonneg (by linarith) (by linarith)
    rw [← mul_assoc] at this
    norm_num at hneg
    linarith
  have hX2T : T0 < X2 := by
    by_contra hle
    have : 0 ≤ (T0 - X1) * (T0 - X2) := mul_nonneg (by linarith) (by linarith)
    linarith
  have hX2p : 0 < X2 := by linarith
  rw [abs_le] at hX1 hX2
  have hP : 1 / 2 ^ 9 ≤ |X1| * X2 := by
    have : |C| = A * (|X1| * X2) := by rw [hprod, abs_mul, abs_mul, abs_of_pos hX2p, abs_of_pos (by linarith : 0 < A)]
    rw [this] at hC
    have h2 : A * (|X1| * X2) ≤ 2 * (|X1| * X2) := mul_le_mul_of_nonneg_right hA2 (by positivity)
    norm_num at *
    linarith
  have hX1a : 1 / 2 ^ 19 ≤ |X1| := by
    have h2 : |X1| * X2 ≤ |X1| * 841 := mul_le_mul_of_nonneg_left hX2.2 (abs_nonneg _)
    norm_num at *
    linarith
  rcases le_or_gt 0 X1 with h0 | h0
  · left; rwa [abs_of_nonneg h0] at hX1a
  · right
    rw [abs_of_neg h0] at *
    refine ⟨by linarith, ?_⟩
    have h2 : -X1 * X2 ≤ 841 * X2 := mul_le_mul_of_nonneg_right (by linarith [hX1.1]) hX2p.le
    norm_num at *
    linarith

/-- Completeness: a ball that the ray passes through is reported, at its nearest point ahead. -/
theorem hit_complete {m : Option M} {diam : Flo} {center : Vec Flo} {r : Ray Flo} {s d c : Vec ℝ} {R : ℝ}
    (h : Sized diam center r s d c R) (hs : |s.x| ≤ 256 ∧ |s.y| ≤ 256 ∧ |s.z| ≤ 256) (hc : |c.x| ≤ 256 ∧ |c.y| ≤ 256 ∧ |c.z| ≤ 256)
    {T0 : ℝ} (hT0 : 0 < T0) (hneg : excess s d c R T0 ≤ -(1 / 2 ^ 8)) (hC : 1 / 2 ^ 8 ≤ |excess s d c R 0|) :
    ∃ t T X, t.Is T ∧ 0 < T ∧ 0 < X ∧ |T - X| ≤ 1 / 2 ^ 23 ∧ excess s d c R X = 0 ∧
      (∀ T', 0 < T' → T' < X → excess s d c R T' ≠ 0) ∧
      (0 < excess s d c R 0 → 2 * quadA d * X + quadB s d c ≤ -(1 / 2 ^ 4)) ∧
      (Obj.sphereQ m diam center).hit r = (Obj.sphereQ m diam center).record r t := by
  have hC' : 1 / 2 ^ 8 ≤ |quadC s c R| := by
    have : excess s d c R 0 = quadC s c R := by unfold excess; ring
    rwa [this] at hC
  obtain ⟨X1, X2, S, hS, hS1, hS2, e1, e2, hX1, hX2, fac, hor⟩ := roots h.long h.short
    (quadB_le h.short h.farx h.fary h.farz) (disc_le h.nonneg h.small h.short) hT0 hneg hC'
  obtain ⟨β, γ, δ, hβ, hγ, hδ, -, hpos⟩ := hit_form (m := m) h
  have hSS : S * S = quadB s d c * quadB s d c - 4 * quadA d * quadC s c R := by
    rw [hS]
    refine Real.mul_self_sqrt ?_
    by_contra hlt
    rw [Real.sqrt_eq_zero_of_nonpos (by linarith)] at hS
    norm_num at *
    linarith
  have hδ0 : 0 ≤ δ := by
    have := mul_self_le_mul_self (by norm_num) hS1
    rw [abs_le] at hδ
    norm_num at *
    linarith
  obtain ⟨t1, t2, T1, T2, v, hT1, hT2, hv0, hv1, hv, hvv, b1, b2, f1, f2, e⟩ := hpos hδ0
  have hvS : |v - S| ≤ 1.1 / 2 ^ 24 := by
    have hs0 := Real.sqrt_nonneg δ
    have hsq := Real.mul_self_sqrt hδ0
    have : (Real.sqrt δ - S) * (Real.sqrt δ + S) = δ - (quadB s d c * quadB s d c - 4 * quadA d * quadC s c R) := by
      rw [← hSS]; linear_combination hsq
    have h2 : |Real.sqrt δ - S| * (1 / 2 ^ 4) ≤ 1 / 2 ^ 28 := by
      rw [← this, abs_mul] at hδ
      refine le_trans (mul_le_mul_of_nonneg_left ?_ (abs_nonneg _)) hδ
      rw [abs_of_nonneg (by norm_num at hS1; linarith)]
      linarith
    have h3 := abs_sub_le v (Real.sqrt δ) S
    norm_num at *
    linarith
  have dist : ∀ {T X w W : ℝ}, |2 * quadA d * T + quadB s d c - w| ≤ 1 / 2 ^ 37 → 2 * quadA d * X + quadB s d c = W →
      |w - W| ≤ 1.1 / 2 ^ 24 → |T - X| ≤ 1 / 2 ^ 23 := by
    intro T X w W h1 h2 h3
    have h4 : |2 * quadA d * (T - X)| ≤ 1 / 2 ^ 37 + 1.1 / 2 ^ 24 := by
      rw [show 2 * quadA d * (T - X) = (2 * quadA d * T + quadB s d c - w) + (w - W) by rw [← h2]; ring]
      exact (abs_add_le _ _).trans (add_le_add h1 h3)
    have hl := h.long
    rw [abs_mul, abs_of_pos (by linarith : 0 < 2 * quadA d)] at h4
    have h5 : 1 * |T - X| ≤ 2 * quadA d * |T - X| := mul_le_mul_of_nonneg_right (by linarith) (abs_nonneg _)
    norm_num at *
    linarith
  have d1 : |T1 - X1| ≤ 1 / 2 ^ 23 := dist f1 e1 (by rwa [show -v - -S = -(v - S) by ring, abs_neg])
  have d2 : |T2 - X2| ≤ 1 / 2 ^ 23 := dist f2 e2 hvS
  have hXX : 1 / 2 ^ 5 ≤ X2 - X1 := by
    have : quadA d * (X2 - X1) = S := by linarith
    have hsh := h.short
    have hl := h.long
    by_contra hlt
    have : quadA d * (X2 - X1) < 2 * (1 / 2 ^ 5) := by
      rcases le_or_gt 0 (X2 - X1) with h0 | h0
      · exact (mul_le_mul_of_nonneg_right hsh h0).trans_lt (by linarith)
      · exact (mul_neg_of_pos_of_neg (by linarith) h0).trans (by norm_num)
    norm_num at *
    linarith
  have hlt : ¬ T2 < T1 := by
    rw [abs_le] at d1 d2
    norm_num at *
    linarith
  dsimp only at e
  simp only [hlt, if_false] at e
  rcases hor with h1 | ⟨h1, h2⟩
  · have hT1p : 0 < T1 := by
      rw [abs_le] at d1
      norm_num at *
      linarith
    have hon : excess s d c R X1 = 0 := by unfold excess; rw [fac]; ring
    refine ⟨t1, T1, X1, hT1, hT1p, lt_of_lt_of_le (by norm_num) h1, d1, hon, ?_, fun _ => by rw [e1]; linarith, ?_⟩
    · intro T' h0 h3
      unfold excess
      rw [fac]
      have hl := h.long
      refine mul_ne_zero (mul_ne_zero (by linarith) (by linarith)) ?_
      norm_num at hXX
      linarith
    · rw [e, if_pos (accept_of h hs hc hT1 hT1p d1 hX1 hon)]
  · have hT2p : 0 < T2 := by
      rw [abs_le] at d2
      norm_num at *
      linarith
    have hT1n : T1 ≤ 0 := by
      rw [abs_le] at d1
      norm_num at *
      linarith
    have hon : excess s d c R X2 = 0 := by unfold excess; rw [fac]; ring
    refine ⟨t2, T2, X2, hT2, hT2p, lt_of_lt_of_le (by norm_num) h2, d2, hon, ?_, fun h0 => ?_, ?_⟩
    · intro T' h0 h3
      unfold excess
      rw [fac]
      have hl := h.long
      refine mul_ne_zero (mul_ne_zero (by linarith) ?_) (by linarith)
      norm_num at h1
      linarith
    · exfalso
      unfold excess at h0
      rw [fac] at h0
      have h3 : 0 < X2 := lt_of_lt_of_le (by norm_num) h2
      have h4 : X1 < 0 := lt_of_le_of_lt h1 (by norm_num)
      have h5 : (0 - X1) * (0 - X2) < 0 := mul_neg_of_pos_of_neg (by linarith) (by linarith)
      have hl := h.long
      have := mul_neg_of_pos_of_neg (by linarith : 0 < quadA d) h5
      rw [← mul_assoc] at this
      linarith
    · have hn : ¬ (Obj.sphereQ m diam center).accept r t1 = true := fun ha => absurd (accept_pos hT1 ha) (by linarith)
      rw [e, if_neg hn, if_pos (accept_of h hs hc hT2 hT2p d2 hX2 hon)]

end Ball

end BR
