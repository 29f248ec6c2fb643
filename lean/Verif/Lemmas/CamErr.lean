import Verif.Lemmas.TurnErr
import Verif.Spec.Room
import Verif.Model.Camera

/-! In double precision: the rays of cameras. -/

namespace BR.Turn
open Bounce

/-- An axis: a unit vector with two coordinates 0. -/
def Axis (a : Vec ℝ) : Prop := a = ⟨1, 0, 0⟩ ∨ a = ⟨0, 1, 0⟩ ∨ a = ⟨0, 0, 1⟩

theorem normalized_axis {v : Vec Flo} {a : Vec ℝ} (h : v.FIs a) (ha : Axis a) : v.normalized.FIs a := by
  have sq : ∀ {p : Flo} {x : ℝ}, p.Is x → (x = 0 ∨ x = 1) → (p * p).Is x := by
    intro p x hp hx
    have := Flo.mul_is hp hp (by rcases hx with rfl | rfl <;> norm_num)
    rcases hx with rfl | rfl
    · rwa [mul_zero, roundBits_zero] at this
    · rwa [mul_one, show roundBits 53 (1 : ℝ) = 1 by have := roundBits_exact 53 1 0 (by norm_num) (by norm_num); simpa using this] at this
  have r1 : roundBits 53 (1 : ℝ) = 1 := by have := roundBits_exact 53 1 0 (by norm_num) (by norm_num); simpa using this
  have add : ∀ {p q : Flo} {x y : ℝ}, p.Is x → q.Is y → (x + y = 0 ∨ x + y = 1) → (p + q).Is (x + y) := by
    intro p q x y hp hq hx
    have := Flo.add_is hp hq (by rcases hx with h | h <;> rw [h] <;> norm_num)
    rcases hx with h | h <;> rw [h] at this ⊢
    · rwa [roundBits_zero] at this
    · rwa [r1] at this
  have c : ∀ i : Fin 1, (a.x = 0 ∨ a.x = 1) ∧ (a.y = 0 ∨ a.y = 1) ∧ (a.z = 0 ∨ a.z = 1) ∧ (a.x + a.y = 0 ∨ a.x + a.y = 1) ∧
      a.x + a.y + a.z = 1 := by
    intro _
    rcases ha with rfl | rfl | rfl <;> norm_num
  obtain ⟨cx, cy, cz, cxy, cxyz⟩ := c 0
  have hs := add (add (sq h.1 cx) (sq h.2.1 cy) cxy) (sq h.2.2 cz) (.inr cxyz)
  rw [cxyz] at hs
  have hq := Flo.sqrt_is hs (by norm_num) (by norm_num)
  rw [Real.sqrt_one, r1] at hq
  have hd := Flo.div_is flo_lit_one hq (by norm_num) (by norm_num)
  rw [div_one, r1] at hd
  have mul : ∀ {p : Flo} {x : ℝ}, p.Is x → (x = 0 ∨ x = 1) →
      (p * (lit 1 / GoFloat.sqrt (v.x * v.x + v.y * v.y + v.z * v.z))).Is x := by
    intro p x hp hx
    have := Flo.mul_is hp hd (by rcases hx with rfl | rfl <;> norm_num)
    rw [mul_one] at this
    rcases hx with rfl | rfl
    · rwa [roundBits_zero] at this
    · rwa [r1] at this
  exact ⟨mul h.1 cx, mul h.2.1 cy, mul h.2.2 cz⟩

/-- The rotation about an axis. -/
noncomputable def rot (u : Vec ℝ) (t : ℝ) : Matrix ℝ :=
  let c := Real.cos t
  let s := Real.sin t
  let c1 := 1 - c
  ⟨⟨c + u.x * u.x * c1, u.y * u.x * c1 + u.z * s, u.z * u.x * c1 - u.y * s⟩,
   ⟨u.x * u.y * c1 - u.z * s, c + u.y * u.y * c1, u.z * u.y * c1 + u.x * s⟩,
   ⟨u.x * u.z * c1 + u.y * s, u.y * u.z * c1 - u.x * s, c + u.z * u.z * c1⟩⟩

theorem rot_orth {u : Vec ℝ} (hu : Axis u) (t : ℝ) : Orth (rot u t) := by
  have h := Real.sin_sq_add_cos_sq t
  rcases hu with rfl | rfl | rfl <;> constructor <;> simp only [rot, ip] <;> ring_nf <;> linarith

theorem rotationMatrix_near {v : Vec Flo} {u : Vec ℝ} (h : v.FIs u) (hu : Axis u) {a : Flo} {t : ℝ} (ha : a.Is t) :
    MNear (Affine.rotationMatrix v a) (rot u t) (40 / 2 ^ 53) := by
  obtain ⟨hx, hy, hz⟩ := normalized_axis h hu
  have bu : Within 1 u := by rcases hu with rfl | rfl | rfl <;> norm_num [Within]
  have nx := hx.near bu.1
  have ny := hy.near bu.2.1
  have nz := hz.near bu.2.2
  have hc := goCos_near ha
  have hs := goSin_near ha
  have h1 := (flo_lit_one.near (b := 1) (by norm_num)).sub (11 / 2 ^ 53) 2 hc
  have or := rot_orth hu t
  have w0 := unit_within or.h00
  have w1 := unit_within or.h11
  have w2 := unit_within or.h22
  have prod : ∀ {p q : Flo} {x y : ℝ}, p.Near x 0 1 → q.Near y 0 1 →
      (p * q * (lit 1 - goCos a)).Near (x * y * (1 - Real.cos t)) (16 / 2 ^ 53) 2 := by
    intro p q x y hp hq
    exact (hp.mul (1.1 / 2 ^ 53) 1 hq).mul (16 / 2 ^ 53) 2 h1
  have cross : ∀ {p : Flo} {x : ℝ}, p.Near x 0 1 → (p * goSin a).Near (x * Real.sin t) (10 / 2 ^ 53) 1 :=
    fun hp => hp.mul (10 / 2 ^ 53) 1 hs
  refine ⟨⟨?_, ?_, ?_⟩, ⟨?_, ?_, ?_⟩, ?_, ?_, ?_⟩
  · exact (hc.add (40 / 2 ^ 53) 3 (prod nx nx)).bound w0.1
  · exact ((prod ny nx).add (40 / 2 ^ 53) 3 (cross nz)).bound w0.2.1
  · exact ((prod nz nx).sub (40 / 2 ^ 53) 3 (cross ny)).bound w0.2.2
  · exact ((prod nx ny).sub (40 / 2 ^ 53) 3 (cross nz)).bound w1.1
  · exact (hc.add (40 / 2 ^ 53) 3 (prod ny ny)).bound w1.2.1
  · exact ((prod nz ny).add (40 / 2 ^ 53) 3 (cross nx)).bound w1.2.2
  · exact ((prod nx nz).add (40 / 2 ^ 53) 3 (cross ny)).bound w2.1
  · exact ((prod ny nz).sub (40 / 2 ^ 53) 3 (cross nx)).bound w2.2.1
  · exact (hc.add (40 / 2 ^ 53) 3 (prod nz nz)).bound w2.2.2

theorem rotate_near {v : Vec Flo} {u : Vec ℝ} (h : v.FIs u) (hu : Axis u) {a : Flo} {t : ℝ} (ha : a.Is t) :
    MNear (Affine.rotate Vec.zero v a).A (rot u t) (64 / 2 ^ 53) := by
  have T : ∀ d : Vec Flo, IsOne (Affine.translate d).A := fun d => isOne_unit
  have h1 := (one_near isOne_unit).1.one_mul (T (Vec.zero.mul (lit (-1)))) (by norm_num)
  have one : ∀ {N : Matrix Flo} {M : Matrix Flo}, IsOne N → IsOne M → IsOne (N.mul M) := by
    intro N M hN hM
    obtain ⟨⟨a1, a2, a3⟩, ⟨b1, b2, b3⟩, c1, c2, c3⟩ := hN
    obtain ⟨⟨p1, p2, p3⟩, ⟨q1, q2, q3⟩, r1, r2, r3⟩ := hM
    have s : ∀ {x1 x2 x3 y1 y2 y3 : Flo} {X1 X2 X3 Y1 Y2 Y3 : ℝ}, x1.Is X1 → x2.Is X2 → x3.Is X3 → y1.Is Y1 → y2.Is Y2 → y3.Is Y3 →
        (∀ r ∈ [X1 * Y1, X2 * Y2, X3 * Y3, X1 * Y1 + X2 * Y2, X1 * Y1 + X2 * Y2 + X3 * Y3], r = 0 ∨ r = 1) →
        (lit 0 + x1 * y1 + x2 * y2 + x3 * y3).Is (X1 * Y1 + X2 * Y2 + X3 * Y3) := by
      intro x1 x2 x3 y1 y2 y3 X1 X2 X3 Y1 Y2 Y3 hx1 hx2 hx3 hy1 hy2 hy3 hr
      have r1 : roundBits 53 (1 : ℝ) = 1 := by have := roundBits_exact 53 1 0 (by norm_num) (by norm_num); simpa using this
      have ex : ∀ {r : ℝ}, (r = 0 ∨ r = 1) → roundBits 53 r = r ∧ |r| ≤ 2 ^ 200 := by
        rintro r (rfl | rfl)
        · exact ⟨roundBits_zero _, by norm_num⟩
        · exact ⟨r1, by norm_num⟩
      simp only [List.forall_mem_cons, List.not_mem_nil, false_implies, implies_true, and_true] at hr
      obtain ⟨e1, e2, e3, e12, e123⟩ := hr
      have m1 := Flo.mul_is hx1 hy1 (ex e1).2
      have m2 := Flo.mul_is hx2 hy2 (ex e2).2
      have m3 := Flo.mul_is hx3 hy3 (ex e3).2
      rw [(ex e1).1] at m1
      rw [(ex e2).1] at m2
      rw [(ex e3).1] at m3
      have s1 := Flo.add_is Ball.flo_zero m1 (by rw [zero_add]; exact (ex e1).2)
      rw [zero_add, (ex e1).1] at s1
      have s2 := Flo.add_is s1 m2 (ex e12).2
      rw [(ex e12).1] at s2
      have s3 := Flo.add_is s2 m3 (ex e123).2
      rwa [(ex e123).1] at s3
    refine ⟨⟨?_, ?_, ?_⟩, ⟨?_, ?_, ?_⟩, ?_, ?_, ?_⟩
    · exact (s p1 p2 p3 a1 b1 c1 (by norm_num)).of_eq (by norm_num)
    · exact (s p1 p2 p3 a2 b2 c2 (by norm_num)).of_eq (by norm_num)
    · exact (s p1 p2 p3 a3 b3 c3 (by norm_num)).of_eq (by norm_num)
    · exact (s q1 q2 q3 a1 b1 c1 (by norm_num)).of_eq (by norm_num)
    · exact (s q1 q2 q3 a2 b2 c2 (by norm_num)).of_eq (by norm_num)
    · exact (s q1 q2 q3 a3 b3 c3 (by norm_num)).of_eq (by norm_num)
    · exact (s r1 r2 r3 a1 b1 c1 (by norm_num)).of_eq (by norm_num)
    · exact (s r1 r2 r3 a2 b2 c2 (by norm_num)).of_eq (by norm_num)
    · exact (s r1 r2 r3 a3 b3 c3 (by norm_num)).of_eq (by norm_num)
  have h2 := (rotationMatrix_near h hu ha).mul_one (one (T (Vec.zero.mul (lit (-1)))) isOne_unit) (by norm_num)
  have h3 := MNear.one_mul (T Vec.zero) h2 (by norm_num)
  refine MNear.weaken ?_ (show (40 : ℝ) / 2 ^ 53 + 8 / 2 ^ 53 + 8 / 2 ^ 53 ≤ 64 / 2 ^ 53 by norm_num)
  exact h3

theorem yawPitchRoll_near {y p r : Flo} {Y P R : ℝ} (hy : y.Is Y) (hp : p.Is P) (hr : r.Is R) :
    ∃ Q, Orth Q ∧ MNear (Affine.yawPitchRoll y p r).A Q (1 / 2 ^ 42) := by
  have ax : (Vec.ex : Vec Flo).FIs ⟨1, 0, 0⟩ := ⟨flo_lit_one, Ball.flo_zero, Ball.flo_zero⟩
  have ay : (Vec.ey : Vec Flo).FIs ⟨0, 1, 0⟩ := ⟨Ball.flo_zero, flo_lit_one, Ball.flo_zero⟩
  have az : (Vec.ez : Vec Flo).FIs ⟨0, 0, 1⟩ := ⟨Ball.flo_zero, Ball.flo_zero, flo_lit_one⟩
  have uy : Axis ⟨0, 1, 0⟩ := .inr (.inl rfl)
  have ux : Axis ⟨1, 0, 0⟩ := .inl rfl
  have uz : Axis ⟨0, 0, 1⟩ := .inr (.inr rfl)
  have h1 := rotate_near ay uy hy
  have h2 := rotate_near ax ux hp
  have h3 := rotate_near az uz hr
  have o1 := rot_orth uy Y
  have o2 := rot_orth ux P
  have o3 := rot_orth uz R
  have h12 := (h1.mul h2 o1 o2 (by norm_num) (by norm_num)).weaken (show _ ≤ (410 : ℝ) / 2 ^ 53 by norm_num)
  have h := (h12.mul h3 (o1.mul o2) o3 (by norm_num) (by norm_num)).weaken (show _ ≤ (1 : ℝ) / 2 ^ 42 by norm_num)
  exact ⟨_, (o1.mul o2).mul o3, h⟩

/-! ## Rays -/

theorem mulVec_is {M : Matrix Flo} {Q : Matrix ℝ} {e : ℝ} (hM : MNear M Q e) (he : e ≤ 1 / 2 ^ 30) {v : Vec Flo} {d : Vec ℝ}
    (hv : v.FIs d) (hd : Within 1.001 d) :
    ∃ w, (M.mulVec v).FIs w ∧ Within (3.01 * e + 12 / 2 ^ 53) (w.sub (Q.mulVec d)) := by
  obtain ⟨⟨a1, a2, a3⟩, ⟨b1, b2, b3⟩, c1, c2, c3⟩ := hM
  have e0 := near_nonneg a1
  have row : ∀ {p q r : Flo} {x y z : ℝ}, p.Near x e 1 → q.Near y e 1 → r.Near z e 1 →
      ∃ w, (p * v.x + q * v.y + r * v.z).Is w ∧ |w - (x * d.x + y * d.y + z * d.z)| ≤ 3.01 * e + 12 / 2 ^ 53 := by
    intro p q r x y z hp hq hr
    have m : ∀ {p q : Flo} {x y : ℝ}, p.Near x e 1 → q.Is y → |y| ≤ 1.001 →
        (p * q).Near (x * y) (1.002 * e + 1.1 / 2 ^ 53) 1.001 := by
      intro p q x y hp hq hy
      refine hp.mul _ _ (hq.near hy) (by norm_num) ?_ ?_ <;> norm_num at he ⊢ <;> linarith
    have h2 := (m hp hv.1 hd.1).add (2.005 * e + 5 / 2 ^ 53) 2.002 (m hq hv.2.1 hd.2.1) (by norm_num) (by norm_num at he ⊢; linarith)
      (by norm_num at he ⊢; linarith)
    have h3 := h2.add (3.01 * e + 12 / 2 ^ 53) 3.003 (m hr hv.2.2 hd.2.2) (by norm_num) (by norm_num at he ⊢; linarith)
      (by norm_num at he ⊢; linarith)
    exact h3.1
  obtain ⟨wx, hx, ex⟩ := row a1 b1 c1
  obtain ⟨wy, hy, ey⟩ := row a2 b2 c2
  obtain ⟨wz, hz, ez⟩ := row a3 b3 c3
  exact ⟨⟨wx, wy, wz⟩, ⟨hx, hy, hz⟩, ex, ey, ez⟩

/-- The cameras themselves, before they are turned and moved. -/
def Looks (b : BaseCam Flo) : Prop :=
  (∃ f φ, b = .projective f (lit 1) (lit 0) ∧ f.Is φ ∧ 1 / 64 ≤ φ ∧ φ ≤ 64) ∨ b = .envMap

theorem half_is : (lit (1 / 2) : Flo).Is (1 / 2) :=
  (Flo.lit_is (1 / 2) 1 (-1) (by norm_num) (by norm_num) (by norm_num) (by rw [abs_of_pos] <;> norm_num)).of_eq (by norm_num)

theorem projectiveRay_is {f : Flo} {φ : ℝ} (hf : f.Is φ) (lo : 1 / 64 ≤ φ) (hi : φ ≤ 64) {u v : Flo} {U V : ℝ} (hu : u.Is U) (hv : v.Is V)
    (bu : |U| ≤ 2 ^ 11) (bv : |V| ≤ 2 ^ 11) :
    ∃ d, (BaseCam.projectiveRay f (lit 1) ⟨lit 0, lit 0, lit 0⟩ u v).dir.FIs d ∧ |ip d d - 1| ≤ 1 / 2 ^ 44 := by
  have step : ∀ {a : Flo} {x e : ℝ}, a.Near x e (2 ^ 12) → e ≤ 1 / 2 ^ 30 → ∃ w, (lit 1 * a - lit 0).Is w ∧ |w - x| ≤ 1 / 2 ^ 10 := by
    intro a x e ha he
    have e0 := near_nonneg ha
    have h1 := (flo_lit_one.near (b := 1) (by norm_num)).mul (1 / 2 ^ 12) (2 ^ 12) ha (by norm_num) (by norm_num at he ⊢; linarith)
      (by norm_num at he ⊢; linarith)
    obtain ⟨w, hw, h⟩ := (h1.sub (1 / 2 ^ 10) (2 ^ 12) (Ball.flo_zero.near (b := 0) (by norm_num))).1
    exact ⟨w, hw, h.trans_eq' (by rw [one_mul, sub_zero])⟩
  obtain ⟨a, ha, ea⟩ := step (((hu.near bu).sub (1 / 2 ^ 40) (2 ^ 12) (half_is.near (b := 1 / 2) (by norm_num [abs_of_pos]))).neg) (by norm_num)
  obtain ⟨b, hb, eb⟩ := step ((hv.near bv).sub (1 / 2 ^ 40) (2 ^ 12) (half_is.near (b := 1 / 2) (by norm_num [abs_of_pos]))) (by norm_num)
  have hf' : f.Near φ 0 64 := hf.near (by rw [abs_le]; constructor <;> linarith)
  have h1 := (flo_lit_one.near (b := 1) (by norm_num)).mul (1 / 2 ^ 46) 64 hf'
  obtain ⟨c, hc, ec⟩ := (h1.sub (1 / 2 ^ 44) 64 (Ball.flo_zero.near (b := 0) (by norm_num))).1
  rw [one_mul, sub_zero] at ec
  have hfoc : ((lit 1 : Flo) ==. lit 0) = false := by
    rw [Bool.eq_false_iff]
    intro h
    have := flo_cmp_eq flo_lit_one Ball.flo_zero h
    norm_num at this
  unfold BaseCam.projectiveRay
  simp only [hfoc]
  refine normalized_ip (w := ⟨a, b, c⟩) ⟨ha, hb, hc⟩ ?_ ?_
  · simp only [ip]
    rw [abs_le] at ec
    have : (1 : ℝ) / 128 ≤ c := by norm_num at ec ⊢; linarith
    have := mul_le_mul this this (by norm_num) (by linarith)
    norm_num at this ⊢
    nlinarith [mul_self_nonneg a, mul_self_nonneg b]
  · simp only [ip]
    have sq : ∀ {w B : ℝ}, |w| ≤ B → w * w ≤ B * B := fun {w B} h => by
      rw [← abs_mul_abs_self w]; exact mul_le_mul h h (abs_nonneg _) ((abs_nonneg _).trans h)
    have ba : |a| ≤ 2 ^ 11 + 1 := by
      rw [abs_le] at bu ea ⊢; norm_num at ea bu ⊢; constructor <;> linarith
    have bb : |b| ≤ 2 ^ 11 + 1 := by
      rw [abs_le] at bv eb ⊢; norm_num at eb bv ⊢; constructor <;> linarith
    have bc : |c| ≤ 65 := by
      rw [abs_le] at ec ⊢; norm_num at ec ⊢; constructor <;> linarith
    have := sq ba
    have := sq bb
    have := sq bc
    norm_num at *
    linarith

theorem baseRay_is {S : Type} {b : BaseCam Flo} (hb : Looks b) (rng : Rng Flo S) (c : Ctx Flo S) {u v : Flo} {U V : ℝ} (hu : u.Is U) (hv : v.Is V)
    (bu : |U| ≤ 2 ^ 11) (bv : |V| ≤ 2 ^ 11) :
    (b.rayFrom rng c u v).1.start = ⟨lit 0, lit 0, lit 0⟩ ∧ ∃ d, (b.rayFrom rng c u v).1.dir.FIs d ∧ |ip d d - 1| ≤ 1 / 2 ^ 44 := by
  rcases hb with ⟨f, φ, rfl, hf, lo, hi⟩ | rfl
  · have hap : ((lit 0 : Flo) >. lit 0) = false := by rw [Flo.lt_is Ball.flo_zero Ball.flo_zero]; simp
    unfold BaseCam.rayFrom
    simp only [hap]
    exact ⟨rfl, projectiveRay_is hf lo hi hu hv bu bv⟩
  · unfold BaseCam.rayFrom
    refine ⟨rfl, ?_⟩
    have i2 : (lit 2 : Flo).Is 2 := by exact_mod_cast flo_int_is 2 (by norm_num)
    obtain ⟨φ, hφ, -⟩ := (((hu.near bu).neg.mul 1 (2 ^ 12) (i2.near (b := 2) (by norm_num))).mul (2 ^ 10) (2 ^ 14) pi_near).1
    obtain ⟨θ, hθ, -⟩ := (((hv.near bv).sub 1 (2 ^ 12) (half_is.near (b := 1 / 2) (by norm_num [abs_of_pos]))).mul (2 ^ 10) (2 ^ 14) pi_near).1
    obtain ⟨x, hx, ex⟩ := ((sin_near hφ).mul (6 / 2 ^ 53) 1 (cos_near hθ)).1
    obtain ⟨y, hy, ey⟩ := (sin_near hθ).1
    obtain ⟨z, hz, ez⟩ := ((cos_near hφ).mul (6 / 2 ^ 53) 1 (cos_near hθ)).1
    refine ⟨⟨x, y, z⟩, ⟨hx, hy, hz⟩, ?_⟩
    have h := unit_near (v := ⟨Real.sin φ * Real.cos θ, Real.sin θ, Real.cos φ * Real.cos θ⟩) (w := ⟨x, y, z⟩) (e := 0) (f := 6 / 2 ^ 53)
      (by
        have h1 := Real.sin_sq_add_cos_sq φ
        have h2 := Real.sin_sq_add_cos_sq θ
        simp only [ip]
        rw [show Real.sin φ * Real.cos θ * (Real.sin φ * Real.cos θ) + Real.sin θ * Real.sin θ +
          Real.cos φ * Real.cos θ * (Real.cos φ * Real.cos θ) - 1 = 0 by linear_combination Real.cos θ ^ 2 * h1 + h2]
        simp) (by norm_num) ⟨ex, ey.trans (by norm_num), ez⟩ (by norm_num)
    exact h.trans (by norm_num)

theorem looks_projective {fov : Flo} {x : ℝ} {cam : Cam Flo} (hx : fov.Is x) (lo : 1 / 16 ≤ x) (hi : x ≤ 3)
    (e : Cam.projective fov = .ok cam) : Looks cam.orig ∧ cam.matrix = (Affine.yawPitchRoll (lit 180 * Cam.deg) (lit 0) (lit 0)).A := by
  unfold Cam.projective Cam.projectiveAperture at e
  obtain ⟨f, ef, e⟩ := bind_eq_ok.1 e
  simp only [pure_ok, Except.ok.injEq] at e
  subst e
  refine ⟨.inl ?_, rfl⟩
  have i2 : (lit 2 : Flo).Is 2 := by exact_mod_cast flo_int_is 2 (by norm_num)
  unfold Cam.fovToFocalLen at ef
  split at ef
  · cases ef
  · rw [Except.ok.injEq] at ef
    have h1 := (hx.near (b := 3) (by rw [abs_le]; constructor <;> linarith)).div 2 (4 / 2 ^ 53) 1.5 (i2.near (b := 2) (by norm_num)) (by norm_num)
    obtain ⟨y, hy, ey⟩ := h1.1
    rw [abs_le] at ey
    have y1 : (1 : ℝ) / 33 ≤ y := by norm_num at ey ⊢; linarith
    have y2 : y ≤ 1.5001 := by norm_num at ey ⊢; linarith
    have pi1 := Real.pi_gt_d2
    have pi2 := Real.pi_lt_d2
    have t1 : (1 : ℝ) / 33 ≤ Real.tan y := y1.trans (Real.lt_tan (by linarith) (by norm_num at pi1 y2; linarith)).le
    have t2 : Real.tan y ≤ 30 := by
      have hc : (1 : ℝ) / 30 ≤ Real.cos y := by
        have := Real.one_sub_mul_le_cos (x := y) (by linarith) (by norm_num at pi1 y2; linarith)
        have h2 : 2 / Real.pi * y ≤ 2 / 3.14 * 1.5001 := by
          apply mul_le_mul _ y2 (by linarith) (by norm_num)
          exact div_le_div_of_nonneg_left (by norm_num) (by norm_num) pi1.le
        norm_num at h2 this ⊢
        linarith
      rw [Real.tan_eq_sin_div_cos, div_le_iff₀ (by linarith)]
      have := Real.sin_le_one y
      linarith
    have ht : (GoFloat.tan (fov / lit 2)).Near (Real.tan y) (1 / 2 ^ 47) 30 := by
      obtain ⟨s, hs⟩ := hy
      have hb : |Real.tan y| ≤ 30 := by rw [abs_le]; constructor <;> linarith
      refine ⟨⟨roundBits 53 (Real.tan y), ?_, ?_⟩, hb⟩
      · change (Flo.rnd (GoFloat.tan (fov / lit 2).e)).Is _
        rw [hs]
        exact Flo.rnd_is _ (hb.trans (by norm_num))
      · exact err_le (roundBits_err 53 (by norm_num) _) hb (by norm_num)
    obtain ⟨φ, hφ, eφ⟩ := ((half_is.near (b := 1 / 2) (by norm_num [abs_of_pos])).div (1 / 33) (1 / 2 ^ 30) 17 ht
      (by rw [abs_of_nonneg (by linarith)]; exact t1)).1
    rw [abs_le] at eφ
    have q1 : (1 : ℝ) / 2 / Real.tan y ≤ 17 := by rw [div_le_iff₀ (by linarith)]; linarith
    have q2 : (1 : ℝ) / 60 ≤ 1 / 2 / Real.tan y := by rw [le_div_iff₀ (by linarith)]; linarith
    refine ⟨f, φ, ?_, ef ▸ hφ, ?_, ?_⟩
    · change BaseCam.projective _ _ _ = _
      congr 1
      split <;> rfl
    · norm_num at eφ q2 ⊢; linarith
    · norm_num at eφ q1 ⊢; linarith

theorem deg_is : ∃ x, (lit 180 * Cam.deg : Flo).Is x := by
  have i : (lit 180 : Flo).Is 180 := by exact_mod_cast flo_int_is 180 (by norm_num)
  have h := (i.near (b := 180) (by norm_num)).mul 1 180
    (pi_near.div 180 (1 / 2 ^ 40) 1 (i.near (b := 180) (by norm_num)) (by norm_num))
  obtain ⟨w, hw, -⟩ := h.1
  exact ⟨w, hw⟩

theorem aimed_is {t m : Nat} {cam : Cam Flo} (h : Aimed t m cam) (ht : t ≤ 3) (hm : m ≤ 100) : Looks cam.orig ∧
    ∃ Q, Orth Q ∧ MNear cam.matrix Q (4 ^ t * (1 / 2 ^ 40 + m * (8 / 2 ^ 53))) := by
  induction h with
  | projective fov x cam hx lo hi e =>
    obtain ⟨h1, h2⟩ := looks_projective hx lo hi e
    obtain ⟨y, hy⟩ := deg_is
    obtain ⟨Q, hQ, h⟩ := yawPitchRoll_near hy Ball.flo_zero Ball.flo_zero
    exact ⟨h1, Q, hQ, h2 ▸ h.weaken (by norm_num)⟩
  | environment => exact ⟨.inr rfl, _, (one_near isOne_unit).2, (one_near isOne_unit).1.weaken (by norm_num)⟩
  | turned t m cam h yaw pitch roll y p r hy hp hr ih =>
    obtain ⟨h1, Q, hQ, hN⟩ := ih (by omega) hm
    obtain ⟨R, hR, hN'⟩ := yawPitchRoll_near hy hp hr
    refine ⟨h1, _, hR.mul hQ, (MNear.mul hN' hN hR hQ (by norm_num) ?_).weaken ?_⟩
    all_goals
      have hm' : (m : ℝ) ≤ 100 := by exact_mod_cast hm
      have h0 : (0 : ℝ) ≤ m := Nat.cast_nonneg m
      have ht : t = 0 ∨ t = 1 ∨ t = 2 := by omega
      rcases ht with rfl | rfl | rfl <;> norm_num <;> linarith
  | moved t m cam h delta ih =>
    obtain ⟨h1, Q, hQ, hN⟩ := ih ht (by omega)
    refine ⟨h1, Q, hQ, (MNear.one_mul isOne_unit hN ?_).weaken ?_⟩
    all_goals
      have hm' : (m : ℝ) ≤ 100 := by exact_mod_cast (by omega : m ≤ 100)
      have h0 : (0 : ℝ) ≤ m := Nat.cast_nonneg m
      have ht : t = 0 ∨ t = 1 ∨ t = 2 ∨ t = 3 := by omega
      rcases ht with rfl | rfl | rfl | rfl <;> norm_num <;> linarith

/-- The rays of such a camera, standing in a room, go into the room. -/
theorem aimed_into {S : Type} {t m : Nat} {cam : Cam Flo} (h : Aimed t m cam) (ht : t ≤ 3) (hm : m ≤ 100) {p : Vec ℝ} (hp : cam.pos.FIs p)
    (wp : Within 60 p) (rng : Rng Flo S) (c : Ctx Flo S) {u v : Flo} {U V : ℝ} (hu : u.Is U) (hv : v.Is V) (bu : |U| ≤ 2 ^ 11) (bv : |V| ≤ 2 ^ 11) :
    IntoRoom (cam.rayFrom rng c u v).1 := by
  obtain ⟨hl, Q, hQ, hN⟩ := aimed_is h ht hm
  obtain ⟨es, d, hd, ed⟩ := baseRay_is hl rng c hu hv bu bv
  have he : (4 : ℝ) ^ t * (1 / 2 ^ 40 + m * (8 / 2 ^ 53)) ≤ 1.1 / 2 ^ 34 := by
    have hm' : (m : ℝ) ≤ 100 := by exact_mod_cast hm
    have h0 : (0 : ℝ) ≤ m := Nat.cast_nonneg m
    have ht : t = 0 ∨ t = 1 ∨ t = 2 ∨ t = 3 := by omega
    rcases ht with rfl | rfl | rfl | rfl <;> norm_num <;> linarith
  have hN := hN.weaken he
  have wd : Within 1.001 d := by
    rw [abs_le] at ed
    exact within_of_sq (by norm_num) (by norm_num at ed ⊢; linarith)
  obtain ⟨w, hw, ew⟩ := mulVec_is hN (by norm_num) hd wd
  have hz : (⟨lit 0, lit 0, lit 0⟩ : Vec Flo).FIs ⟨0, 0, 0⟩ := ⟨Ball.flo_zero, Ball.flo_zero, Ball.flo_zero⟩
  obtain ⟨z, hz, ez⟩ := mulVec_is hN (by norm_num) hz ⟨by norm_num, by norm_num, by norm_num⟩
  have add : ∀ {a b : Flo} {x y : ℝ}, a.Is x → b.Is y → |x - 0| ≤ 3.01 * (1.1 / 2 ^ 34) + 12 / 2 ^ 53 → |y| ≤ 60 → ∃ s, (a + b).Is s ∧ |s| ≤ 61 := by
    intro a b x y ha hb hx hy
    rw [sub_zero] at hx
    obtain ⟨s, hs, es⟩ := ((ha.near (b := 1 / 2) (hx.trans (by norm_num))).add (1 / 2 ^ 20) 60.5 (hb.near hy)).1
    refine ⟨s, hs, ?_⟩
    have h1 : |x| ≤ 1 / 4 := hx.trans (by norm_num)
    rw [abs_le] at es h1 hy ⊢
    norm_num at es
    constructor <;> linarith
  have z0 : Q.mulVec ⟨0, 0, 0⟩ = ⟨0, 0, 0⟩ := by simp [Matrix.mulVec]
  rw [z0] at ez
  obtain ⟨sx, hsx, bx⟩ := add hz.1 hp.1 ez.1 wp.1
  obtain ⟨sy, hsy, bY⟩ := add hz.2.1 hp.2.1 ez.2.1 wp.2.1
  obtain ⟨sz, hsz, bz⟩ := add hz.2.2 hp.2.2 ez.2.2 wp.2.2
  refine ⟨⟨sx, sy, sz⟩, w, ?_, hw, ⟨bx, bY, bz⟩, ?_⟩
  · unfold Cam.rayFrom
    dsimp only
    rw [es]
    exact ⟨hsx, hsy, hsz⟩
  · have h := unit_near (v := Q.mulVec d) (w := w) (e := 1 / 2 ^ 44) (by rw [hQ.mulVec]; exact ed) (by norm_num) ew (by norm_num)
    simp only [ip] at h
    rw [show w.x ^ 2 + w.y ^ 2 + w.z ^ 2 - 1 = w.x * w.x + w.y * w.y + w.z * w.z - 1 by ring]
    exact h.trans (by norm_num)

end BR.Turn
