import Verif.Spec.MirrorDouble
import Verif.Lemmas.ViewLeave

/-! Where a ray goes from a mirror, in double precision. -/

namespace BR
set_option linter.unusedSectionVars false

open Flo

variable {r : Ray Flo} {v d : Vec ℝ} {mt : Option (Mat Flo)} {o : Obj Flo (Mat Flo)} {b : Obstacle}

theorem comp_le {x y z : ℝ} (h : x ^ 2 + y ^ 2 + z ^ 2 ≤ 2) : |x| ≤ 3 / 2 ∧ |y| ≤ 3 / 2 ∧ |z| ≤ 3 / 2 := by
  refine ⟨?_, ?_, ?_⟩ <;> refine abs_le_of_sq_le_sq ?_ (by norm_num) <;> nlinarith [sq_nonneg x, sq_nonneg y, sq_nonneg z]

/-- Where the ray into the mirror starts. -/
theorem back_near (h : Glance r v d) {t : Flo} {T : ℝ} (ht : t.Is T) (hT : |T| ≤ 8192) :
    ∃ v', (r.at (t - tiny)).FIs v' ∧ Within (1 / 2 ^ 36) (v'.sub (along v d (T - 1 / (1204 * 1024)))) := by
  obtain ⟨d1, d2, d3⟩ := comp_le h.short
  have hb := (ht.near hT).sub (1 / 2 ^ 39) 8193 Ball.tiny_near
  have mv : ∀ {a δ : Flo} {x u : ℝ}, a.Is x → |x| ≤ 64 → δ.Is u → |u| ≤ 3 / 2 →
      ∃ w, (a + (t - tiny) * δ).Is w ∧ |w - (x + (T - 1 / (1204 * 1024)) * u)| ≤ 1 / 2 ^ 36 := by
    intro a δ x u ha hx hδ hu
    have h1 := hb.mul (1 / 2 ^ 37) 12290 (hδ.near hu)
    exact ((ha.near hx).add (1 / 2 ^ 36) 12354 h1).1
  obtain ⟨px, ix, ex⟩ := mv h.start.1 h.near.1 h.dir.1 d1
  obtain ⟨py, iy, ey⟩ := mv h.start.2.1 h.near.2.1 h.dir.2.1 d2
  obtain ⟨pz, iz, ez⟩ := mv h.start.2.2 h.near.2.2 h.dir.2.2 d3
  exact ⟨⟨px, py, pz⟩, ⟨ix, iy, iz⟩, ex, ey, ez⟩

/-- It is close to where the mirror is met. -/
theorem back_close (hd : d.x ^ 2 + d.y ^ 2 + d.z ^ 2 ≤ 2) {v' : Vec ℝ} {T X : ℝ} (h : Within (1 / 2 ^ 36) (v'.sub (along v d (T - 1 / (1204 * 1024)))))
    (hT : |T - X| ≤ 1 / 2 ^ 23) : Within (1 / 2 ^ 19) (v'.sub (along v d X)) := by
  obtain ⟨d1, d2, d3⟩ := comp_le hd
  have key : ∀ {w x u : ℝ}, |w - (x + (T - 1 / (1204 * 1024)) * u)| ≤ 1 / 2 ^ 36 → |u| ≤ 3 / 2 → |w - (x + X * u)| ≤ 1 / 2 ^ 19 := by
    intro w x u hw hu
    have h1 : |(T - X - 1 / (1204 * 1024)) * u| ≤ (1 / 2 ^ 23 + 1 / (1204 * 1024)) * (3 / 2) := by
      rw [abs_mul]
      refine mul_le_mul ?_ hu (abs_nonneg _) (by norm_num)
      rw [abs_le] at *
      norm_num at *
      constructor <;> linarith
    have h2 := abs_add_le (w - (x + (T - 1 / (1204 * 1024)) * u)) ((T - X - 1 / (1204 * 1024)) * u)
    rw [show w - (x + (T - 1 / (1204 * 1024)) * u) + (T - X - 1 / (1204 * 1024)) * u = w - (x + X * u) by ring] at h2
    refine h2.trans ((add_le_add hw h1).trans ?_)
    norm_num
  exact ⟨key h.1 d1, key h.2.1 d2, key h.2.2 d3⟩

/-- The direction of the ray into the mirror. -/
theorem reflect_near {δ n : Vec Flo} {m : Vec ℝ} (hδ : δ.FIs d) (hn : n.FIs m) (hd : d.x ^ 2 + d.y ^ 2 + d.z ^ 2 ≤ 2)
    (hm : Within 1.01 m) : ∃ d', (reflect δ n).FIs d' ∧ Within (1 / 2 ^ 44) (d'.sub (mirrored d m)) := by
  obtain ⟨d1, d2, d3⟩ := comp_le hd
  obtain ⟨m1, m2, m3⟩ := hm
  have p : ∀ {a b : Flo} {x y : ℝ}, a.Is x → |x| ≤ 3 / 2 → b.Is y → |y| ≤ 1.01 → (a * b).Near (x * y) (1 / 2 ^ 52) 1.6 := by
    intro a b x y ha hx hb hy
    exact (ha.near hx).mul (1 / 2 ^ 52) 1.6 (hb.near hy)
  have dot := ((p hδ.1 d1 hn.1 m1).add (1 / 2 ^ 50) 3.2 (p hδ.2.1 d2 hn.2.1 m2)).add (1 / 2 ^ 49) 4.8 (p hδ.2.2 d3 hn.2.2 m3)
  have i2 : (lit (-2) : Flo).Is (-2) := by simpa using flo_int_is (-2) (by norm_num)
  have s := (i2.near (b := 2) (by norm_num)).mul (1 / 2 ^ 47) 9.6 dot
  have fin : ∀ {a b : Flo} {x y : ℝ}, a.Is x → |x| ≤ 3 / 2 → b.Is y → |y| ≤ 1.01 →
      ∃ w, (a + lit (-2) * (δ.x * n.x + δ.y * n.y + δ.z * n.z) * b).Is w ∧
        |w - (x - 2 * (d.x * m.x + d.y * m.y + d.z * m.z) * y)| ≤ 1 / 2 ^ 44 := by
    intro a b x y ha hx hb hy
    obtain ⟨w, hw, ew⟩ := ((ha.near hx).add (1 / 2 ^ 44) 12 (s.mul (1 / 2 ^ 45) 9.7 (hb.near hy))).1
    refine ⟨w, hw, ?_⟩
    rw [show x - 2 * (d.x * m.x + d.y * m.y + d.z * m.z) * y = x + -2 * (d.x * m.x + d.y * m.y + d.z * m.z) * y by ring]
    exact ew
  obtain ⟨a, ha, ea⟩ := fin hδ.1 d1 hn.1 m1
  obtain ⟨b, hb, eb⟩ := fin hδ.2.1 d2 hn.2.1 m2
  obtain ⟨c, hc, ec⟩ := fin hδ.2.2 d3 hn.2.2 m3
  exact ⟨⟨a, b, c⟩, ⟨ha, hb, hc⟩, ea, eb, ec⟩

theorem dot_unit {N : Vec ℝ} (hN : N.x ^ 2 + N.y ^ 2 + N.z ^ 2 = 1) (hd : d.x ^ 2 + d.y ^ 2 + d.z ^ 2 ≤ 2) :
    |d.x * N.x + d.y * N.y + d.z * N.z| ≤ 3 / 2 := by
  refine abs_le_of_sq_le_sq ?_ (by norm_num)
  nlinarith [sq_nonneg (d.x * N.y - d.y * N.x), sq_nonneg (d.y * N.z - d.z * N.y), sq_nonneg (d.x * N.z - d.z * N.x)]

/-- A small error in the normal, or a normal on the other side, does not matter much. -/
theorem mirrored_close {m N d' : Vec ℝ} {σ : ℝ} (hσ : σ = 1 ∨ σ = -1) (hN : N.x ^ 2 + N.y ^ 2 + N.z ^ 2 = 1) (hd : d.x ^ 2 + d.y ^ 2 + d.z ^ 2 ≤ 2)
    (hm : Within (1 / 2 ^ 16) (m.sub ⟨σ * N.x, σ * N.y, σ * N.z⟩)) (he : Within (1 / 2 ^ 44) (d'.sub (mirrored d m))) :
    Within (1 / 2 ^ 12) (d'.sub (mirrored d N)) := by
  have hdot := dot_unit hN hd
  obtain ⟨d1, d2, d3⟩ := comp_le hd
  have hs : σ * σ = 1 := by rcases hσ with rfl | rfl <;> norm_num
  have aσ : |σ| = 1 := by rcases hσ with rfl | rfl <;> norm_num
  obtain ⟨e1, e2, e3⟩ := hm
  simp only [Vec.sub] at e1 e2 e3
  obtain ⟨x, hx⟩ : ∃ x, x = m.x - σ * N.x := ⟨_, rfl⟩
  obtain ⟨y, hy⟩ : ∃ y, y = m.y - σ * N.y := ⟨_, rfl⟩
  obtain ⟨z, hz⟩ : ∃ z, z = m.z - σ * N.z := ⟨_, rfl⟩
  rw [← hx] at e1
  rw [← hy] at e2
  rw [← hz] at e3
  have hde : |d.x * x + d.y * y + d.z * z| ≤ 9 / 2 * (1 / 2 ^ 16) := by
    refine (abs_add_three _ _ _).trans ?_
    rw [abs_mul, abs_mul, abs_mul]
    have := mul_le_mul d1 e1 (abs_nonneg _) (by norm_num)
    have := mul_le_mul d2 e2 (abs_nonneg _) (by norm_num)
    have := mul_le_mul d3 e3 (abs_nonneg _) (by norm_num)
    linarith
  have emd : d.x * m.x + d.y * m.y + d.z * m.z = σ * (d.x * N.x + d.y * N.y + d.z * N.z) + (d.x * x + d.y * y + d.z * z) := by
    rw [hx, hy, hz]; ring
  obtain ⟨n1, n2, n3⟩ : |N.x| ≤ 1 ∧ |N.y| ≤ 1 ∧ |N.z| ≤ 1 := by
    refine ⟨?_, ?_, ?_⟩ <;> refine abs_le_of_sq_le_sq ?_ (by norm_num) <;> nlinarith [sq_nonneg N.x, sq_nonneg N.y, sq_nonneg N.z]
  have key : ∀ {w u a e k : ℝ}, a = e + σ * k → |e| ≤ 1 / 2 ^ 16 → |k| ≤ 1 →
      |w - (u - 2 * (d.x * m.x + d.y * m.y + d.z * m.z) * a)| ≤ 1 / 2 ^ 44 →
      |w - (u - 2 * (d.x * N.x + d.y * N.y + d.z * N.z) * k)| ≤ 1 / 2 ^ 12 := by
    intro w u a e k ha he hk hw
    rw [emd] at hw
    generalize d.x * N.x + d.y * N.y + d.z * N.z = D at *
    generalize d.x * x + d.y * y + d.z * z = δ at *
    have h1 : |σ * D * e| ≤ 1 * (3 / 2) * (1 / 2 ^ 16) := by
      rw [abs_mul, abs_mul, aσ]
      exact mul_le_mul (by linarith) he (abs_nonneg _) (by norm_num)
    have h2 : |δ * (σ * k)| ≤ 9 / 2 * (1 / 2 ^ 16) * (1 * 1) := by
      rw [abs_mul, abs_mul, aσ]
      exact mul_le_mul hde (by linarith) (by positivity) (by norm_num)
    have h3 : |δ * e| ≤ 9 / 2 * (1 / 2 ^ 16) * (1 / 2 ^ 16) := by
      rw [abs_mul]
      exact mul_le_mul hde he (abs_nonneg _) (by norm_num)
    have e' : w - (u - 2 * D * k) = (w - (u - 2 * (σ * D + δ) * a)) - 2 * (σ * D * e + δ * (σ * k) + δ * e) := by
      rw [ha]
      linear_combination (-2 * D * k) * hs
    rw [e']
    generalize σ * D * e = A at *
    generalize δ * (σ * k) = B at *
    generalize δ * e = E at *
    rw [abs_le] at *
    norm_num at *
    constructor <;> linarith
  obtain ⟨q1, q2, q3⟩ := he
  exact ⟨key (by rw [hx]; ring) e1 n1 q1, key (by rw [hy]; ring) e2 n2 q2, key (by rw [hz]; ring) e3 n3 q3⟩


/-- What is needed of the ray into a mirror. -/
def MirrorSends (r : Ray Flo) (hit : HitRecord Flo (Mat Flo)) (b : Obstacle) (Q M : Vec ℝ) : Prop :=
  ∃ v' d', (r.at (hit.t - tiny)).FIs v' ∧ (reflect r.dir hit.normal.normalized).FIs d' ∧ Within (1 / 2 ^ 19) (v'.sub Q) ∧
    Within (1 / 2 ^ 12) (d'.sub M) ∧ b.LeftBy v' d'

theorem floor_sends (h : Glance r v d) (K : Sorter (Obj Flo (Mat Flo))) {w dp : Flo} {c : Vec Flo} {W D : ℝ} {C : Vec ℝ}
    (q : LevelRectangle w dp c W D C) (ho : rectangle K mt w dp c = .ok o) {X : ℝ} {N : Vec ℝ} (hm : (Obstacle.floor W D C).MetAt v d X N)
    (wQ : Within 63 (along v d X)) (hg : N.x * d.x + N.y * d.y + N.z * d.z ≤ -(1 / 16)) {hit : HitRecord Flo (Mat Flo)}
    (hi : o.intersect r = .ok (hit, r)) : MirrorSends r hit (.floor W D C) (along v d X) (mirrored d N) := by
  obtain ⟨hit', T', hi', -, hT', T0', eT'⟩ := h.met (.floor q ho) hm wQ
  rw [hi] at hi'
  cases hi'
  obtain ⟨hoff, X0, hX, hin, hdiag, rfl⟩ := hm
  simp only [zero_mul, zero_add, add_zero] at hg
  have hX1 := h.reach wQ
  have hpos : (hit.t >. BR.GoFloat.lit 0) = true := by
    rw [lt_is Ball.flo_zero hT']
    exact decide_eq_true T0'
  have hnear : (hit.t <. BR.GoFloat.lit (9 * 10 ^ 99)) = true := by
    obtain ⟨x, hx, hx1, -⟩ := flo_far
    rw [lt_is hT' hx]
    refine decide_eq_true (lt_of_lt_of_le ?_ hx1)
    have h1 := (abs_le.1 eT').2
    have h2 : (8192 : ℝ) ≤ 2 ^ 200 := by norm_num
    norm_num at h1
    linarith
  obtain ⟨-, -, T, N, -, -, hT, T0, eT, -, -, hN, eN, -⟩ := C100_on K mt q ho (h.look_floor hoff) hi hpos hnear
  obtain rfl := Bounce.is_inj hT hT'
  obtain ⟨σ, hσ⟩ : ∃ σ, σ = sideOf C.y v.y := ⟨_, rfl⟩
  have hσ1 : σ = 1 ∨ σ = -1 := by
    rw [hσ]; unfold sideOf
    split
    · exact .inl rfl
    · exact .inr rfl
  have hss : σ * σ = 1 := by rcases hσ1 with e | e <;> rw [e] <;> norm_num
  rw [← hσ] at hg ⊢
  have d0 : d.y ≠ 0 := by
    rintro e
    rw [e] at hg
    norm_num at hg
  have hXd : X * d.y = C.y - v.y := by
    rw [← hX, along]
    ring
  have hXe : (C.y - v.y) / d.y = X := by rw [← hXd]; field_simp
  rw [hXe, abs_of_pos X0] at eT
  have eTX : |T - X| ≤ 1 / 2 ^ 32 := eT.trans (by norm_num; linarith)
  have hTb : |T| ≤ 8192 := by
    rw [abs_of_pos T0]
    have := (abs_le.1 eTX).2
    norm_num at this
    linarith
  rw [abs_le] at eN
  obtain ⟨ux, ⟨y, uy, ey⟩, uz⟩ := up_normalized hN.1 hN.2.1 hN.2.2 (by norm_num at *; linarith) (by norm_num at *; linarith)
  have ey' := abs_le.1 ey
  norm_num at ey'
  obtain ⟨v', hv', ev⟩ := back_near h hT hTb
  obtain ⟨d', hd', ed⟩ := reflect_near (m := ⟨0, y, 0⟩) h.dir ⟨ux, uy, uz⟩ h.short
    ⟨by norm_num, by rw [abs_le]; constructor <;> norm_num <;> linarith, by norm_num⟩
  refine ⟨v', d', hv', hd', back_close h.short ev (eTX.trans (by norm_num)), ?_, ?_⟩
  · refine mirrored_close (σ := σ) hσ1 (by show (0 : ℝ) ^ 2 + σ ^ 2 + 0 ^ 2 = 1; linear_combination hss) h.short (m := ⟨0, y, 0⟩) ⟨by simp [Vec.sub], ?_, by simp [Vec.sub]⟩ ed
    simp only [Vec.sub, hss]
    exact ey.trans (by norm_num)
  · have e1 := abs_le.1 ev.2.1
    have e2 := abs_le.1 ed.2.1
    have dy2 := abs_le.1 (comp_le h.short).2.1
    simp only [Vec.sub, along, mirrored] at e1 e2
    have pv : 1 / 2 ^ 30 ≤ σ * (v'.y - C.y) := by
      have t1 := abs_le.1 eTX
      obtain ⟨ε, hε⟩ : ∃ ε, ε = v'.y - (v.y + (T - 1 / (1204 * 1024)) * d.y) := ⟨_, rfl⟩
      rw [← hε] at e1
      have e : σ * (v'.y - C.y) = σ * ε + (1 / (1204 * 1024) - (T - X)) * -(σ * d.y) := by rw [hε]; linear_combination σ * hXd
      have h2 : (1 / 2 ^ 21) * (1 / 16) ≤ (1 / (1204 * 1024) - (T - X)) * -(σ * d.y) :=
        mul_le_mul (by norm_num at *; linarith) (by linarith) (by norm_num) (by norm_num at *; linarith)
      have h3 : -(1 / 2 ^ 36) ≤ σ * ε := by
        rcases hσ1 with e | e <;> rw [e] <;> norm_num at * <;> linarith
      rw [e]
      norm_num at *
      linarith
    have pd : 0 ≤ σ * d'.y := by
      obtain ⟨ε, hε⟩ : ∃ ε, ε = d'.y - (d.y - 2 * (d.x * 0 + d.y * y + d.z * 0) * y) := ⟨_, rfl⟩
      rw [← hε] at e2
      have e : σ * d'.y = σ * ε + (2 * (y * y) - 1) * -(σ * d.y) := by rw [hε]; ring
      have hy2 : 1 / 2 ≤ 2 * (y * y) - 1 := by nlinarith
      have h2 : (1 / 2) * (1 / 16) ≤ (2 * (y * y) - 1) * -(σ * d.y) := mul_le_mul hy2 (by linarith) (by norm_num) (by linarith)
      have h3 : -(1 / 2 ^ 44) ≤ σ * ε := by
        rcases hσ1 with e | e <;> rw [e] <;> norm_num at * <;> linarith
      rw [e]
      norm_num at *
      linarith
    constructor
    · have : |v'.y - C.y| = |σ * (v'.y - C.y)| := by
        have : |σ| = 1 := by rcases hσ1 with e | e <;> rw [e] <;> norm_num
        rw [abs_mul, this, one_mul]
      rw [this]
      exact le_trans (le_trans (by norm_num) pv) (le_abs_self _)
    · have : (v'.y - C.y) * d'.y = (σ * (v'.y - C.y)) * (σ * d'.y) := by
        linear_combination -((v'.y - C.y) * d'.y) * hss
      rw [this]
      exact mul_nonneg (le_trans (by norm_num) pv) pd

theorem box_sends (h : Glance r v d) {bb : BBox Flo} {lo hi : Vec ℝ} (hlk : LookingAtBox r bb v d lo hi)
    {X : ℝ} {N : Vec ℝ} (hm : (Obstacle.block lo hi).MetAt v d X N)
    (wQ : Within 63 (along v d X)) (hg : N.x * d.x + N.y * d.y + N.z * d.z ≤ -(1 / 16)) {hit : HitRecord Flo (Mat Flo)}
    (he : (Obj.box bb mt).intersect r = .ok (hit, r)) : MirrorSends r hit (.block lo hi) (along v d X) (mirrored d N) := by
  obtain ⟨X0, i, up, hon, rfl, -⟩ := hm
  have hX1 := h.reach wQ
  have hsd : (sideNormal i up).x * d.x + (sideNormal i up).y * d.y + (sideNormal i up).z * d.z = sgnOf up * d.get i := by
    fin_cases i <;> simp [sideNormal, sgnOf, Vec.get]
  rw [hsd] at hg
  obtain ⟨T, hT, T0, eT⟩ := box_time mt hlk X0 hon (hg.trans (by norm_num)) he
  obtain ⟨hpos, -, P, hp, -⟩ := box_patch mt hlk X0 hon (hg.trans (by norm_num)) wQ he
  obtain ⟨T', n, -, hT', hn, -, hface, -⟩ := C91_normal mt bb r v d lo hi hlk hit r he hpos
  obtain rfl := Bounce.is_inj hT' hT
  have hTb : |T'| ≤ 8192 := by
    rw [abs_of_pos T0]
    have := (abs_le.1 eT).2
    norm_num at this
    linarith
  obtain ⟨cx, cy, cz, cs⟩ := sideNormal_comp i up
  have ab : ∀ {x : ℝ}, x = 0 ∨ x = 1 ∨ x = -1 → |x| ≤ 1.01 := by
    rintro x (rfl | rfl | rfl) <;> norm_num
  obtain ⟨v', hv', ev⟩ := back_near h hT hTb
  obtain ⟨d', hd', ed⟩ := reflect_near h.dir hp.normal h.short ⟨ab cx, ab cy, ab cz⟩
  refine ⟨v', d', hv', hd', back_close h.short ev (eT.trans (by norm_num)), ?_, i, up, ?_, ?_⟩
  · exact mirrored_close (σ := 1) (.inl rfl) cs h.short (m := sideNormal i up) (by simp [Vec.sub, Within]) ed
  · have hA : ∀ j, |(along v d T').get j - (along v d X).get j| ≤ 1 / 2 ^ 22 := by
      intro j
      rw [along_get, along_get, show v.get j + T' * d.get j - (v.get j + X * d.get j) = (T' - X) * d.get j by ring, abs_mul]
      exact (mul_le_mul eT ((hlk.axis j).2.2.2.2.2.2.2.2) (abs_nonneg _) (by norm_num)).trans (by norm_num)
    obtain rfl := box_side hon hface hA
    obtain ⟨j, u, ej, hj⟩ := faceNormal_get hface
    have hju : |outside lo hi i up (along v d T')| ≤ 1 / 2 ^ 26 := by
      have : j = i ∧ u = up := by
        rcases i with ⟨_ | _ | _ | i, hi⟩ <;> rcases j with ⟨_ | _ | _ | j, hj⟩ <;> cases u <;> cases up <;> simp [sideNormal] at ej ⊢ <;> first | omega | (norm_num at ej)
      rw [← this.1, ← this.2]
      exact hj
    have h4 := outside_off (lo := lo) (hi := hi) i up v' (along v d T')
    have h5 := abs_le.1 hju
    have h6 := abs_le.1 (within_get.1 ev i)
    have e6 : (v'.sub (along v d (T' - 1 / (1204 * 1024)))).get i = v'.get i - (along v d T').get i + 1 / (1204 * 1024) * d.get i := by
      rw [along_get]
      fin_cases i <;> simp [Vec.sub, Vec.get, along] <;> ring
    rw [e6] at h6
    rw [h4]
    unfold sgnOf at hg ⊢
    cases up <;> simp only [if_true, Bool.false_eq_true, if_false] at hg ⊢ <;> norm_num at * <;> linarith
  · have h6 := abs_le.1 (within_get.1 ed i)
    have e6 : (d'.sub (mirrored d (sideNormal i up))).get i = d'.get i + d.get i := by
      fin_cases i <;> cases up <;> simp [Vec.sub, Vec.get, mirrored, sideNormal] <;> ring
    rw [e6] at h6
    have e7 : (sideNormal i up).x * d'.x + (sideNormal i up).y * d'.y + (sideNormal i up).z * d'.z = sgnOf up * d'.get i := by
      fin_cases i <;> simp [sideNormal, sgnOf, Vec.get]
    rw [e7]
    unfold sgnOf at hg ⊢
    cases up <;> simp only [if_true, Bool.false_eq_true, if_false] at hg ⊢ <;> norm_num at * <;> linarith

/-- The mirrored direction is as long as the direction. -/
theorem mirrored_len {N : Vec ℝ} (hN : N.x ^ 2 + N.y ^ 2 + N.z ^ 2 = 1) :
    (mirrored d N).x ^ 2 + (mirrored d N).y ^ 2 + (mirrored d N).z ^ 2 = d.x ^ 2 + d.y ^ 2 + d.z ^ 2 := by
  simp only [mirrored]
  linear_combination 4 * (d.x * N.x + d.y * N.y + d.z * N.z) ^ 2 * hN

/-- It is nearly so if it is nearly the mirrored direction. -/
theorem near_len {M d' : Vec ℝ} (hM : |M.x ^ 2 + M.y ^ 2 + M.z ^ 2 - 1| ≤ 1 / 32) (h : Within (1 / 2 ^ 12) (d'.sub M)) :
    |d'.x ^ 2 + d'.y ^ 2 + d'.z ^ 2 - 1| ≤ 1 / 24 := by
  obtain ⟨m1, m2, m3⟩ := comp_le (x := M.x) (y := M.y) (z := M.z) (by linarith [(abs_le.1 hM).2])
  have key : ∀ {a m : ℝ}, |a - m| ≤ 1 / 2 ^ 12 → |m| ≤ 3 / 2 → |a ^ 2 - m ^ 2| ≤ 1 / 2 ^ 10 := by
    intro a m h1 h2
    rw [show a ^ 2 - m ^ 2 = (a - m) * (a + m) by ring, abs_mul]
    have : |a + m| ≤ 4 := by
      rw [abs_le] at *
      norm_num at *
      constructor <;> linarith
    exact (mul_le_mul h1 this (abs_nonneg _) (by norm_num)).trans (by norm_num)
  have k1 := key h.1 m1
  have k2 := key h.2.1 m2
  have k3 := key h.2.2 m3
  rw [abs_le] at *
  norm_num at *
  constructor <;> linarith

/-- The mirrored direction goes away from the ball. -/
theorem ball_away {R κ g : ℝ} {a ν n : Vec ℝ} (hl : Ball.Leaving R a ν n κ g) (hd : d.x ^ 2 + d.y ^ 2 + d.z ^ 2 ≤ 2)
    (hneg : a.x * d.x + a.y * d.y + a.z * d.z ≤ -(1 / 20)) :
    1 / 64 ≤ a.x * (mirrored d n).x + a.y * (mirrored d n).y + a.z * (mirrored d n).z := by
  have dc := comp_le hd
  have h1 := (abs_le.1 (Ball.dot_le (a := ⟨n.x - κ * ν.x, n.y - κ * ν.y, n.z - κ * ν.z⟩) hl.par dc)).2
  have h2 := (abs_le.1 (Ball.dot_le (a := ⟨ν.x - a.x, ν.y - a.y, ν.z - a.z⟩) hl.close dc)).2
  simp only at h1 h2
  obtain ⟨k1, k2⟩ := hl.κlen
  obtain ⟨o1, o2⟩ := hl.out
  have hu := abs_le.1 hl.unit
  obtain ⟨g1, g2⟩ := hl.glen
  have hlo := hl.lo
  have hhi := hl.hi
  obtain ⟨s, hs⟩ : ∃ s, s = -(a.x * d.x + a.y * d.y + a.z * d.z) := ⟨_, rfl⟩
  have e : d.x * n.x + d.y * n.y + d.z * n.z = ((n.x - κ * ν.x) * d.x + (n.y - κ * ν.y) * d.y + (n.z - κ * ν.z) * d.z) +
      κ * ((ν.x - a.x) * d.x + (ν.y - a.y) * d.y + (ν.z - a.z) * d.z) - κ * s := by rw [hs]; ring
  have e2 : a.x * (mirrored d n).x + a.y * (mirrored d n).y + a.z * (mirrored d n).z =
      -s - 2 * (d.x * n.x + d.y * n.y + d.z * n.z) * (a.x * n.x + a.y * n.y + a.z * n.z) := by
    rw [hs]; simp only [mirrored]; ring
  rw [e2]
  generalize (n.x - κ * ν.x) * d.x + (n.y - κ * ν.y) * d.y + (n.z - κ * ν.z) * d.z = u at *
  generalize (ν.x - a.x) * d.x + (ν.y - a.y) * d.y + (ν.z - a.z) * d.z = w at *
  generalize d.x * n.x + d.y * n.y + d.z * n.z = p at *
  generalize a.x * n.x + a.y * n.y + a.z * n.z = q at *
  have s0 : 1 / 20 ≤ s := by rw [hs]; linarith
  have kw : κ * w ≤ 40 * (3 * (1 / 2 ^ 40 * (3 / 2))) :=
    (mul_le_mul_of_nonneg_left h2 hl.κpos.le).trans (mul_le_mul_of_nonneg_right k2 (by norm_num))
  have kR : 1 - 1 / 2 ^ 14 ≤ κ * q := by
    have : κ * g ≤ κ * (q + 1 / 2 ^ 20) := mul_le_mul_of_nonneg_left (by norm_num at *; linarith) hl.κpos.le
    rw [mul_add] at this
    norm_num at *
    linarith
  have q0 : 0 < q := by norm_num at *; linarith
  have q1 : q ≤ 65 := by norm_num at *; linarith
  have pq : p * q ≤ 1 / 2 ^ 24 - s * (κ * q) := by
    have h3 : u + κ * w ≤ 1 / 2 ^ 32 := by norm_num at *; linarith
    have h4 : (u + κ * w) * q ≤ 1 / 2 ^ 32 * 65 :=
      (mul_le_mul_of_nonneg_right h3 q0.le).trans (mul_le_mul_of_nonneg_left q1 (by norm_num))
    have : p * q = (u + κ * w) * q - s * (κ * q) := by rw [e]; ring
    rw [this]
    norm_num at *
    linarith
  have sk : s * (1 - 1 / 2 ^ 14) ≤ s * (κ * q) := mul_le_mul_of_nonneg_left kR (by linarith)
  have : 2 * p * q = 2 * (p * q) := by ring
  rw [this]
  norm_num at *
  linarith

/-- Backing off along the ray leaves the ball. -/
theorem ball_back {R τ : ℝ} {a w e : Vec ℝ} (hτ : τ = 1 / (1204 * 1024)) (hw : w = ⟨a.x - τ * d.x + e.x, a.y - τ * d.y + e.y, a.z - τ * d.z + e.z⟩)
    (he : Within (1 / 2 ^ 36) e) (ha : |a.x| ≤ 65 ∧ |a.y| ≤ 65 ∧ |a.z| ≤ 65) (hd : d.x ^ 2 + d.y ^ 2 + d.z ^ 2 ≤ 2)
    (hon : |a.x ^ 2 + a.y ^ 2 + a.z ^ 2 - R ^ 2| ≤ 1 / 2 ^ 28)
    (hneg : a.x * d.x + a.y * d.y + a.z * d.z ≤ -(1 / 20)) : R ^ 2 + 1 / 2 ^ 25 ≤ w.x ^ 2 + w.y ^ 2 + w.z ^ 2 := by
  have h1 := (abs_le.1 (Ball.dot_le he ha)).1
  have h2 := (abs_le.1 (Ball.dot_le he (comp_le hd))).2
  have h3 := (abs_le.1 hon).1
  have e1 : w.x ^ 2 + w.y ^ 2 + w.z ^ 2 = (a.x ^ 2 + a.y ^ 2 + a.z ^ 2) - 2 * τ * (a.x * d.x + a.y * d.y + a.z * d.z) +
      2 * (e.x * a.x + e.y * a.y + e.z * a.z) - 2 * τ * (e.x * d.x + e.y * d.y + e.z * d.z) +
      τ ^ 2 * (d.x ^ 2 + d.y ^ 2 + d.z ^ 2) + (e.x ^ 2 + e.y ^ 2 + e.z ^ 2) := by rw [hw]; ring
  have p1 : 0 ≤ τ ^ 2 * (d.x ^ 2 + d.y ^ 2 + d.z ^ 2) := by positivity
  have p2 : 0 ≤ e.x ^ 2 + e.y ^ 2 + e.z ^ 2 := by positivity
  rw [e1]
  generalize τ ^ 2 * (d.x ^ 2 + d.y ^ 2 + d.z ^ 2) = A at *
  generalize e.x ^ 2 + e.y ^ 2 + e.z ^ 2 = B at *
  generalize e.x * d.x + e.y * d.y + e.z * d.z = E at *
  generalize e.x * a.x + e.y * a.y + e.z * a.z = F at *
  generalize a.x * d.x + a.y * d.y + a.z * d.z = G at *
  subst hτ
  norm_num at *
  linarith

/-- A ball that is clearly met is not met at a grazing angle. -/
theorem ball_steep {c : Vec ℝ} {R X T T0 : ℝ} (hlen : |d.x ^ 2 + d.y ^ 2 + d.z ^ 2 - 1| ≤ 1 / 32) (hR : 1 / 32 ≤ R)
    (hX : apart (along v d X) c = R) (hin : apart (along v d T0) c ^ 2 ≤ R ^ 2 - 1 / 2 ^ 8) (hT : |T - X| ≤ 1 / 2 ^ 23)
    (hg : (outward c (along v d X)).x * d.x + (outward c (along v d X)).y * d.y + (outward c (along v d X)).z * d.z ≤ -(1 / 16)) :
    ((along v d T).x - c.x) * d.x + ((along v d T).y - c.y) * d.y + ((along v d T).z - c.z) * d.z ≤ -(1 / 20) := by
  have R0 : 0 < R := by linarith
  simp only [outward, hX] at hg
  obtain ⟨B, hB⟩ : ∃ B, B = ((along v d X).x - c.x) * d.x + ((along v d X).y - c.y) * d.y + ((along v d X).z - c.z) * d.z := ⟨_, rfl⟩
  obtain ⟨A, hA⟩ : ∃ A, A = d.x ^ 2 + d.y ^ 2 + d.z ^ 2 := ⟨_, rfl⟩
  have hgB : B ≤ 0 := by
    have e : ((along v d X).x - c.x) / R * d.x + ((along v d X).y - c.y) / R * d.y + ((along v d X).z - c.z) / R * d.z = B / R := by
      rw [hB]; field_simp
    rw [e, div_le_iff₀ R0] at hg
    nlinarith
  rw [← hA] at hlen
  have hA' := abs_le.1 hlen
  have e1 : apart (along v d T0) c ^ 2 = R ^ 2 + 2 * B * (T0 - X) + A * (T0 - X) ^ 2 := by
    have : R ^ 2 = apart (along v d X) c ^ 2 := by rw [hX]
    rw [this, apart_sq, apart_sq, hB, hA]
    simp only [along]
    ring
  rw [e1] at hin
  have hB2 : A * (1 / 2 ^ 8) ≤ B ^ 2 := by nlinarith [sq_nonneg (A * (T0 - X) + B)]
  have hB3 : B ≤ -(11 / 200) := by
    by_contra hn
    rw [not_le] at hn
    nlinarith
  have e2 : ((along v d T).x - c.x) * d.x + ((along v d T).y - c.y) * d.y + ((along v d T).z - c.z) * d.z = B + (T - X) * A := by
    rw [hB, hA]
    simp only [along]
    ring
  rw [e2]
  have h3 : (T - X) * A ≤ 1 / 2 ^ 23 * 2 := by
    have := (abs_le.1 hT).2
    exact (mul_le_mul_of_nonneg_right this (by linarith)).trans (mul_le_mul_of_nonneg_left (by linarith) (by norm_num))
  norm_num at *
  linarith

theorem ball_sends (h : Glance r v d) {diam : Flo} {center : Vec Flo} {c : Vec ℝ} {R : ℝ} (hk : Looking r diam center v d c R)
    {X : ℝ} {N : Vec ℝ} (hm : (Obstacle.ball c R).MetAt v d X N) (hlen : |d.x ^ 2 + d.y ^ 2 + d.z ^ 2 - 1| ≤ 1 / 32)
    (wQ : Within 63 (along v d X)) (hg : N.x * d.x + N.y * d.y + N.z * d.z ≤ -(1 / 16)) {hit : HitRecord Flo (Mat Flo)}
    (he : (Obj.sphere mt diam center).intersect r = .ok (hit, r)) : MirrorSends r hit (.ball c R) (along v d X) (mirrored d N) := by
  obtain ⟨hit', T₁, hi', -, hT₁, T0₁, eT₁⟩ := h.met (.ball hk.center hk.diam hk.center_le hk.radius_nonneg hk.radius_le) hm wQ
  rw [he] at hi'
  cases hi'
  obtain ⟨hR, hstart, ⟨T₂, T₂0, hin⟩, X0, hX, hfirst, rfl⟩ := hm
  obtain ⟨hpos, hface, P, n, hp, -⟩ := ball_patch hk hR hstart ⟨T₂, T₂0, hin⟩ X0 hX hfirst wQ he
  have he' : hit = (Obj.sphereQ mt diam center).hit r := by
    have : (Obj.sphere mt diam center).intersect r = .ok ((Obj.sphereQ mt diam center).hit r, r) := rfl
    rw [this] at he
    cases he
    rfl
  rcases Ball.hit_sound (m := mt) hk.sized with e | ⟨t, T, ht, hT0, hT1, hx, e⟩
  · rw [he', e] at hpos
    have : ((BR.GoFloat.lit 0 : Flo) <. BR.GoFloat.lit 0) = true := hpos
    rw [lt_is Ball.flo_zero Ball.flo_zero] at this
    simp at this
  rw [e] at he'
  have htt : hit.t = t := by rw [he']; rfl
  rw [← htt] at ht
  obtain rfl := Bounce.is_inj ht hT₁
  obtain ⟨a, ν, n', κ, g, p, hl, hn, ha, -⟩ := Ball.leaving hk.sized hR hk.start_le hk.center_le (htt ▸ ht) hT0 hT1 hx he'
  have hnn : n' = n := by
    obtain ⟨q1, q2, q3⟩ := hn
    obtain ⟨w1, w2, w3⟩ := hp.normal
    cases n'
    cases n
    simp only [Vec.mk.injEq]
    exact ⟨Bounce.is_inj q1 w1, Bounce.is_inj q2 w2, Bounce.is_inj q3 w3⟩
  subst hnn
  have hneg := ball_steep hlen hR hX hin eT₁ hg
  have ea : a = ⟨(along v d T).x - c.x, (along v d T).y - c.y, (along v d T).z - c.z⟩ := ha
  have hneg' : a.x * d.x + a.y * d.y + a.z * d.z ≤ -(1 / 20) := by rw [ea]; exact hneg
  obtain ⟨v', hv', ev⟩ := back_near h ht (by rw [abs_of_pos hT0]; linarith)
  obtain ⟨d', hd', ed⟩ := reflect_near h.dir hn h.short hl.ncomp
  have hclose := mirrored_close (σ := 1) (.inl rfl) hp.unit h.short (m := n') (by
    simp only [one_mul]
    exact ⟨hp.x_le, hp.y_le, hp.z_le⟩) ed
  have hlen' := abs_le.1 (near_len (by rw [mirrored_len hp.unit]; exact hlen) hclose)
  refine ⟨v', d', hv', hd', back_close h.short ev eT₁, hclose, ?_, ?_, by linarith⟩
  · rw [apart_sq]
    refine ball_back (d := d) (a := a) (w := ⟨v'.x - c.x, v'.y - c.y, v'.z - c.z⟩) (e := v'.sub (along v d (T - 1 / (1204 * 1024)))) rfl ?_ ev hl.acomp h.short hl.on hneg'
    rw [ea]
    simp only [Vec.sub, along, Vec.mk.injEq]
    refine ⟨by ring, by ring, by ring⟩
  · have haway := ball_away hl h.short hneg'
    obtain ⟨E, hE⟩ : ∃ E, E = d'.sub (mirrored d n') := ⟨_, rfl⟩
    obtain ⟨F, hF⟩ : ∃ F, F = v'.sub (along v d T) := ⟨_, rfl⟩
    rw [← hE] at ed
    have dc := comp_le h.short
    have hd2 : |d'.x| ≤ 3 / 2 ∧ |d'.y| ≤ 3 / 2 ∧ |d'.z| ≤ 3 / 2 := comp_le (by linarith)
    have hFb : |F.x| ≤ 1 / 2 ^ 19 ∧ |F.y| ≤ 1 / 2 ^ 19 ∧ |F.z| ≤ 1 / 2 ^ 19 := by
      rw [hF]
      exact back_close h.short ev (by simp)
    have b1 := (abs_le.1 (Ball.dot_le hl.acomp ed)).1
    have b2 := (abs_le.1 (Ball.dot_le hFb hd2)).1
    have e3 : (v'.x - c.x) * d'.x + (v'.y - c.y) * d'.y + (v'.z - c.z) * d'.z =
        (a.x * (mirrored d n').x + a.y * (mirrored d n').y + a.z * (mirrored d n').z) + (a.x * E.x + a.y * E.y + a.z * E.z) +
        (F.x * d'.x + F.y * d'.y + F.z * d'.z) := by
      rw [hE, hF, ea]
      simp only [Vec.sub]
      ring
    rw [e3]
    norm_num at *
    linarith

/-- **The ray into a mirror** is the right one, and leaves the mirror. -/
theorem Glance.sends (h : Glance r v d) (hb : b.Built mt o) {X : ℝ} {N : Vec ℝ} (hm : b.MetAt v d X N) (hlen : |d.x ^ 2 + d.y ^ 2 + d.z ^ 2 - 1| ≤ 1 / 32)
    (wQ : Within 63 (along v d X)) (hg : N.x * d.x + N.y * d.y + N.z * d.z ≤ -(1 / 16)) {hit : HitRecord Flo (Mat Flo)}
    (he : o.intersect r = .ok (hit, r)) : MirrorSends r hit b (along v d X) (mirrored d N) := by
  cases hb with
  | ball hcen hd wc R0 R1 => exact ball_sends h (h.look hcen hd wc R0 R1) hm hlen wQ hg he
  | block h1 h2 w1 w2 ho => exact box_sends h (h.look_box h1 h2 w1 w2 ho) hm wQ hg he
  | floor q ho => exact floor_sends h _ q ho hm wQ hg he
  | sky => exact hm.elim

end BR
