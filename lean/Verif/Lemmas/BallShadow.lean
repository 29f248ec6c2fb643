import Verif.Lemmas.UnitErr

/-! A shadow ray that leaves a ball does not meet the ball again, in double precision. -/

namespace BR

namespace Ball

variable {M : Type}

/-- A ray that starts outside and does not approach the centre misses. -/
theorem miss_of {m : Option M} {diam : Flo} {center : Vec Flo} {r : Ray Flo} {s d c : Vec ℝ} {R : ℝ}
    (h : Sized diam center r s d c R) (hl : 0.9 ≤ quadA d) (hB : -(1 / 2 ^ 20) ≤ quadB s d c) (hC : 1 / 2 ^ 25 ≤ quadC s c R) :
    (Obj.sphereQ m diam center).hit r = HitRecord.miss := by
  obtain ⟨β, γ, δ, hβ, hγ, hδ, hneg, hpos⟩ := hit_form (m := m) h
  have hAC : 0.9 / 2 ^ 25 ≤ quadA d * quadC s c R := by
    have := mul_le_mul hl hC (by norm_num) (by linarith)
    norm_num at *
    linarith
  have hBu := (abs_le.1 (quadB_le h.short h.farx h.fary h.farz)).2
  have hd := (abs_le.1 hδ).2
  rcases lt_or_ge δ 0 with h0 | h0
  · exact hneg h0
  · obtain ⟨t1, t2, T1, T2, v, hT1, hT2, hv0, hv1, -, hvv, b1, b2, f1, f2, e⟩ := hpos h0
    have hA := h.long
    generalize quadB s d c = B at *
    generalize quadC s c R = C at *
    generalize quadA d = A at *
    have hvB : v * v ≤ B * B - 1 / 2 ^ 24 := by
      have := (abs_le.1 hvv).2
      norm_num at *
      linarith
    have hBp : 0 < B := by
      by_contra hle
      have : B * B ≤ 1 / 2 ^ 20 * (1 / 2 ^ 20) := by nlinarith
      norm_num at *
      nlinarith
    have hBv : 1 / 2 ^ 36 ≤ B - v := by
      by_contra hlt
      have hlt : B - v < 1 / 2 ^ 36 := lt_of_not_ge hlt
      have h2 : (B - v) * (B + v) ≤ 1 / 2 ^ 36 * 900 := by
        refine (mul_le_mul_of_nonneg_right hlt.le (by linarith)).trans ?_
        exact mul_le_mul_of_nonneg_left (by linarith) (by norm_num)
      norm_num at *
      linarith
    have neg : ∀ {T : ℝ}, 2 * A * T < 0 → ¬ 0 < T := by
      intro T hT hp
      have : 0 < 2 * A * T := mul_pos (by linarith) hp
      linarith
    have n1 : ¬ 0 < T1 := neg (by
      rw [abs_le] at f1
      norm_num at *
      linarith)
    have n2 : ¬ 0 < T2 := neg (by
      rw [abs_le] at f2
      norm_num at *
      linarith)
    have r1 : ¬ (Obj.sphereQ m diam center).accept r t1 = true := fun ha => n1 (accept_pos hT1 ha)
    have r2 : ¬ (Obj.sphereQ m diam center).accept r t2 = true := fun ha => n2 (accept_pos hT2 ha)
    dsimp only at e
    rw [e]
    by_cases hlt : T2 < T1
    · simp only [hlt, if_true]
      rw [if_neg r2, if_neg r1]
    · simp only [hlt, if_false]
      rw [if_neg r1, if_neg r2]

theorem dot_le {a b : Vec ℝ} {A B : ℝ} (ha : |a.x| ≤ A ∧ |a.y| ≤ A ∧ |a.z| ≤ A) (hb : |b.x| ≤ B ∧ |b.y| ≤ B ∧ |b.z| ≤ B) :
    |a.x * b.x + a.y * b.y + a.z * b.z| ≤ 3 * (A * B) := by
  have hA : 0 ≤ A := (abs_nonneg _).trans ha.1
  refine (abs_add_three _ _ _).trans ?_
  rw [abs_mul, abs_mul, abs_mul]
  have h1 := mul_le_mul ha.1 hb.1 (abs_nonneg _) hA
  have h2 := mul_le_mul ha.2.1 hb.2.1 (abs_nonneg _) hA
  have h3 := mul_le_mul ha.2.2 hb.2.2 (abs_nonneg _) hA
  linarith

/-- `a` is where the point is relative to the centre, `ν` the computed normal, of length `g`. -/
structure Close (R : ℝ) (a ν : Vec ℝ) (g : ℝ) : Prop where
  lo : 1 / 32 ≤ R
  hi : R ≤ 64
  on : |a.x ^ 2 + a.y ^ 2 + a.z ^ 2 - R ^ 2| ≤ 1 / 2 ^ 28
  close : |ν.x - a.x| ≤ 1 / 2 ^ 40 ∧ |ν.y - a.y| ≤ 1 / 2 ^ 40 ∧ |ν.z - a.z| ≤ 1 / 2 ^ 40
  gpos : 0 ≤ g
  len : g ^ 2 = ν.x ^ 2 + ν.y ^ 2 + ν.z ^ 2

/-- `n` is the normal after it is normalised. -/
structure Leaving (R : ℝ) (a ν n : Vec ℝ) (κ g : ℝ) : Prop extends Close R a ν g where
  κpos : 0 < κ
  unit : |κ * g - 1| ≤ 1 / 2 ^ 48
  par : |n.x - κ * ν.x| ≤ 1 / 2 ^ 50 ∧ |n.y - κ * ν.y| ≤ 1 / 2 ^ 50 ∧ |n.z - κ * ν.z| ≤ 1 / 2 ^ 50

theorem comp_of {x y z R : ℝ} (hR : 0 ≤ R) (hR' : R ≤ 64) (h : |x ^ 2 + y ^ 2 + z ^ 2 - R ^ 2| ≤ 1 / 2 ^ 28) : |x| ≤ 65 := by
  refine abs_le_of_sq_le_sq ?_ (by norm_num)
  have := (abs_le.1 h).2
  norm_num at *
  nlinarith [sq_nonneg y, sq_nonneg z]

namespace Close

variable {R g : ℝ} {a ν : Vec ℝ}

theorem acomp (h : Close R a ν g) : |a.x| ≤ 65 ∧ |a.y| ≤ 65 ∧ |a.z| ≤ 65 := by
  have h0 : 0 ≤ R := le_trans (by norm_num) h.lo
  exact ⟨comp_of h0 h.hi h.on, comp_of (y := a.x) (z := a.z) h0 h.hi (by have := h.on; rwa [add_comm (a.x ^ 2)] at this),
    comp_of (y := a.x) (z := a.y) h0 h.hi (by have := h.on; rwa [add_comm _ (a.z ^ 2), ← add_assoc] at this)⟩

theorem glen (h : Close R a ν g) : R - 1 / 2 ^ 22 ≤ g ∧ g ≤ R + 1 / 2 ^ 22 := by
  have hn := dot_le h.acomp (b := ν.sub a) (by simpa [Vec.sub] using h.close)
  have hs := dot_le (a := ν.sub a) (b := ν.sub a) (by simpa [Vec.sub] using h.close) (by simpa [Vec.sub] using h.close)
  simp only [Vec.sub] at hn hs
  have e : g ^ 2 - R ^ 2 = (a.x ^ 2 + a.y ^ 2 + a.z ^ 2 - R ^ 2) +
      2 * (a.x * (ν.x - a.x) + a.y * (ν.y - a.y) + a.z * (ν.z - a.z)) +
      ((ν.x - a.x) * (ν.x - a.x) + (ν.y - a.y) * (ν.y - a.y) + (ν.z - a.z) * (ν.z - a.z)) := by
    rw [h.len]; ring
  have hon := h.on
  have hg := h.gpos
  have hlo := h.lo
  have hhi := h.hi
  rw [abs_le] at *
  constructor
  · refine le_of_sq_le_sq ?_ hg
    norm_num at *
    nlinarith
  · refine le_of_sq_le_sq ?_ (by norm_num at *; linarith)
    norm_num at *
    nlinarith

theorem νcomp (h : Close R a ν g) : |ν.x| ≤ 66 ∧ |ν.y| ≤ 66 ∧ |ν.z| ≤ 66 := by
  have key : ∀ {x y : ℝ}, |x - y| ≤ 1 / 2 ^ 40 → |y| ≤ 65 → |x| ≤ 66 := by
    intro x y h1 h2
    have h3 := abs_sub_abs_le_abs_sub x y
    norm_num at *
    linarith
  exact ⟨key h.close.1 h.acomp.1, key h.close.2.1 h.acomp.2.1, key h.close.2.2 h.acomp.2.2⟩

end Close

namespace Leaving

variable {R κ g : ℝ} {a ν n : Vec ℝ}

theorem glo (h : Leaving R a ν n κ g) : R - 1 / 2 ^ 22 ≤ g ∧ g ≤ 65 := by
  have h1 := h.glen
  have h2 := h.hi
  refine ⟨h1.1, ?_⟩
  norm_num at *
  linarith

theorem ncomp (h : Leaving R a ν n κ g) : |n.x| ≤ 1.01 ∧ |n.y| ≤ 1.01 ∧ |n.z| ≤ 1.01 := by
  have key : ∀ {x y : ℝ}, |x - κ * y| ≤ 1 / 2 ^ 50 → y ^ 2 ≤ g ^ 2 → |x| ≤ 1.01 := by
    intro x y hx hy
    have hyg : |y| ≤ g := abs_le_of_sq_le_sq hy h.gpos
    have h1 : |κ * y| ≤ κ * g := by
      rw [abs_mul, abs_of_pos h.κpos]
      exact mul_le_mul_of_nonneg_left hyg h.κpos.le
    have h2 := (abs_le.1 h.unit).2
    have h3 := abs_sub_abs_le_abs_sub x (κ * y)
    norm_num at *
    linarith
  have hl := h.len
  exact ⟨key h.par.1 (by nlinarith [sq_nonneg ν.y, sq_nonneg ν.z]), key h.par.2.1 (by nlinarith [sq_nonneg ν.x, sq_nonneg ν.z]),
    key h.par.2.2 (by nlinarith [sq_nonneg ν.x, sq_nonneg ν.y])⟩

/-- The normal points outwards. -/
theorem out (h : Leaving R a ν n κ g) : R - 1 / 2 ^ 21 ≤ a.x * n.x + a.y * n.y + a.z * n.z ∧
    a.x * n.x + a.y * n.y + a.z * n.z ≤ R + 1 / 2 ^ 21 := by
  have h1 := dot_le h.νcomp (b := ⟨n.x - κ * ν.x, n.y - κ * ν.y, n.z - κ * ν.z⟩) h.par
  have h2 := dot_le (a := ν.sub a) (by simpa [Vec.sub] using h.close) h.ncomp
  simp only [Vec.sub] at h1 h2
  have e : a.x * n.x + a.y * n.y + a.z * n.z = κ * g * g + (ν.x * (n.x - κ * ν.x) + ν.y * (n.y - κ * ν.y) + ν.z * (n.z - κ * ν.z)) -
      ((ν.x - a.x) * n.x + (ν.y - a.y) * n.y + (ν.z - a.z) * n.z) := by
    linear_combination -κ * h.len
  have hu := abs_le.1 h.unit
  have h3 : (1 - 1 / 2 ^ 48) * g ≤ κ * g * g := mul_le_mul_of_nonneg_right (by linarith [hu.1]) h.gpos
  have h4 : κ * g * g ≤ (1 + 1 / 2 ^ 48) * g := mul_le_mul_of_nonneg_right (by linarith [hu.2]) h.gpos
  have hg := h.glen
  have hi := h.hi
  rw [abs_le] at h1 h2
  norm_num at *
  constructor <;> linarith

/-- A point moved out along the normal is outside. -/
theorem outside (h : Leaving R a ν n κ g) {w : Vec ℝ} (hw : |w.x - (a.x + 1 / (1204 * 1024) * n.x)| ≤ 1 / 2 ^ 40 ∧
    |w.y - (a.y + 1 / (1204 * 1024) * n.y)| ≤ 1 / 2 ^ 40 ∧ |w.z - (a.z + 1 / (1204 * 1024) * n.z)| ≤ 1 / 2 ^ 40) :
    1 / 2 ^ 25 ≤ w.x ^ 2 + w.y ^ 2 + w.z ^ 2 - R ^ 2 := by
  have h1 := dot_le h.acomp hw (b := ⟨_, _, _⟩)
  simp only at h1
  have ho := h.out.1
  have hon := (abs_le.1 h.on).1
  have hlo := h.lo
  have h1' := (abs_le.1 h1).1
  have sx := sq_nonneg (w.x - a.x)
  have sy := sq_nonneg (w.y - a.y)
  have sz := sq_nonneg (w.z - a.z)
  have e : w.x ^ 2 + w.y ^ 2 + w.z ^ 2 - R ^ 2 = (a.x ^ 2 + a.y ^ 2 + a.z ^ 2 - R ^ 2) +
      2 * (1 / (1204 * 1024)) * (a.x * n.x + a.y * n.y + a.z * n.z) +
      2 * (a.x * (w.x - (a.x + 1 / (1204 * 1024) * n.x)) + a.y * (w.y - (a.y + 1 / (1204 * 1024) * n.y)) +
        a.z * (w.z - (a.z + 1 / (1204 * 1024) * n.z))) + ((w.x - a.x) ^ 2 + (w.y - a.y) ^ 2 + (w.z - a.z) ^ 2) := by ring
  rw [e]
  generalize (a.x * n.x + a.y * n.y + a.z * n.z) = o at *
  generalize a.x * (w.x - (a.x + 1 / (1204 * 1024) * n.x)) + a.y * (w.y - (a.y + 1 / (1204 * 1024) * n.y)) +
        a.z * (w.z - (a.z + 1 / (1204 * 1024) * n.z)) = q at *
  norm_num at *
  linarith

/-- … though not far. -/
theorem near (h : Leaving R a ν n κ g) {w : Vec ℝ} (hw : |w.x - (a.x + 1 / (1204 * 1024) * n.x)| ≤ 1 / 2 ^ 40 ∧
    |w.y - (a.y + 1 / (1204 * 1024) * n.y)| ≤ 1 / 2 ^ 40 ∧ |w.z - (a.z + 1 / (1204 * 1024) * n.z)| ≤ 1 / 2 ^ 40) :
    w.x ^ 2 + w.y ^ 2 + w.z ^ 2 ≤ (R + 1 / 2 ^ 16) ^ 2 ∧ |w.x| ≤ 66 ∧ |w.y| ≤ 66 ∧ |w.z| ≤ 66 := by
  have h1 := dot_le h.acomp hw (b := ⟨_, _, _⟩)
  simp only at h1
  have ho := h.out.2
  have hon := (abs_le.1 h.on).2
  have hlo := h.lo
  have hhi := h.hi
  have h1' := (abs_le.1 h1).2
  have key : ∀ {x y z : ℝ}, |x - (y + 1 / (1204 * 1024) * z)| ≤ 1 / 2 ^ 40 → |z| ≤ 1.01 → |x - y| ≤ 1 / 2 ^ 20 := by
    intro x y z h1 h2
    rw [abs_le] at *
    norm_num at *
    constructor <;> linarith
  have hn := h.ncomp
  have kx := key hw.1 hn.1
  have ky := key hw.2.1 hn.2.1
  have kz := key hw.2.2 hn.2.2
  have hs := (abs_le.1 (dot_le (a := w.sub a) (b := w.sub a) ⟨kx, ky, kz⟩ ⟨kx, ky, kz⟩)).2
  simp only [Vec.sub] at hs
  have e : w.x ^ 2 + w.y ^ 2 + w.z ^ 2 = (a.x ^ 2 + a.y ^ 2 + a.z ^ 2 - R ^ 2) + R ^ 2 +
      2 * (1 / (1204 * 1024)) * (a.x * n.x + a.y * n.y + a.z * n.z) +
      2 * (a.x * (w.x - (a.x + 1 / (1204 * 1024) * n.x)) + a.y * (w.y - (a.y + 1 / (1204 * 1024) * n.y)) +
        a.z * (w.z - (a.z + 1 / (1204 * 1024) * n.z))) +
      ((w.x - a.x) * (w.x - a.x) + (w.y - a.y) * (w.y - a.y) + (w.z - a.z) * (w.z - a.z)) := by ring
  have comp : ∀ {x y : ℝ}, |x - y| ≤ 1 / 2 ^ 20 → |y| ≤ 65 → |x| ≤ 66 := by
    intro x y h1 h2
    have h3 := abs_sub_abs_le_abs_sub x y
    norm_num at *
    linarith
  refine ⟨?_, comp kx h.acomp.1, comp ky h.acomp.2.1, comp kz h.acomp.2.2⟩
  rw [e]
  generalize (a.x * n.x + a.y * n.y + a.z * n.z) = o at *
  generalize a.x * (w.x - (a.x + 1 / (1204 * 1024) * n.x)) + a.y * (w.y - (a.y + 1 / (1204 * 1024) * n.y)) +
        a.z * (w.z - (a.z + 1 / (1204 * 1024) * n.z)) = q at *
  norm_num at *
  nlinarith

theorem κlen (h : Leaving R a ν n κ g) : 1 / 70 ≤ κ ∧ κ ≤ 40 := by
  have hu := abs_le.1 h.unit
  have hg := h.glo
  have hlo := h.lo
  constructor
  · by_contra hlt
    have : κ * g ≤ 1 / 70 * 65 := mul_le_mul (by linarith) hg.2 h.gpos (by norm_num)
    norm_num at *
    linarith
  · by_contra hlt
    have : 40 * (1 / 33) ≤ κ * g := mul_le_mul (by linarith) (by norm_num at *; linarith) (by norm_num) h.κpos.le
    norm_num at *
    linarith

/-- The normal is nearly the unit vector that points outwards. -/
theorem unit_near (h : Leaving R a ν n κ g) {A : ℝ} (hA : 0 ≤ A) (hAA : A ^ 2 = a.x ^ 2 + a.y ^ 2 + a.z ^ 2) :
    |n.x - a.x / A| ≤ 1 / 2 ^ 32 ∧ |n.y - a.y / A| ≤ 1 / 2 ^ 32 ∧ |n.z - a.z / A| ≤ 1 / 2 ^ 32 := by
  have hlo := h.lo
  have hon := abs_le.1 h.on
  have hApos : 0 < A := by
    rcases hA.lt_or_eq with h0 | h0
    · exact h0
    · exfalso
      rw [← hAA, ← h0] at hon
      norm_num at hon hlo
      nlinarith
  have hcs := dot_sq_le a ν
  have hdot : a.x * ν.x + a.y * ν.y + a.z * ν.z ≤ A * g := by
    refine le_of_sq_le_sq ?_ (mul_nonneg hA h.gpos)
    rw [mul_pow, hAA, h.len]
    linarith
  have hs := (abs_le.1 (dot_le (a := ν.sub a) (b := ν.sub a) (by simpa [Vec.sub] using h.close) (by simpa [Vec.sub] using h.close))).2
  simp only [Vec.sub] at hs
  have hlen := h.len
  have hAg : |A - g| ≤ 1 / 2 ^ 39 := by
    refine abs_le_of_sq_le_sq ?_ (by norm_num)
    have : (A - g) ^ 2 ≤ (ν.x - a.x) * (ν.x - a.x) + (ν.y - a.y) * (ν.y - a.y) + (ν.z - a.z) * (ν.z - a.z) := by nlinarith
    exact (this.trans hs).trans (by norm_num)
  obtain ⟨-, hκ⟩ := h.κlen
  have hκA : |κ * A - 1| ≤ 1 / 2 ^ 33 := by
    have e : κ * A - 1 = (κ * g - 1) + κ * (A - g) := by ring
    rw [e]
    refine (abs_add_le _ _).trans ((add_le_add h.unit (c := |κ * (A - g)|) (d := 40 * (1 / 2 ^ 39)) ?_).trans (by norm_num))
    rw [abs_mul, abs_of_pos h.κpos]
    exact mul_le_mul hκ hAg (abs_nonneg _) (by norm_num)
  have key : ∀ {x y z : ℝ}, |z - κ * y| ≤ 1 / 2 ^ 50 → |y - x| ≤ 1 / 2 ^ 40 → x ^ 2 ≤ A ^ 2 → |z - x / A| ≤ 1 / 2 ^ 32 := by
    intro x y z h1 h2 h3
    have e : z - x / A = (z - κ * y) + κ * (y - x) + x / A * (κ * A - 1) := by field_simp; ring
    have h4 : |x / A| ≤ 1 := by
      rw [abs_div, abs_of_pos hApos, div_le_one hApos]
      exact abs_le_of_sq_le_sq h3 hA
    have h5 : |κ * (y - x)| ≤ 40 * (1 / 2 ^ 40) := by
      rw [abs_mul, abs_of_pos h.κpos]
      exact mul_le_mul hκ h2 (abs_nonneg _) (by norm_num)
    have h6 : |x / A * (κ * A - 1)| ≤ 1 * (1 / 2 ^ 33) := by
      rw [abs_mul]
      exact mul_le_mul h4 hκA (abs_nonneg _) (by norm_num)
    rw [e]
    refine (abs_add_three _ _ _).trans ((add_le_add (add_le_add h1 h5) h6).trans (by norm_num))
  exact ⟨key h.par.1 h.close.1 (by rw [hAA]; nlinarith [sq_nonneg a.y, sq_nonneg a.z]),
    key h.par.2.1 h.close.2.1 (by rw [hAA]; nlinarith [sq_nonneg a.x, sq_nonneg a.z]),
    key h.par.2.2 h.close.2.2 (by rw [hAA]; nlinarith [sq_nonneg a.x, sq_nonneg a.y])⟩

/-- A direction on the outer side leads away from the centre. -/
theorem away (h : Leaving R a ν n κ g) {w l : Vec ℝ} (hw : |w.x - (a.x + 1 / (1204 * 1024) * n.x)| ≤ 1 / 2 ^ 40 ∧
    |w.y - (a.y + 1 / (1204 * 1024) * n.y)| ≤ 1 / 2 ^ 40 ∧ |w.z - (a.z + 1 / (1204 * 1024) * n.z)| ≤ 1 / 2 ^ 40)
    (hl : |l.x| ≤ 1.01 ∧ |l.y| ≤ 1.01 ∧ |l.z| ≤ 1.01) (hln : -(1 / 2 ^ 48) ≤ l.x * n.x + l.y * n.y + l.z * n.z) :
    -(1 / 2 ^ 30) ≤ l.x * w.x + l.y * w.y + l.z * w.z := by
  have h1 := (abs_le.1 (dot_le hl (b := ⟨_, _, _⟩) h.par)).2
  have h2 := (abs_le.1 (dot_le hl (b := ⟨_, _, _⟩) hw)).1
  have h3 := (abs_le.1 (dot_le hl (b := ⟨_, _, _⟩) h.close)).2
  simp only at h1 h2 h3
  have hu := abs_le.1 h.unit
  have hg := h.glo
  have hlo := h.lo
  obtain ⟨hκ, hκ'⟩ := h.κlen
  have e : κ * (l.x * w.x + l.y * w.y + l.z * w.z) = (1 + κ * (1 / (1204 * 1024))) * (l.x * n.x + l.y * n.y + l.z * n.z) -
      (l.x * (n.x - κ * ν.x) + l.y * (n.y - κ * ν.y) + l.z * (n.z - κ * ν.z)) +
      κ * ((l.x * (w.x - (a.x + 1 / (1204 * 1024) * n.x)) + l.y * (w.y - (a.y + 1 / (1204 * 1024) * n.y)) +
        l.z * (w.z - (a.z + 1 / (1204 * 1024) * n.z))) -
        (l.x * (ν.x - a.x) + l.y * (ν.y - a.y) + l.z * (ν.z - a.z))) := by ring
  generalize l.x * w.x + l.y * w.y + l.z * w.z = W at *
  generalize l.x * n.x + l.y * n.y + l.z * n.z = N at *
  generalize l.x * (n.x - κ * ν.x) + l.y * (n.y - κ * ν.y) + l.z * (n.z - κ * ν.z) = E1 at *
  generalize l.x * (w.x - (a.x + 1 / (1204 * 1024) * n.x)) + l.y * (w.y - (a.y + 1 / (1204 * 1024) * n.y)) +
        l.z * (w.z - (a.z + 1 / (1204 * 1024) * n.z)) = E2 at *
  generalize l.x * (ν.x - a.x) + l.y * (ν.y - a.y) + l.z * (ν.z - a.z) = E3 at *
  have hN : -(2 / 2 ^ 48) ≤ (1 + κ * (1 / (1204 * 1024))) * N := by
    have h4 : 0 ≤ 1 + κ * (1 / (1204 * 1024)) := by positivity
    have h5 := mul_le_mul_of_nonneg_left hln h4
    refine le_trans ?_ h5
    norm_num at *
    linarith
  have hE : κ * (-(1 / 2 ^ 36)) ≤ κ * (E2 - E3) := mul_le_mul_of_nonneg_left (by norm_num at *; linarith) h.κpos.le
  by_contra hlt
  have hW : κ * W ≤ κ * (-(1 / 2 ^ 30)) := mul_le_mul_of_nonneg_left (by linarith) h.κpos.le
  norm_num at *
  linarith

end Leaving

theorem le_flo {a b : Flo} {x y : ℝ} (ha : a.Is x) (hb : b.Is y) : (a <=. b) = decide (x ≤ y) := by
  rw [le_key ha.key hb.key]
  simp

/-- The point shaded: where the ray meets the ball, moved out along the normal. -/
theorem leaving {m : Option M} {diam : Flo} {center : Vec Flo} {r : Ray Flo} {s d c : Vec ℝ} {R : ℝ}
    (h : Sized diam center r s d c R) (hR : 1 / 32 ≤ R) (hs : |s.x| ≤ 64 ∧ |s.y| ≤ 64 ∧ |s.z| ≤ 64)
    (hc : |c.x| ≤ 64 ∧ |c.y| ≤ 64 ∧ |c.z| ≤ 64) {t : Flo} {T : ℝ} (ht : t.Is T) (hT0 : 0 < T) (hT1 : T ≤ 840)
    (hon : |excess s d c R T| ≤ 1 / 2 ^ 28) {rec : HitRecord Flo M} (hrec : rec = (Obj.sphereQ m diam center).record r t) :
    ∃ (a ν n : Vec ℝ) (κ g : ℝ) (p : Vec ℝ), Leaving R a ν n κ g ∧ rec.normal.normalized.FIs n ∧
      a = ⟨s.x + T * d.x - c.x, s.y + T * d.y - c.y, s.z + T * d.z - c.z⟩ ∧ rec.normal.FIs ν ∧
      (∃ loc, rec.loc.FIs loc ∧ |loc.x - a.x| ≤ 1 / 2 ^ 40 ∧ |loc.y - a.y| ≤ 1 / 2 ^ 40 ∧ |loc.z - a.z| ≤ 1 / 2 ^ 40) ∧
      ((r.at t).madd tiny rec.normal.normalized).FIs p ∧
      |(p.sub c).x - (a.x + 1 / (1204 * 1024) * n.x)| ≤ 1 / 2 ^ 40 ∧
      |(p.sub c).y - (a.y + 1 / (1204 * 1024) * n.y)| ≤ 1 / 2 ^ 40 ∧
      |(p.sub c).z - (a.z + 1 / (1204 * 1024) * n.z)| ≤ 1 / 2 ^ 40 := by
  have hA := h.short
  unfold quadA at hA
  have hT : |T| ≤ 840 := by rw [abs_of_pos hT0]; exact hT1
  rw [excess_eq] at hon
  have hR0 := h.nonneg
  have hcomp : |s.x + T * d.x - c.x| ≤ 65 ∧ |s.y + T * d.y - c.y| ≤ 65 ∧ |s.z + T * d.z - c.z| ≤ 65 :=
    ⟨comp_of hR0 h.small hon, comp_of (y := s.x + T * d.x - c.x) (z := s.z + T * d.z - c.z) hR0 h.small
        (by rwa [add_comm ((s.x + T * d.x - c.x) ^ 2)] at hon),
      comp_of (y := s.x + T * d.x - c.x) (z := s.y + T * d.y - c.y) hR0 h.small
        (by rwa [add_comm _ ((s.z + T * d.z - c.z) ^ 2), ← add_assoc] at hon)⟩
  have pt : ∀ {a e : Flo} {x y z : ℝ}, a.Is x → e.Is y → |x| ≤ 64 → |y| ≤ 3 / 2 → |z| ≤ 64 → |x + T * y - z| ≤ 65 →
      (a + t * e).Near (x + T * y) (1 / 2 ^ 41) 129 := by
    intro a e x y z ha he hx hy hz hxy
    refine ((ha.near hx).add (1 / 2 ^ 41) 1324 ((ht.near hT).mul (1261 / 2 ^ 53) 1260 (he.near hy))).bound ?_
    rw [abs_le] at *
    constructor <;> linarith
  have one := flo_lit_one.near (b := 1) (by norm_num)
  have nrm : ∀ {a b : Flo} {x z : ℝ}, a.Near x (1 / 2 ^ 41) 129 → b.Is z → |z| ≤ 64 →
      ∃ w, (lit 1 * (a - b)).Is w ∧ |w - (x - z)| ≤ 1 / 2 ^ 40 := by
    intro a b x z ha hb hz
    have := one.mul (1 / 2 ^ 40) 193 (ha.sub (1.2 / 2 ^ 41) 193 (hb.near hz))
    rw [one_mul] at this
    exact this.1
  have loc : ∀ {a b : Flo} {x z : ℝ}, a.Near x (1 / 2 ^ 41) 129 → b.Is z → |z| ≤ 64 →
      ∃ w, (a - b).Is w ∧ |w - (x - z)| ≤ 1 / 2 ^ 40 := by
    intro a b x z ha hb hz
    exact (ha.sub (1 / 2 ^ 40) 193 (hb.near hz)).1
  have px := pt h.start.1 h.dir.1 hs.1 (comp_le hA) hc.1 hcomp.1
  have py := pt h.start.2.1 h.dir.2.1 hs.2.1 (comp_le (by linarith : d.y * d.y + d.x * d.x + d.z * d.z ≤ 2)) hc.2.1 hcomp.2.1
  have pz := pt h.start.2.2 h.dir.2.2 hs.2.2 (comp_le (by linarith : d.z * d.z + d.x * d.x + d.y * d.y ≤ 2)) hc.2.2 hcomp.2.2
  obtain ⟨νx, ix, ex⟩ := nrm px h.center.1 hc.1
  obtain ⟨νy, iy, ey⟩ := nrm py h.center.2.1 hc.2.1
  obtain ⟨νz, iz, ez⟩ := nrm pz h.center.2.2 hc.2.2
  have hν : rec.normal.FIs ⟨νx, νy, νz⟩ := by
    rw [hrec]
    exact ⟨ix, iy, iz⟩
  have hclose : Close R ⟨s.x + T * d.x - c.x, s.y + T * d.y - c.y, s.z + T * d.z - c.z⟩ ⟨νx, νy, νz⟩
      (Real.sqrt (νx ^ 2 + νy ^ 2 + νz ^ 2)) :=
    ⟨hR, h.small, hon, ⟨ex, ey, ez⟩, Real.sqrt_nonneg _, Real.sq_sqrt (by positivity)⟩
  have hgl := hclose.glen
  obtain ⟨n, κ, hn, hκ, hunit, hpar⟩ := normalized_is hν (g := Real.sqrt (νx ^ 2 + νy ^ 2 + νz ^ 2))
    (by norm_num at *; linarith) (by have := h.small; norm_num at *; linarith) hclose.len
  have hleave : Leaving R ⟨s.x + T * d.x - c.x, s.y + T * d.y - c.y, s.z + T * d.z - c.z⟩ ⟨νx, νy, νz⟩ n κ
      (Real.sqrt (νx ^ 2 + νy ^ 2 + νz ^ 2)) := ⟨hclose, hκ, hunit, hpar⟩
  have hnc := hleave.ncomp
  have mv : ∀ {a b : Flo} {x y : ℝ}, a.Near x (1 / 2 ^ 41) 129 → b.Is y → |y| ≤ 1.01 →
      ∃ w, (a + tiny * b).Is w ∧ |w - (x + 1 / (1204 * 1024) * y)| ≤ 1 / 2 ^ 40 := by
    intro a b x y ha hb hy
    exact (ha.add (1 / 2 ^ 40) 131 (tiny_near.mul (3 / 2 ^ 53) 1.01 (hb.near hy))).1
  obtain ⟨qx, jx, fx⟩ := mv px hn.1 hnc.1
  obtain ⟨qy, jy, fy⟩ := mv py hn.2.1 hnc.2.1
  obtain ⟨qz, jz, fz⟩ := mv pz hn.2.2 hnc.2.2
  obtain ⟨ux, kx, gx⟩ := loc px h.center.1 hc.1
  obtain ⟨uy, ky, gy⟩ := loc py h.center.2.1 hc.2.1
  obtain ⟨uz, kz, gz⟩ := loc pz h.center.2.2 hc.2.2
  refine ⟨_, _, n, κ, _, ⟨qx, qy, qz⟩, hleave, hn, rfl, hν, ⟨⟨ux, uy, uz⟩, by rw [hrec]; exact ⟨kx, ky, kz⟩, gx, gy, gz⟩,
    ⟨jx, jy, jz⟩, ?_, ?_, ?_⟩
  · simp only [Vec.sub]
    rwa [show qx - c.x - (s.x + T * d.x - c.x + 1 / (1204 * 1024) * n.x) = qx - (s.x + T * d.x + 1 / (1204 * 1024) * n.x) by ring]
  · simp only [Vec.sub]
    rwa [show qy - c.y - (s.y + T * d.y - c.y + 1 / (1204 * 1024) * n.y) = qy - (s.y + T * d.y + 1 / (1204 * 1024) * n.y) by ring]
  · simp only [Vec.sub]
    rwa [show qz - c.z - (s.z + T * d.z - c.z + 1 / (1204 * 1024) * n.z) = qz - (s.z + T * d.z + 1 / (1204 * 1024) * n.z) by ring]

/-- The difference of two vectors is at least as long as the difference of their lengths. -/
theorem sub_len {u w : Vec ℝ} {U W : ℝ} (hW : 0 ≤ W) (hUW : W ≤ U) (hu : U ^ 2 ≤ u.x ^ 2 + u.y ^ 2 + u.z ^ 2)
    (hw : w.x ^ 2 + w.y ^ 2 + w.z ^ 2 ≤ W ^ 2) :
    (U - W) ^ 2 ≤ (u.x - w.x) ^ 2 + (u.y - w.y) ^ 2 + (u.z - w.z) ^ 2 := by
  have hcs := dot_sq_le u w
  set A := Real.sqrt (u.x ^ 2 + u.y ^ 2 + u.z ^ 2) with hA
  set B := Real.sqrt (w.x ^ 2 + w.y ^ 2 + w.z ^ 2) with hB
  have a2 : A ^ 2 = u.x ^ 2 + u.y ^ 2 + u.z ^ 2 := Real.sq_sqrt (by positivity)
  have b2 : B ^ 2 = w.x ^ 2 + w.y ^ 2 + w.z ^ 2 := Real.sq_sqrt (by positivity)
  have a0 : 0 ≤ A := Real.sqrt_nonneg _
  have b0 : 0 ≤ B := Real.sqrt_nonneg _
  have hUA : U ≤ A := le_of_sq_le_sq (by rw [a2]; exact hu) a0
  have hBW : B ≤ W := le_of_sq_le_sq (by rw [b2]; exact hw) hW
  have hdot : u.x * w.x + u.y * w.y + u.z * w.z ≤ A * B := by
    refine le_of_sq_le_sq ?_ (mul_nonneg a0 b0)
    rw [mul_pow, a2, b2]
    linarith
  have h1 : (U - W) ^ 2 ≤ (A - B) ^ 2 := pow_le_pow_left₀ (by linarith) (by linarith) 2
  nlinarith

/-- A lamp clear of the ball. -/
structure Clear (c : Vec ℝ) (R : ℝ) (pos : Vec Flo) (L : Vec ℝ) : Prop where
  is : pos.FIs L
  bound : |L.x| ≤ 1024 ∧ |L.y| ≤ 1024 ∧ |L.z| ≤ 1024
  apart : (R + 1 / 1024) ^ 2 ≤ (L.x - c.x) ^ 2 + (L.y - c.y) ^ 2 + (L.z - c.z) ^ 2

/-- A normalised vector is nearly of length one. -/
theorem normalized_unit {v : Vec Flo} {w : Vec ℝ} (h : v.FIs w) (hlo : 1 / 2 ^ 24 ≤ w.x ^ 2 + w.y ^ 2 + w.z ^ 2)
    (hhi : w.x ^ 2 + w.y ^ 2 + w.z ^ 2 ≤ 2 ^ 24) :
    ∃ l : Vec ℝ, v.normalized.FIs l ∧ (|l.x| ≤ 1.01 ∧ |l.y| ≤ 1.01 ∧ |l.z| ≤ 1.01) ∧ 0.9 ≤ quadA l ∧ quadA l ≤ 2 := by
  have g2 : Real.sqrt (w.x ^ 2 + w.y ^ 2 + w.z ^ 2) ^ 2 = w.x ^ 2 + w.y ^ 2 + w.z ^ 2 := Real.sq_sqrt (by positivity)
  obtain ⟨l, κ', hdir, hκ', hunit, hpx, hpy, hpz⟩ := normalized_is h (g := Real.sqrt (w.x ^ 2 + w.y ^ 2 + w.z ^ 2))
    (Real.le_sqrt_of_sq_le (le_trans (by norm_num) hlo))
    (by rw [Real.sqrt_le_left (by norm_num)]; exact hhi.trans (by norm_num)) g2
  have hG0 : 0 ≤ Real.sqrt (w.x ^ 2 + w.y ^ 2 + w.z ^ 2) := Real.sqrt_nonneg _
  clear hlo hhi
  generalize Real.sqrt (w.x ^ 2 + w.y ^ 2 + w.z ^ 2) = G at *
  have kl : ∀ {x : ℝ}, x ^ 2 ≤ G ^ 2 → |κ' * x| ≤ 1.001 := by
    intro x hx
    rw [abs_mul, abs_of_pos hκ']
    refine (mul_le_mul_of_nonneg_left (abs_le_of_sq_le_sq hx hG0) hκ'.le).trans ?_
    have := (abs_le.1 hunit).2
    norm_num at *
    linarith
  have cl : ∀ {x y : ℝ}, |y - κ' * x| ≤ 1 / 2 ^ 50 → |κ' * x| ≤ 1.001 → |y| ≤ 1.01 := by
    intro x y h1 h2
    rw [abs_le] at *
    norm_num at *
    constructor <;> linarith
  have kx := kl (x := w.x) (by rw [g2]; nlinarith [sq_nonneg w.y, sq_nonneg w.z])
  have ky := kl (x := w.y) (by rw [g2]; nlinarith [sq_nonneg w.x, sq_nonneg w.z])
  have kz := kl (x := w.z) (by rw [g2]; nlinarith [sq_nonneg w.x, sq_nonneg w.y])
  refine ⟨l, hdir, ⟨cl hpx kx, cl hpy ky, cl hpz kz⟩, ?_⟩
  have q1 := dot_le (a := ⟨κ' * w.x, κ' * w.y, κ' * w.z⟩) (b := ⟨l.x - κ' * w.x, l.y - κ' * w.y, l.z - κ' * w.z⟩) ⟨kx, ky, kz⟩ ⟨hpx, hpy, hpz⟩
  have q2 := dot_le (a := ⟨l.x - κ' * w.x, l.y - κ' * w.y, l.z - κ' * w.z⟩) (b := ⟨l.x - κ' * w.x, l.y - κ' * w.y, l.z - κ' * w.z⟩)
    ⟨hpx, hpy, hpz⟩ ⟨hpx, hpy, hpz⟩
  simp only at q1 q2
  have e3 : quadA l = (κ' * G) ^ 2 + 2 * (κ' * w.x * (l.x - κ' * w.x) + κ' * w.y * (l.y - κ' * w.y) + κ' * w.z * (l.z - κ' * w.z)) +
      ((l.x - κ' * w.x) * (l.x - κ' * w.x) + (l.y - κ' * w.y) * (l.y - κ' * w.y) + (l.z - κ' * w.z) * (l.z - κ' * w.z)) := by
    rw [mul_pow, g2]
    unfold quadA; ring
  rw [e3]
  generalize (κ' * w.x * (l.x - κ' * w.x) + κ' * w.y * (l.y - κ' * w.y) + κ' * w.z * (l.z - κ' * w.z)) = Y at *
  generalize ((l.x - κ' * w.x) * (l.x - κ' * w.x) + (l.y - κ' * w.y) * (l.y - κ' * w.y) + (l.z - κ' * w.z) * (l.z - κ' * w.z)) = Z at *
  generalize κ' * G = K at *
  have hK : 0.99 ≤ K ∧ K ≤ 1.01 := by
    rw [abs_le] at hunit
    norm_num at hunit ⊢
    constructor <;> linarith
  rw [abs_le] at q1 q2
  norm_num at q1 q2 hK ⊢
  constructor <;> nlinarith

/-- The vector from the point to the lamp. -/
theorem delta_is {pos p' : Vec Flo} {L p : Vec ℝ} (hL : pos.FIs L) (hp : p'.FIs p)
    (hLb : |L.x| ≤ 1024 ∧ |L.y| ≤ 1024 ∧ |L.z| ≤ 1024) (hpb : |p.x| ≤ 130 ∧ |p.y| ≤ 130 ∧ |p.z| ≤ 130)
    (hbig : 1 / 2 ^ 23 ≤ (L.x - p.x) ^ 2 + (L.y - p.y) ^ 2 + (L.z - p.z) ^ 2) :
    ∃ w : Vec ℝ, (pos.sub p').FIs w ∧ 1 / 2 ^ 24 ≤ w.x ^ 2 + w.y ^ 2 + w.z ^ 2 ∧ w.x ^ 2 + w.y ^ 2 + w.z ^ 2 ≤ 2 ^ 24 := by
  have dl : ∀ {e f : Flo} {x y : ℝ}, e.Is x → f.Is y → |x| ≤ 1024 → |y| ≤ 130 →
      ∃ z, (e - f).Is z ∧ |z - (x - y)| ≤ 1 / 2 ^ 42 ∧ |x - y| ≤ 1154 := by
    intro e f x y he hf hx hy
    have := (he.near hx).sub (1 / 2 ^ 42) 1154 (hf.near hy)
    exact ⟨_, this.1.choose_spec.1, this.1.choose_spec.2, this.2⟩
  obtain ⟨wx, ix, ex, bx⟩ := dl hL.1 hp.1 hLb.1 hpb.1
  obtain ⟨wy, iy, ey, bY⟩ := dl hL.2.1 hp.2.1 hLb.2.1 hpb.2.1
  obtain ⟨wz, iz, ez, bz⟩ := dl hL.2.2 hp.2.2 hLb.2.2 hpb.2.2
  refine ⟨⟨wx, wy, wz⟩, ⟨ix, iy, iz⟩, ?_⟩
  have hdot := dot_le (a := L.sub p) (b := ⟨wx - (L.x - p.x), wy - (L.y - p.y), wz - (L.z - p.z)⟩) ⟨bx, bY, bz⟩ ⟨ex, ey, ez⟩
  have hsq := dot_le (a := ⟨wx - (L.x - p.x), wy - (L.y - p.y), wz - (L.z - p.z)⟩)
    (b := ⟨wx - (L.x - p.x), wy - (L.y - p.y), wz - (L.z - p.z)⟩) ⟨ex, ey, ez⟩ ⟨ex, ey, ez⟩
  have hLL := dot_le (a := L.sub p) (b := L.sub p) ⟨bx, bY, bz⟩ ⟨bx, bY, bz⟩
  simp only [Vec.sub] at hdot hsq hLL
  have e : wx ^ 2 + wy ^ 2 + wz ^ 2 = ((L.x - p.x) * (L.x - p.x) + (L.y - p.y) * (L.y - p.y) + (L.z - p.z) * (L.z - p.z)) +
      2 * ((L.x - p.x) * (wx - (L.x - p.x)) + (L.y - p.y) * (wy - (L.y - p.y)) + (L.z - p.z) * (wz - (L.z - p.z))) +
      ((wx - (L.x - p.x)) * (wx - (L.x - p.x)) + (wy - (L.y - p.y)) * (wy - (L.y - p.y)) + (wz - (L.z - p.z)) * (wz - (L.z - p.z))) := by
    ring
  have e' : (L.x - p.x) ^ 2 + (L.y - p.y) ^ 2 + (L.z - p.z) ^ 2 =
      (L.x - p.x) * (L.x - p.x) + (L.y - p.y) * (L.y - p.y) + (L.z - p.z) * (L.z - p.z) := by ring
  simp only
  rw [e]
  rw [e'] at hbig
  clear e e' ex ey ez bx bY bz hLb hpb
  generalize (L.x - p.x) * (L.x - p.x) + (L.y - p.y) * (L.y - p.y) + (L.z - p.z) * (L.z - p.z) = X at *
  generalize ((L.x - p.x) * (wx - (L.x - p.x)) + (L.y - p.y) * (wy - (L.y - p.y)) + (L.z - p.z) * (wz - (L.z - p.z))) = Y at *
  generalize ((wx - (L.x - p.x)) * (wx - (L.x - p.x)) + (wy - (L.y - p.y)) * (wy - (L.y - p.y)) + (wz - (L.z - p.z)) * (wz - (L.z - p.z))) = Z at *
  rw [abs_le] at hdot hsq hLL
  norm_num at hdot hsq hLL hbig ⊢
  constructor <;> linarith

/-- A computed positive cosine. -/
theorem dot_pos {l' n' : Vec Flo} {l n : Vec ℝ} (hl : l'.FIs l) (hn : n'.FIs n) (lb : |l.x| ≤ 1.01 ∧ |l.y| ≤ 1.01 ∧ |l.z| ≤ 1.01)
    (nb : |n.x| ≤ 1.01 ∧ |n.y| ≤ 1.01 ∧ |n.z| ≤ 1.01) (hcos : (l'.dot n' <=. lit 0) = false) :
    -(1 / 2 ^ 48) ≤ l.x * n.x + l.y * n.y + l.z * n.z := by
  have t1 := (hl.1.near lb.1).mul (1.03 / 2 ^ 53) 1.03 (hn.1.near nb.1)
  have t2 := (hl.2.1.near lb.2.1).mul (1.03 / 2 ^ 53) 1.03 (hn.2.1.near nb.2.1)
  have t3 := (hl.2.2.near lb.2.2).mul (1.03 / 2 ^ 53) 1.03 (hn.2.2.near nb.2.2)
  obtain ⟨⟨θ, hθ, eθ⟩, -⟩ := (t1.add (5 / 2 ^ 53) 2.06 t2).add (1 / 2 ^ 48) 4 t3
  have := le_flo (a := l'.dot n') hθ flo_zero
  rw [hcos] at this
  have hpos : 0 < θ := by simpa using this.symm
  rw [abs_le] at eθ
  linarith

/-- The shadow ray from a point of the ball to a lamp on the outer side misses the ball. -/
theorem shadow_misses {m : Option M} {diam : Flo} {center : Vec Flo} {c : Vec ℝ} {R : ℝ} (hcen : center.FIs c)
    (hc : |c.x| ≤ 64 ∧ |c.y| ≤ 64 ∧ |c.z| ≤ 64) (hdiam : diam.Is (2 * R)) {a ν n : Vec ℝ} {κ g : ℝ}
    (hl : Leaving R a ν n κ g) {p' n' : Vec Flo} {p : Vec ℝ} (hn : n'.FIs n) (hp : p'.FIs p)
    (hw : |(p.sub c).x - (a.x + 1 / (1204 * 1024) * n.x)| ≤ 1 / 2 ^ 40 ∧
      |(p.sub c).y - (a.y + 1 / (1204 * 1024) * n.y)| ≤ 1 / 2 ^ 40 ∧
      |(p.sub c).z - (a.z + 1 / (1204 * 1024) * n.z)| ≤ 1 / 2 ^ 40) {pos : Vec Flo} {L : Vec ℝ} (hL : Clear c R pos L)
    (hcos : ((pos.sub p').normalized.dot n' <=. lit 0) = false) :
    (Obj.sphereQ m diam center).hit ⟨p', (pos.sub p').normalized⟩ = HitRecord.miss := by
  obtain ⟨hw2, wx, wy, wz⟩ := hl.near hw
  have hlo := hl.lo
  have hR0 : 0 ≤ R := le_trans (by norm_num) hlo
  simp only [Vec.sub] at wx wy wz
  have hbig := sub_len (u := L.sub c) (w := p.sub c) (U := R + 1 / 1024) (W := R + 1 / 2 ^ 16) (by positivity)
    (by norm_num) hL.apart hw2
  simp only [Vec.sub] at hbig
  have pb : ∀ {x y : ℝ}, |x - y| ≤ 66 → |y| ≤ 64 → |x| ≤ 130 := by
    intro x y h1 h2
    rw [abs_le] at *
    constructor <;> linarith
  obtain ⟨w, hd, hg1, hg2⟩ := delta_is hL.is hp hL.bound ⟨pb wx hc.1, pb wy hc.2.1, pb wz hc.2.2⟩ (by
    rw [show R + 1 / 1024 - (R + 1 / 2 ^ 16) = 1 / 1024 - 1 / 2 ^ 16 by ring] at hbig
    rw [show L.x - p.x = L.x - c.x - (p.x - c.x) by ring, show L.y - p.y = L.y - c.y - (p.y - c.y) by ring,
      show L.z - p.z = L.z - c.z - (p.z - c.z) by ring]
    exact le_trans (by norm_num) hbig)
  obtain ⟨l, hdir, hlc, hA1, hA2⟩ := normalized_unit hd hg1 hg2
  have hdotc := dot_pos hdir hn hlc hl.ncomp hcos
  have haway := hl.away hw hlc hdotc
  have hout := hl.outside hw
  simp only [Vec.sub] at haway hout
  refine miss_of (s := p) (d := l) (c := c) (R := R) ⟨hp, hdir, hcen, hdiam, hR0, hl.hi,
    le_trans (by norm_num) hA1, hA2, wx.trans (by norm_num), wy.trans (by norm_num), wz.trans (by norm_num)⟩ hA1 ?_ ?_
  · unfold quadB
    clear hw hw2 hbig hout hg1 hg2
    norm_num at haway ⊢
    linarith
  · unfold quadC
    have : (p.x - c.x) * (p.x - c.x) + (p.y - c.y) * (p.y - c.y) + (p.z - c.z) * (p.z - c.z) - R * R =
      (p.x - c.x) ^ 2 + (p.y - c.y) ^ 2 + (p.z - c.z) ^ 2 - R ^ 2 := by ring
    rw [this]; exact hout

end Ball

end BR
