import Verif.Lemmas.Geom
import Verif.Lemmas.ExtIs
import Verif.Model.Construct

/-!
C25: sphere and cylinder hits are the first forward crossings of the surface.
-/

namespace BR

variable {M : Type}

/-- `t` is the first positive parameter with property `P`. -/
def IsFirst (P : ℝ → Prop) (t : ℝ) : Prop := (0 < t ∧ P t) ∧ ∀ t', 0 < t' → P t' → t ≤ t'

/-- The value `a₀x² + a₁y² + a₂z²` relative to the origin of the quadric. -/
def Quadric.value (s : Quadric ℝ M) (p : Vec ℝ) : ℝ :=
  s.a.x * (p.x - s.origin.x) ^ 2 + s.a.y * (p.y - s.origin.y) ^ 2 + s.a.z * (p.z - s.origin.z) ^ 2

/-- The second derivative of the value along the ray, halved. -/
def Quadric.lead (s : Quadric ℝ M) (d : Vec ℝ) : ℝ := s.a.x * d.x ^ 2 + s.a.y * d.y ^ 2 + s.a.z * d.z ^ 2

private theorem roots {A B C t : ℝ} (hA : A ≠ 0) (hD : 0 ≤ B * B - 4 * A * C) :
    A * t ^ 2 + B * t + C = 0 ↔
      t = (-B - Real.sqrt (B * B - 4 * A * C)) / (2 * A) ∨ t = (-B + Real.sqrt (B * B - 4 * A * C)) / (2 * A) := by
  set V := Real.sqrt (B * B - 4 * A * C)
  have hV : V * V = B * B - 4 * A * C := Real.mul_self_sqrt hD
  have h2 : 2 * A ≠ 0 := mul_ne_zero two_ne_zero hA
  rw [eq_div_iff h2, eq_div_iff h2]
  have e : 4 * A * (A * t ^ 2 + B * t + C) = (t * (2 * A) - (-B - V)) * (t * (2 * A) - (-B + V)) := by
    linear_combination hV
  constructor
  · intro h
    rw [h, mul_zero] at e
    rcases mul_eq_zero.1 e.symm with h | h
    · exact .inl (by linarith)
    · exact .inr (by linarith)
  · intro h
    have : 4 * A * (A * t ^ 2 + B * t + C) = 0 := by
      rw [e]
      rcases h with h | h <;> rw [h] <;> ring
    exact (mul_eq_zero.1 this).resolve_left (mul_ne_zero four_ne_zero hA)

/-- For every quadric and every ray along which it is really quadratic: the hit is the first positive parameter where
the ray is on the surface and inside the bounds, and there is a miss exactly if there is none. -/
theorem C25_quadric (s : Quadric ℝ M) (r : Ray ℝ) (hA : s.lead r.dir ≠ 0) :
    let P : ℝ → Prop := fun t => s.value (r.at t) = s.b ∧ s.bounds.inside (r.at t) = true
    (∃ t, IsFirst P t ∧ s.hit r = s.record r t) ∨ ((∀ t, 0 < t → ¬ P t) ∧ s.hit r = HitRecord.miss) := by
  intro P
  obtain ⟨A, hAd⟩ : ∃ A, A = (s.coeffs r).1 := ⟨_, rfl⟩
  obtain ⟨B, hBd⟩ : ∃ B, B = (s.coeffs r).2.1 := ⟨_, rfl⟩
  obtain ⟨C, hCd⟩ : ∃ C, C = (s.coeffs r).2.2 := ⟨_, rfl⟩
  have hA0 : A ≠ 0 := by
    have : A = s.lead r.dir := by rw [hAd]; simp only [Quadric.coeffs, Quadric.lead]; ring
    rw [this]; exact hA
  have hval : ∀ t, s.value (r.at t) = s.b ↔ A * t ^ 2 + B * t + C = 0 := by
    intro t
    have : s.value (r.at t) - s.b = A * t ^ 2 + B * t + C := by
      rw [hAd, hBd, hCd]
      simp only [Quadric.coeffs, Quadric.value, lit_real, geo]
      push_cast
      ring
    rw [← this, sub_eq_zero]
  have hco : s.coeffs r = (A, B, C) := by rw [hAd, hBd, hCd]
  simp only [Quadric.hit, hco, lt_real, lit_real, sqrt_real, Rat.cast_zero, decide_eq_true_eq]
  push_cast
  by_cases hD : B * B - 4 * A * C < 0
  · rw [if_pos hD]
    refine .inr ⟨fun t _ hP => ?_, rfl⟩
    have := (hval t).1 hP.1
    have : B * B - 4 * A * C = (2 * A * t + B) ^ 2 := by linear_combination -4 * A * this
    nlinarith [sq_nonneg (2 * A * t + B)]
  · rw [if_neg hD]
    have hr := fun t => (hval t).trans (roots (t := t) hA0 (not_lt.1 hD))
    generalize (-B - Real.sqrt (B * B - 4 * A * C)) / (2 * A) = t1 at hr ⊢
    generalize (-B + Real.sqrt (B * B - 4 * A * C)) / (2 * A) = t2 at hr ⊢
    have hacc : ∀ t, s.accept r t = true ↔ 0 < t ∧ s.bounds.inside (r.at t) = true := by
      intro t; simp [Quadric.accept]
    -- with the roots in order
    have main : ∀ u v : ℝ, u ≤ v → (∀ t, s.value (r.at t) = s.b ↔ t = u ∨ t = v) →
        (∃ t, IsFirst P t ∧ (if s.accept r u = true then s.record r u
          else if s.accept r v = true then s.record r v else HitRecord.miss) = s.record r t) ∨
        ((∀ t, 0 < t → ¬ P t) ∧ (if s.accept r u = true then s.record r u
          else if s.accept r v = true then s.record r v else HitRecord.miss) = HitRecord.miss) := by
      intro u v huv hr
      by_cases h1 : s.accept r u = true
      · rw [if_pos h1]
        have h1' := (hacc u).1 h1
        refine .inl ⟨u, ⟨⟨h1'.1, (hr u).2 (.inl rfl), h1'.2⟩, ?_⟩, rfl⟩
        intro t' _ hP
        rcases (hr t').1 hP.1 with rfl | rfl
        · exact le_rfl
        · exact huv
      · rw [if_neg h1]
        by_cases h2 : s.accept r v = true
        · rw [if_pos h2]
          have h2' := (hacc v).1 h2
          refine .inl ⟨v, ⟨⟨h2'.1, (hr v).2 (.inr rfl), h2'.2⟩, ?_⟩, rfl⟩
          intro t' ht hP
          rcases (hr t').1 hP.1 with rfl | rfl
          · exact absurd ((hacc _).2 ⟨ht, hP.2⟩) h1
          · exact le_rfl
        · rw [if_neg h2]
          refine .inr ⟨fun t ht hP => ?_, rfl⟩
          rcases (hr t).1 hP.1 with rfl | rfl
          · exact h1 ((hacc _).2 ⟨ht, hP.2⟩)
          · exact h2 ((hacc _).2 ⟨ht, hP.2⟩)
    by_cases h : t2 < t1
    · rw [if_pos h]
      exact main t2 t1 h.le (fun t => (hr t).trans or_comm)
    · rw [if_neg h]
      exact main t1 t2 (not_lt.1 h) hr

/-- The distance between two points is `d`. -/
def AtDistance (p c : Vec ℝ) (d : ℝ) : Prop := (p.x - c.x) ^ 2 + (p.y - c.y) ^ 2 + (p.z - c.z) ^ 2 = d ^ 2 ∧ 0 ≤ d

private theorem tiny_pos : (0 : ℝ) < tiny := by
  simp only [tiny, lit_real]; push_cast; norm_num

/-- Spheres: the hit is the first forward crossing with the sphere, with outward normal and local coordinates relative
to the centre; a miss exactly if there is no forward crossing. -/
theorem C25_sphere (m : Option M) (diam : ℝ) (c : Vec ℝ) (hd : 0 ≤ diam) (r : Ray ℝ) (hr : r.dir ≠ Vec.zero) :
    (∃ t, IsFirst (fun t => AtDistance (r.at t) c (diam / 2)) t ∧
      (Obj.sphereQ m diam c).hit r = ⟨t, (r.at t).sub c, (r.at t).sub c, m⟩) ∨
    ((∀ t, 0 < t → ¬ AtDistance (r.at t) c (diam / 2)) ∧ (Obj.sphereQ m diam c).hit r = HitRecord.miss) := by
  have hA : (Obj.sphereQ m diam c).lead r.dir ≠ 0 := by
    intro h
    apply hr
    simp only [Quadric.lead, Obj.sphereQ, lit_real] at h
    push_cast at h
    have hx := sq_nonneg r.dir.x
    have hy := sq_nonneg r.dir.y
    have hz := sq_nonneg r.dir.z
    simp only [geo, lit_real]
    push_cast
    exact ⟨pow_eq_zero_iff two_ne_zero |>.1 (by linarith), pow_eq_zero_iff two_ne_zero |>.1 (by linarith),
      pow_eq_zero_iff two_ne_zero |>.1 (by linarith)⟩
  have hP : ∀ p : Vec ℝ, ((Obj.sphereQ m diam c).value p = (Obj.sphereQ m diam c).b ∧
      (Obj.sphereQ m diam c).bounds.inside p = true) ↔ AtDistance p c (diam / 2) := by
    intro p
    have e : (Obj.sphereQ m diam c).value p = (Obj.sphereQ m diam c).b ↔ AtDistance p c (diam / 2) := by
      simp only [Quadric.value, Obj.sphereQ, lit_real, AtDistance]
      push_cast
      constructor
      · intro h; exact ⟨by linarith, by positivity⟩
      · intro h; linarith [h.1]
    refine ⟨fun h => e.1 h.1, fun h => ⟨e.2 h, ?_⟩⟩
    obtain ⟨h, -⟩ := h
    have ht := tiny_pos
    have hx := sq_nonneg (p.x - c.x)
    have hy := sq_nonneg (p.y - c.y)
    have hz := sq_nonneg (p.z - c.z)
    have key : ∀ u : ℝ, u ^ 2 ≤ (diam / 2) ^ 2 → -(diam / 2) ≤ u ∧ u ≤ diam / 2 := fun u hu =>
      abs_le.1 (abs_le_of_sq_le_sq hu (by positivity))
    have kx := key _ (by linarith : (p.x - c.x) ^ 2 ≤ _)
    have ky := key _ (by linarith : (p.y - c.y) ^ 2 ≤ _)
    have kz := key _ (by linarith : (p.z - c.z) ^ 2 ≤ _)
    simp only [Obj.sphereQ, BBox.withMargin, BBox.translated, BBox.inside, Vec.add, lt_real, Bool.and_eq_true,
      decide_eq_true_eq, lit_real]
    push_cast
    refine ⟨⟨⟨⟨⟨?_, ?_⟩, ?_⟩, ?_⟩, ?_⟩, ?_⟩ <;> linarith [kx.1, kx.2, ky.1, ky.2, kz.1, kz.2]
  have hrec : ∀ t, (Obj.sphereQ m diam c).record r t = ⟨t, (r.at t).sub c, (r.at t).sub c, m⟩ := by
    intro t
    simp only [Quadric.record, Quadric.normal, Obj.sphereQ, Vec.mul3, lit_real]
    push_cast
    simp only [one_mul]
  have := C25_quadric (Obj.sphereQ m diam c) r hA
  simp only [hP, hrec] at this
  exact this

/-- On the vertical tube of the given diameter around `c`, at a height strictly within the margin of its ends. -/
def OnTube (diam height : ℝ) (c p : Vec ℝ) : Prop :=
  (p.x - c.x) ^ 2 + (p.z - c.z) ^ 2 = (diam / 2) ^ 2 ∧ |p.y - c.y| < height / 2 + 1 / (1204 * 1024)

/-- Cylinders (open tubes): the hit is the first forward crossing with the tube (with a margin `Tiny` at the ends), for
every ray that is not vertical. -/
theorem C25_cylinder (m : Option M) (diam height : ℝ) (c : Vec ℝ) (hd : 0 ≤ diam) (r : Ray ℝ)
    (hr : r.dir.x ≠ 0 ∨ r.dir.z ≠ 0) :
    (∃ t, IsFirst (fun t => OnTube diam height c (r.at t)) t ∧
      (Obj.cylinderQ m diam height c).hit r = ⟨t, ⟨(r.at t).x - c.x, 0, (r.at t).z - c.z⟩, (r.at t).sub c, m⟩) ∨
    ((∀ t, 0 < t → ¬ OnTube diam height c (r.at t)) ∧ (Obj.cylinderQ m diam height c).hit r = HitRecord.miss) := by
  have hA : (Obj.cylinderQ m diam height c).lead r.dir ≠ 0 := by
    intro h
    simp only [Quadric.lead, Obj.cylinderQ, lit_real] at h
    push_cast at h
    have hx := sq_nonneg r.dir.x
    have hz := sq_nonneg r.dir.z
    rcases hr with hr | hr
    · exact hr (pow_eq_zero_iff two_ne_zero |>.1 (by linarith))
    · exact hr (pow_eq_zero_iff two_ne_zero |>.1 (by linarith))
  have hP : ∀ p : Vec ℝ, ((Obj.cylinderQ m diam height c).value p = (Obj.cylinderQ m diam height c).b ∧
      (Obj.cylinderQ m diam height c).bounds.inside p = true) ↔ OnTube diam height c p := by
    intro p
    have e : (Obj.cylinderQ m diam height c).value p = (Obj.cylinderQ m diam height c).b ↔
        (p.x - c.x) ^ 2 + (p.z - c.z) ^ 2 = (diam / 2) ^ 2 := by
      simp only [Quadric.value, Obj.cylinderQ, lit_real]
      push_cast
      constructor <;> intro h <;> linarith
    rw [e]
    refine and_congr_right fun h => ?_
    have ht : (tiny : ℝ) = 1 / (1204 * 1024) := by simp only [tiny, lit_real]; push_cast; norm_num
    have ht0 := tiny_pos
    have hx := sq_nonneg (p.x - c.x)
    have hz := sq_nonneg (p.z - c.z)
    have key : ∀ u : ℝ, u ^ 2 ≤ (diam / 2) ^ 2 → -(diam / 2) ≤ u ∧ u ≤ diam / 2 := fun u hu =>
      abs_le.1 (abs_le_of_sq_le_sq hu (by positivity))
    have kx := key _ (by linarith : (p.x - c.x) ^ 2 ≤ _)
    have kz := key _ (by linarith : (p.z - c.z) ^ 2 ≤ _)
    simp only [Obj.cylinderQ, BBox.withMargin, BBox.translated, BBox.inside, Vec.add, lt_real, Bool.and_eq_true,
      decide_eq_true_eq, lit_real, abs_lt]
    rw [← ht]
    push_cast
    constructor
    · rintro ⟨⟨⟨⟨⟨h1, h2⟩, h3⟩, h4⟩, h5⟩, h6⟩
      exact ⟨by linarith, by linarith⟩
    · rintro ⟨h1, h2⟩
      refine ⟨⟨⟨⟨⟨?_, ?_⟩, ?_⟩, ?_⟩, ?_⟩, ?_⟩ <;> linarith [kx.1, kx.2, kz.1, kz.2]
  have hrec : ∀ t, (Obj.cylinderQ m diam height c).record r t =
      ⟨t, ⟨(r.at t).x - c.x, 0, (r.at t).z - c.z⟩, (r.at t).sub c, m⟩ := by
    intro t
    simp only [Quadric.record, Quadric.normal, Obj.cylinderQ, Vec.mul3, lit_real, Vec.sub]
    push_cast
    simp only [one_mul, zero_mul]
  have := C25_quadric (Obj.cylinderQ m diam height c) r hA
  simp only [hP, hrec] at this
  exact this

/-- Cylinders along any axis are cylinders in permuted coordinates: the surface of `CylinderDir` is where the two other
coordinates are on the circle. -/
theorem C25_cylinderDir (m : Option M) (k : Fin 3) (diam height : ℝ) (c : Vec ℝ) (p : Vec ℝ) :
    (Obj.cylinderDirQ m k diam height c).value p = (Obj.cylinderDirQ m k diam height c).b ↔
      (p.x - c.x) ^ 2 + (p.y - c.y) ^ 2 + (p.z - c.z) ^ 2 - (p.get k - c.get k) ^ 2 = (diam / 2) ^ 2 := by
  fin_cases k <;>
  · simp only [Quadric.value, Obj.cylinderDirQ, Vec.set, Vec.get, lit_real]
    push_cast
    constructor <;> intro h <;> linarith

/-- On the tube along axis `k` of the given diameter around `c`, at a height strictly within the margin of its ends. -/
def OnTubeAlong (k : Fin 3) (diam height : ℝ) (c p : Vec ℝ) : Prop :=
  (p.x - c.x) ^ 2 + (p.y - c.y) ^ 2 + (p.z - c.z) ^ 2 - (p.get k - c.get k) ^ 2 = (diam / 2) ^ 2 ∧
    |p.get k - c.get k| < height / 2 + 1 / (1204 * 1024)

/-- Cylinders along any axis: the hit is the first forward crossing with the tube, for every ray that is not parallel to
the axis; the normal is the part of the vector from the centre across the axis. -/
theorem C25_cylinderAlong (m : Option M) (k : Fin 3) (diam height : ℝ) (c : Vec ℝ) (hd : 0 ≤ diam) (r : Ray ℝ)
    (hr : ∃ i, i ≠ k ∧ r.dir.get i ≠ 0) :
    (∃ t, IsFirst (fun t => OnTubeAlong k diam height c (r.at t)) t ∧
      (Obj.cylinderDirQ m k diam height c).hit r = ⟨t, ((r.at t).sub c).set k 0, (r.at t).sub c, m⟩) ∨
    ((∀ t, 0 < t → ¬ OnTubeAlong k diam height c (r.at t)) ∧ (Obj.cylinderDirQ m k diam height c).hit r = HitRecord.miss) := by
  have hA : (Obj.cylinderDirQ m k diam height c).lead r.dir ≠ 0 := by
    intro h
    obtain ⟨i, hi, hne⟩ := hr
    have hx := sq_nonneg r.dir.x
    have hy := sq_nonneg r.dir.y
    have hz := sq_nonneg r.dir.z
    apply hne
    apply (pow_eq_zero_iff two_ne_zero).1
    fin_cases k <;> fin_cases i <;>
      simp only [Quadric.lead, Obj.cylinderDirQ, Vec.set, Vec.get, lit_real] at h ⊢ <;> push_cast at h <;>
      first | exact absurd rfl hi | linarith
  have hP : ∀ p : Vec ℝ, ((Obj.cylinderDirQ m k diam height c).value p = (Obj.cylinderDirQ m k diam height c).b ∧
      (Obj.cylinderDirQ m k diam height c).bounds.inside p = true) ↔ OnTubeAlong k diam height c p := by
    intro p
    rw [C25_cylinderDir]
    refine and_congr_right fun h => ?_
    have ht : (tiny : ℝ) = 1 / (1204 * 1024) := by simp only [tiny, lit_real]; push_cast; norm_num
    have ht0 := tiny_pos
    have hx := sq_nonneg (p.x - c.x)
    have hy := sq_nonneg (p.y - c.y)
    have hz := sq_nonneg (p.z - c.z)
    have key : ∀ u : ℝ, u ^ 2 ≤ (diam / 2) ^ 2 → -(diam / 2) ≤ u ∧ u ≤ diam / 2 := fun u hu =>
      abs_le.1 (abs_le_of_sq_le_sq hu (by positivity))
    fin_cases k
    all_goals
      simp only [Obj.cylinderDirQ, BBox.withMargin, BBox.translated, BBox.inside, Vec.add, Vec.mul, Vec.set, Vec.get, lt_real,
        Bool.and_eq_true, decide_eq_true_eq, lit_real, abs_lt] at h ⊢
      rw [← ht]
      push_cast
    · have ky := key _ (by linarith : (p.y - c.y) ^ 2 ≤ _)
      have kz := key _ (by linarith : (p.z - c.z) ^ 2 ≤ _)
      constructor
      · rintro ⟨⟨⟨⟨⟨h1, h2⟩, h3⟩, h4⟩, h5⟩, h6⟩
        exact ⟨by linarith, by linarith⟩
      · rintro ⟨h1, h2⟩
        refine ⟨⟨⟨⟨⟨?_, ?_⟩, ?_⟩, ?_⟩, ?_⟩, ?_⟩ <;> linarith [ky.1, ky.2, kz.1, kz.2]
    · have kx := key _ (by linarith : (p.x - c.x) ^ 2 ≤ _)
      have kz := key _ (by linarith : (p.z - c.z) ^ 2 ≤ _)
      constructor
      · rintro ⟨⟨⟨⟨⟨h1, h2⟩, h3⟩, h4⟩, h5⟩, h6⟩
        exact ⟨by linarith, by linarith⟩
      · rintro ⟨h1, h2⟩
        refine ⟨⟨⟨⟨⟨?_, ?_⟩, ?_⟩, ?_⟩, ?_⟩, ?_⟩ <;> linarith [kx.1, kx.2, kz.1, kz.2]
    · have kx := key _ (by linarith : (p.x - c.x) ^ 2 ≤ _)
      have ky := key _ (by linarith : (p.y - c.y) ^ 2 ≤ _)
      constructor
      · rintro ⟨⟨⟨⟨⟨h1, h2⟩, h3⟩, h4⟩, h5⟩, h6⟩
        exact ⟨by linarith, by linarith⟩
      · rintro ⟨h1, h2⟩
        refine ⟨⟨⟨⟨⟨?_, ?_⟩, ?_⟩, ?_⟩, ?_⟩, ?_⟩ <;> linarith [kx.1, kx.2, ky.1, ky.2]
  have hrec : ∀ t, (Obj.cylinderDirQ m k diam height c).record r t = ⟨t, ((r.at t).sub c).set k 0, (r.at t).sub c, m⟩ := by
    intro t
    fin_cases k <;>
    · simp only [Quadric.record, Quadric.normal, Obj.cylinderDirQ, Vec.mul3, lit_real, Vec.sub, Vec.set]
      push_cast
      simp only [one_mul, zero_mul]
  have := C25_quadric (Obj.cylinderDirQ m k diam height c) r hA
  simp only [hP, hrec] at this
  exact this

/-- Points inside the sphere object are those nearer to the centre than the radius. -/
theorem C25_sphere_inside (m : Option M) (diam : ℝ) (c p : Vec ℝ) (hd : 0 ≤ diam) :
    (Obj.sphere m diam c).inside p = .ok (decide ((p.sub c).len < diam / 2)) := by
  have hl : (p.sub c).len < diam / 2 ↔ (p.x - c.x) ^ 2 + (p.y - c.y) ^ 2 + (p.z - c.z) ^ 2 < (diam / 2) ^ 2 := by
    have e : (p.sub c).len = Real.sqrt ((p.x - c.x) ^ 2 + (p.y - c.y) ^ 2 + (p.z - c.z) ^ 2) := by
      change Real.sqrt _ = Real.sqrt _
      congr 1
      simp only [Vec.sub]; ring
    rw [e]
    exact Real.sqrt_lt (by positivity) (by positivity)
  simp only [Obj.sphere, Obj.inside, Quadric.inside]
  congr 1
  rw [Bool.eq_iff_iff, decide_eq_true_eq, hl]
  have e : ((Obj.sphereQ m diam c).a.mul3 (p.sub (Obj.sphereQ m diam c).origin)).dot
      (p.sub (Obj.sphereQ m diam c).origin) = (p.x - c.x) ^ 2 + (p.y - c.y) ^ 2 + (p.z - c.z) ^ 2 := by
    simp only [Obj.sphereQ, Vec.mul3, Vec.dot, Vec.sub, lit_real]; push_cast; ring
  have e2 : (Obj.sphereQ m diam c).b = (diam / 2) ^ 2 := by
    simp only [Obj.sphereQ, lit_real]; push_cast; ring
  rw [e, e2]
  constructor
  · intro h
    split_ifs at h
    simpa using h
  · intro h
    have ht := tiny_pos
    have hx := sq_nonneg (p.x - c.x)
    have hy := sq_nonneg (p.y - c.y)
    have hz := sq_nonneg (p.z - c.z)
    have key : ∀ u : ℝ, u ^ 2 ≤ (diam / 2) ^ 2 → -(diam / 2) ≤ u ∧ u ≤ diam / 2 := fun u hu =>
      abs_le.1 (abs_le_of_sq_le_sq hu (by positivity))
    have kx := key _ (by linarith : (p.x - c.x) ^ 2 ≤ _)
    have ky := key _ (by linarith : (p.y - c.y) ^ 2 ≤ _)
    have kz := key _ (by linarith : (p.z - c.z) ^ 2 ≤ _)
    have hb : (Obj.sphereQ m diam c).bounds.inside p = true := by
      simp only [Obj.sphereQ, BBox.withMargin, BBox.translated, BBox.inside, Vec.add, lt_real, Bool.and_eq_true,
        decide_eq_true_eq, lit_real]
      push_cast
      refine ⟨⟨⟨⟨⟨?_, ?_⟩, ?_⟩, ?_⟩, ?_⟩, ?_⟩ <;> linarith [kx.1, kx.2, ky.1, ky.2, kz.1, kz.2]
    rw [hb]
    simpa using h

/-- Vertical rays never hit a vertical cylinder, in arithmetic with NaN: both roots are 0/0. -/
theorem C25_vertical (s : Quadric Ext M) (r : Ray Ext) (hA : (s.coeffs r).1.Is 0) (hB : (s.coeffs r).2.1.Is 0)
    (C : ℝ) (hC : (s.coeffs r).2.2.Is C) : s.hit r = HitRecord.miss := by
  obtain ⟨a, ha⟩ := hA
  obtain ⟨b, hb⟩ := hB
  obtain ⟨c, hc⟩ := hC
  have hco : s.coeffs r = (.num 0 a, .num 0 b, .num C c) := by rw [← ha, ← hb, ← hc]
  have is0 : ∀ s, (Ext.num 0 s).Is 0 := fun s => ⟨s, rfl⟩
  have isC : (Ext.num C c).Is C := ⟨c, rfl⟩
  have hD : (Ext.num 0 b * Ext.num 0 b - lit 4 * Ext.num 0 a * Ext.num C c : Ext).Is 0 := by
    have := ((is0 b).mul (is0 b)).sub
      (((Ext.Is.lit 4).mul (is0 a)).mul isC)
    simpa using this
  obtain ⟨δ, hδ⟩ := hD
  have hV : ∃ ν, GoFloat.sqrt (Ext.num 0 δ) = Ext.num 0 ν := by
    change ∃ ν, (if (0 : ℝ) < 0 then Ext.nan else Ext.num (Real.sqrt 0) _) = _
    simp
  obtain ⟨ν, hν⟩ := hV
  have h2A : ∃ α, (lit 2 * Ext.num 0 a : Ext) = Ext.num 0 α := by
    have := (Ext.Is.lit 2).mul (is0 a)
    simpa [Ext.Is] using this
  obtain ⟨α, hα⟩ := h2A
  have hn1 : ∃ n, (-Ext.num 0 b - Ext.num 0 ν : Ext) = Ext.num 0 n := by
    have := ((is0 b).neg).sub (is0 ν)
    simpa [Ext.Is] using this
  have hn2 : ∃ n, (-Ext.num 0 b + Ext.num 0 ν : Ext) = Ext.num 0 n := by
    have := ((is0 b).neg).add (is0 ν)
    simpa [Ext.Is] using this
  obtain ⟨n1, hn1⟩ := hn1
  obtain ⟨n2, hn2⟩ := hn2
  simp only [Quadric.hit, hco, hδ, hν, hα, hn1, hn2, Ext.num_div_zero]
  simp [Quadric.accept]

/-- A ray through the unit sphere hits at distance 1. -/
example : ∃ t, IsFirst (fun t => AtDistance ((⟨⟨0, 0, 2⟩, ⟨0, 0, -1⟩⟩ : Ray ℝ).at t) ⟨0, 0, 0⟩ (2 / 2)) t := by
  refine ⟨1, ⟨⟨one_pos, ?_⟩, ?_⟩⟩
  · simp only [AtDistance, geo]; norm_num
  · intro t' _ h
    simp only [AtDistance, geo] at h
    have : (2 + t' * -1 - 0) ^ 2 = (1 : ℝ) := by linarith [h.1]
    nlinarith

/-- A ray from above meets a tube along the `x` axis at distance 1, unless it passes beyond its ends. -/
example : IsFirst (fun t => OnTubeAlong 0 2 6 ⟨0, 0, 0⟩ ((⟨⟨2, 2, 0⟩, ⟨0, -1, 0⟩⟩ : Ray ℝ).at t)) 1 ∧
    ∀ t, ¬ OnTubeAlong 0 2 6 ⟨0, 0, 0⟩ ((⟨⟨4, 2, 0⟩, ⟨0, -1, 0⟩⟩ : Ray ℝ).at t) := by
  refine ⟨⟨⟨one_pos, ?_⟩, ?_⟩, ?_⟩
  · simp only [OnTubeAlong, geo, Vec.get]; norm_num
  · intro t' _ h
    simp only [OnTubeAlong, geo, Vec.get] at h
    nlinarith [h.1]
  · intro t h
    simp only [OnTubeAlong, geo, Vec.get] at h
    have := h.2
    norm_num at this

end BR
