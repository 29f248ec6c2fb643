import Verif.Spec.Ball
import Verif.Lemmas.BallShadow

/-! C86: in double precision, balls are seen where they are. -/

namespace BR

variable {M : Type}

open Ball

theorem Looking.sized {r : Ray Flo} {diam : Flo} {center : Vec Flo} {s d c : Vec ℝ} {R : ℝ} (h : Looking r diam center s d c R) :
    Sized diam center r s d c R := by
  have hA : quadA d = d.x ^ 2 + d.y ^ 2 + d.z ^ 2 := by unfold quadA; ring
  have far : ∀ {x y : ℝ}, |x| ≤ 64 → |y| ≤ 64 → |x - y| ≤ 128 := by
    intro x y h1 h2
    rw [abs_le] at *
    constructor <;> linarith
  exact ⟨h.start, h.dir, h.center, h.diam, h.radius_nonneg, h.radius_le, hA ▸ h.long, hA ▸ h.short,
    far h.start_le.1 h.center_le.1, far h.start_le.2.1 h.center_le.2.1, far h.start_le.2.2 h.center_le.2.2⟩

theorem apart_sq (p q : Vec ℝ) : apart p q ^ 2 = (p.x - q.x) ^ 2 + (p.y - q.y) ^ 2 + (p.z - q.z) ^ 2 :=
  Real.sq_sqrt (by positivity)

private theorem apart_nonneg (p q : Vec ℝ) : 0 ≤ apart p q := Real.sqrt_nonneg _

theorem excess_apart (s d c : Vec ℝ) (R T : ℝ) : excess s d c R T = apart (along s d T) c ^ 2 - R ^ 2 := by
  rw [excess_eq, apart_sq]; rfl

/-- **C86, what is reported is there.** If a ball is reported as hit then the point of the ray at the reported distance,
in exact arithmetic, lies in front, and the square of its distance from the centre differs from the square of the radius
by at most `2^-28`; its distance from the centre therefore differs from the radius by at most `2^-28` over the radius. -/
theorem C86_on (m : Option M) (diam : Flo) (center : Vec Flo) (r : Ray Flo) (s d c : Vec ℝ) (R : ℝ)
    (h : Looking r diam center s d c R) (hit : HitRecord Flo M) (r' : Ray Flo)
    (he : (Obj.sphere m diam center).intersect r = .ok (hit, r')) (hpos : (hit.t >. lit 0) = true) :
    ∃ T, hit.t.Is T ∧ 0 < T ∧ |apart (along s d T) c ^ 2 - R ^ 2| ≤ 1 / 2 ^ 28 ∧
      |apart (along s d T) c - R| * R ≤ 1 / 2 ^ 28 ∧ hit.mat = m := by
  have he' : hit = (Obj.sphereQ m diam center).hit r := by
    have : (Obj.sphere m diam center).intersect r = .ok ((Obj.sphereQ m diam center).hit r, r) := rfl
    rw [this] at he
    cases he
    rfl
  rcases hit_sound (m := m) h.sized with e | ⟨t, T, ht, hT0, hT1, hx, e⟩
  · rw [he', e] at hpos
    have : ((lit 0 : Flo) <. lit 0) = true := hpos
    rw [Flo.lt_is flo_zero flo_zero] at this
    simp at this
  · rw [e] at he'
    rw [excess_apart] at hx
    refine ⟨T, by rw [he']; exact ht, hT0, hx, ?_, by rw [he']; rfl⟩
    have h0 := apart_nonneg (along s d T) c
    have hR := h.radius_nonneg
    have e2 : apart (along s d T) c ^ 2 - R ^ 2 = (apart (along s d T) c - R) * (apart (along s d T) c + R) := by ring
    rw [e2, abs_mul, abs_of_nonneg (by linarith : 0 ≤ apart (along s d T) c + R)] at hx
    exact (mul_le_mul_of_nonneg_left (by linarith) (abs_nonneg _)).trans hx

/-- **C86, nothing is reported where nothing is.** If the ray stays away from the surface, then no hit is reported. -/
theorem C86_missed (m : Option M) (diam : Flo) (center : Vec Flo) (r : Ray Flo) (s d c : Vec ℝ) (R : ℝ)
    (h : Looking r diam center s d c R) (hclear : ∀ T, 0 < T → 1 / 2 ^ 28 < |apart (along s d T) c ^ 2 - R ^ 2|) :
    (Obj.sphere m diam center).intersect r = .ok (HitRecord.miss, r) := by
  rcases hit_sound (m := m) h.sized with e | ⟨t, T, ht, hT0, hT1, hx, e⟩
  · change Except.ok ((Obj.sphereQ m diam center).hit r, r) = _
    rw [e]
  · rw [excess_apart] at hx
    exact absurd (hclear T hT0) (not_lt.2 hx)

/-- **C86, what is there is reported.** If the ray starts clearly outside or clearly inside the ball, and has a point
ahead that is clearly inside (the squares of the distances from the centre differ from the square of the radius by `2^-8`
or more), then the ball is reported as hit, at a parameter that differs by at most `2^-23` from the parameter `X` of the
first point ahead that is on the ball. -/
theorem C86_seen (m : Option M) (diam : Flo) (center : Vec Flo) (r : Ray Flo) (s d c : Vec ℝ) (R : ℝ)
    (h : Looking r diam center s d c R) (hstart : 1 / 2 ^ 8 ≤ |apart s c ^ 2 - R ^ 2|)
    (hin : ∃ T0, 0 < T0 ∧ apart (along s d T0) c ^ 2 ≤ R ^ 2 - 1 / 2 ^ 8) :
    ∃ hit, (Obj.sphere m diam center).intersect r = .ok (hit, r) ∧ hit.mat = m ∧ ∃ T X, hit.t.Is T ∧ 0 < T ∧ 0 < X ∧
      |T - X| ≤ 1 / 2 ^ 23 ∧ apart (along s d X) c = R ∧ ∀ T', 0 < T' → T' < X → apart (along s d T') c ≠ R := by
  obtain ⟨T0, hT0, hin⟩ := hin
  have w : ∀ {v : Vec ℝ}, Within 64 v → |v.x| ≤ 256 ∧ |v.y| ≤ 256 ∧ |v.z| ≤ 256 := by
    intro v hv
    exact ⟨hv.1.trans (by norm_num), hv.2.1.trans (by norm_num), hv.2.2.trans (by norm_num)⟩
  have e0 : along s d 0 = s := by simp [along]
  obtain ⟨t, T, X, ht, hT, hX, hTX, hon, hfirst, -, e⟩ := hit_complete (m := m) h.sized (w h.start_le) (w h.center_le) hT0
    (by rw [excess_apart]; linarith) (by rw [excess_apart, e0]; exact hstart)
  refine ⟨_, rfl, ?_, T, X, ?_, hT, hX, hTX, ?_, ?_⟩
  · rw [e]; rfl
  · rw [e]; exact ht
  · rw [excess_apart] at hon
    rw [← sq_eq_sq₀ (apart_nonneg _ _) h.radius_nonneg]
    linarith
  · intro T' h1 h2 he
    refine hfirst T' h1 h2 ?_
    rw [excess_apart, he]; ring

/-- **C86, normals and texture coordinates.** If a ball of radius at least 1/32 is reported as hit, then the normal handed
to the material differs by at most `2^-32` per coordinate from the unit vector that points away from the centre, and the
local coordinates by at most `2^-40` from the position relative to the centre. -/
theorem C86_normal (m : Option M) (diam : Flo) (center : Vec Flo) (r : Ray Flo) (s d c : Vec ℝ) (R : ℝ)
    (h : Looking r diam center s d c R) (hR : 1 / 32 ≤ R) (hit : HitRecord Flo M) (r' : Ray Flo)
    (he : (Obj.sphere m diam center).intersect r = .ok (hit, r')) (hpos : (hit.t >. lit 0) = true) :
    ∃ T n loc, hit.t.Is T ∧ hit.normal.normalized.FIs n ∧ hit.loc.FIs loc ∧
      Within (1 / 2 ^ 32) (n.sub (outward c (along s d T))) ∧ Within (1 / 2 ^ 40) (loc.sub ((along s d T).sub c)) := by
  have he' : hit = (Obj.sphereQ m diam center).hit r := by
    have : (Obj.sphere m diam center).intersect r = .ok ((Obj.sphereQ m diam center).hit r, r) := rfl
    rw [this] at he
    cases he
    rfl
  rcases hit_sound (m := m) h.sized with e | ⟨t, T, ht, hT0, hT1, hx, e⟩
  · rw [he', e] at hpos
    have : ((lit 0 : Flo) <. lit 0) = true := hpos
    rw [Flo.lt_is flo_zero flo_zero] at this
    simp at this
  · rw [e] at he'
    obtain ⟨a, ν, n, κ, g, p, hl, hn, ha, hν, ⟨loc, hloc, lx, ly, lz⟩, -⟩ :=
      leaving h.sized hR h.start_le h.center_le ht hT0 hT1 hx he'
    refine ⟨T, n, loc, by rw [he']; exact ht, hn, hloc, ?_, ?_⟩
    · have hu := hl.unit_near (A := apart (along s d T) c) (apart_nonneg _ _) (by rw [apart_sq, ha]; rfl)
      rw [ha] at hu
      exact hu
    · rw [ha] at lx ly lz
      exact ⟨lx, ly, lz⟩

theorem flo_int_is (n : ℤ) (h : |n| < 2 ^ 53) : (lit (n : ℚ) : Flo).Is n := by
  have hb : |(n : ℝ)| ≤ 2 ^ 200 := by
    have : (|n| : ℝ) ≤ 2 ^ 53 := by exact_mod_cast h.le
    exact this.trans (by norm_num)
  exact (Flo.lit_is n n 0 (by simp) h (by norm_num) (by simpa using hb)).of_eq (by simp)

/-- A view along the third axis of a ball of radius one around the origin. -/
theorem looking_example : Looking ⟨⟨lit 0, lit 0, lit (-3)⟩, ⟨lit 0, lit 0, lit 1⟩⟩ (lit 2) ⟨lit 0, lit 0, lit 0⟩
    ⟨0, 0, -3⟩ ⟨0, 0, 1⟩ ⟨0, 0, 0⟩ 1 := by
  have i0 := flo_int_is 0 (by norm_num)
  have i1 := flo_int_is 1 (by norm_num)
  have i2 := flo_int_is 2 (by norm_num)
  have i3 := flo_int_is (-3) (by norm_num)
  norm_num at i0 i1 i2 i3
  constructor
  · exact ⟨i0, i0, i3⟩
  · exact ⟨i0, i0, i1⟩
  · exact ⟨i0, i0, i0⟩
  · exact i2.of_eq (by norm_num)
  · norm_num [Within]
  · norm_num [Within]
  · norm_num
  · norm_num
  · norm_num
  · norm_num

/-- Such a view meets the conditions: the ball is reported near distance 2, on its surface and with the right normal. -/
example : ∃ hit, (Obj.sphere (none : Option Unit) (lit 2) ⟨lit 0, lit 0, lit 0⟩).intersect
    (⟨⟨lit 0, lit 0, lit (-3)⟩, ⟨lit 0, lit 0, lit 1⟩⟩ : Ray Flo) = .ok (hit, ⟨⟨lit 0, lit 0, lit (-3)⟩, ⟨lit 0, lit 0, lit 1⟩⟩) ∧
    (hit.t >. lit 0) = true ∧ ∃ T, hit.t.Is T ∧ |T - 2| ≤ 1 / 2 ^ 23 := by
  obtain ⟨hit, e, -, T, X, ht, hT, hX, hTX, hon, hfirst⟩ := C86_seen (none : Option Unit) _ _ _ _ _ _ _ looking_example
    (by rw [apart_sq]; norm_num [le_abs]) ⟨3, by norm_num, by rw [apart_sq]; norm_num [along]⟩
  refine ⟨hit, e, ?_, T, ht, ?_⟩
  · rw [show (hit.t >. lit 0) = (lit 0 <. hit.t) from rfl, Flo.lt_is flo_zero ht]
    exact decide_eq_true hT
  · have h2 : apart (along ⟨0, 0, -3⟩ ⟨0, 0, 1⟩ 2) ⟨0, 0, 0⟩ = 1 := by norm_num [apart, along]
    have hX2 : X = 2 := by
      rcases lt_trichotomy X 2 with h | h | h
      · have h3 : apart (along ⟨0, 0, -3⟩ ⟨0, 0, 1⟩ X) ⟨0, 0, 0⟩ ^ 2 = 1 ^ 2 := by rw [hon]
        rw [apart_sq] at h3
        norm_num [along] at h3
        rcases h3 with h3 | h3 <;> linarith
      · exact h
      · exact absurd h2 (hfirst 2 (by norm_num) h)
    rwa [hX2] at hTX

/-- … and a ray that passes the ball by at distance one is not reported. -/
example : (Obj.sphere (none : Option Unit) (lit 2) ⟨lit 0, lit 0, lit 0⟩).intersect
    (⟨⟨lit 0, lit 2, lit (-3)⟩, ⟨lit 0, lit 0, lit 1⟩⟩ : Ray Flo) =
      .ok (HitRecord.miss, ⟨⟨lit 0, lit 2, lit (-3)⟩, ⟨lit 0, lit 0, lit 1⟩⟩) := by
  have i2 := flo_int_is 2 (by norm_num)
  norm_num at i2
  refine C86_missed _ _ _ _ ⟨0, 2, -3⟩ ⟨0, 0, 1⟩ ⟨0, 0, 0⟩ 1 ?_ ?_
  · have h := looking_example
    exact ⟨⟨h.start.1, i2, h.start.2.2⟩, h.dir, h.center, h.diam, by norm_num [Within], h.center_le, h.radius_nonneg, h.radius_le,
      h.long, h.short⟩
  · intro T hT
    rw [apart_sq]
    rw [lt_abs]
    left
    norm_num [along]
    nlinarith [sq_nonneg (-3 + T)]

end BR
