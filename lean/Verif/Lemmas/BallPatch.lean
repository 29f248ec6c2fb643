import Verif.Lemmas.LampShade
import Verif.Props.C87_SelfShadow

/-! The point of a ball that is seen, and its normal, in double precision. -/

namespace BR
set_option linter.unusedSectionVars false

open Ball

/-- How much the direction from the centre changes from one point to another. -/
theorem outward_off {c A Q : Vec ℝ} {R δ : ℝ} (hQ : apart Q c = R) (hR : 1 / 32 ≤ R) (hA : apart A Q ≤ δ) (hδ : δ ≤ 1 / 64) :
    Within (64 * δ) ((outward c A).sub (outward c Q)) := by
  have h1 := Bounce.apart_tri A Q c
  rw [hQ] at h1
  have h2 := h1.trans hA
  have hr : 0 < apart A c := by rw [abs_le] at h2; linarith
  have hR0 : 0 < R := by linarith
  have key : ∀ {a q : ℝ}, |a| ≤ apart A c → |a - q| ≤ δ → |a / apart A c - q / R| ≤ 64 * δ := by
    intro a q ha haq
    rw [show a / apart A c - q / R = ((a - q) * apart A c - a * (apart A c - R)) / (apart A c * R) by field_simp; ring, abs_div,
      abs_of_pos (mul_pos hr hR0), div_le_iff₀ (mul_pos hr hR0)]
    have e1 : |(a - q) * apart A c| ≤ δ * apart A c := by
      rw [abs_mul, abs_of_pos hr]
      exact mul_le_mul_of_nonneg_right haq hr.le
    have e2 : |a * (apart A c - R)| ≤ apart A c * δ := by
      rw [abs_mul]
      exact mul_le_mul ha h2 (abs_nonneg _) hr.le
    have δ0 : 0 ≤ δ := (abs_nonneg _).trans haq
    have e3 := mul_le_mul_of_nonneg_left hR (mul_nonneg δ0 hr.le)
    refine (abs_sub _ _).trans ?_
    linarith
  obtain ⟨a1, a2, a3⟩ := apart_comp A c
  obtain ⟨b1, b2, b3⟩ := apart_comp A Q
  have hA' := hA
  unfold outward
  rw [hQ]
  refine ⟨key a1 ?_, key a2 ?_, key a3 ?_⟩
  · rw [show A.x - c.x - (Q.x - c.x) = A.x - Q.x by ring]; exact b1.trans hA
  · rw [show A.y - c.y - (Q.y - c.y) = A.y - Q.y by ring]; exact b2.trans hA
  · rw [show A.z - c.z - (Q.z - c.z) = A.z - Q.z by ring]; exact b3.trans hA

/-- Two points of a ray. -/
theorem along_apart {s d : Vec ℝ} (hd : d.x ^ 2 + d.y ^ 2 + d.z ^ 2 ≤ 2) {T X δ : ℝ} (h : |T - X| ≤ δ) :
    apart (along s d T) (along s d X) ≤ 3 / 2 * δ := by
  have h0 : 0 ≤ δ := (abs_nonneg _).trans h
  unfold apart along
  dsimp only
  rw [show (s.x + T * d.x - (s.x + X * d.x)) ^ 2 + (s.y + T * d.y - (s.y + X * d.y)) ^ 2 + (s.z + T * d.z - (s.z + X * d.z)) ^ 2 =
    (T - X) ^ 2 * (d.x ^ 2 + d.y ^ 2 + d.z ^ 2) by ring]
  refine Real.sqrt_le_iff.2 ⟨by positivity, ?_⟩
  have h1 : (T - X) ^ 2 ≤ δ ^ 2 := by
    rw [← sq_abs]
    exact pow_le_pow_left₀ (abs_nonneg _) h 2
  have := mul_le_mul h1 hd (by positivity) (sq_nonneg δ)
  nlinarith [sq_nonneg δ]

/-- The direction from the centre has length one. -/
theorem outward_unit {c Q : Vec ℝ} (h : 0 < apart Q c) :
    (outward c Q).x ^ 2 + (outward c Q).y ^ 2 + (outward c Q).z ^ 2 = 1 := by
  have hsq : apart Q c ^ 2 = (Q.x - c.x) ^ 2 + (Q.y - c.y) ^ 2 + (Q.z - c.z) ^ 2 := Real.sq_sqrt (by positivity)
  unfold outward
  dsimp only
  rw [div_pow, div_pow, div_pow, ← add_div, ← add_div, ← hsq, div_self (pow_pos h 2).ne']

/-- The step off the surface does not lead far. -/
theorem step_close {P A Q n u : Vec ℝ} (e : Within (1 / 2 ^ 35) (⟨P.x - (A.x + 1 / (1204 * 1024) * n.x), P.y - (A.y + 1 / (1204 * 1024) * n.y),
    P.z - (A.z + 1 / (1204 * 1024) * n.z)⟩ : Vec ℝ)) (hn : Within (1 / 2 ^ 32) (n.sub u)) (hu : u.x ^ 2 + u.y ^ 2 + u.z ^ 2 = 1)
    (hA : apart A Q ≤ 3 / 2 * (1 / 2 ^ 23)) : apart P Q ≤ 1 / 2 ^ 19 := by
  have hsq : apart A Q ^ 2 = (A.x - Q.x) ^ 2 + (A.y - Q.y) ^ 2 + (A.z - Q.z) ^ 2 := Real.sq_sqrt (by positivity)
  have hA2 : apart A Q ^ 2 ≤ (3 / 2 * (1 / 2 ^ 23)) ^ 2 := pow_le_pow_left₀ (Real.sqrt_nonneg _) hA 2
  rw [hsq] at hA2
  have key : ∀ {p a q n u : ℝ}, |p - (a + 1 / (1204 * 1024) * n)| ≤ 1 / 2 ^ 35 → |n - u| ≤ 1 / 2 ^ 32 →
      (p - q) ^ 2 ≤ 4 * ((a - q) ^ 2 + (1 / (1204 * 1024)) ^ 2 * u ^ 2 + 1 / 2 ^ 68) := by
    intro p a q n u h1 h2
    have h3 : |p - (a + 1 / (1204 * 1024) * u)| ≤ 1 / 2 ^ 34 := by
      rw [abs_le] at *
      norm_num at *
      constructor <;> linarith
    have h4 := pow_le_pow_left₀ (abs_nonneg _) h3 2
    rw [sq_abs] at h4
    have h5 : p - q = (p - (a + 1 / (1204 * 1024) * u)) + (a - q) + 1 / (1204 * 1024) * u := by ring
    rw [h5, ← mul_pow]
    generalize p - (a + 1 / (1204 * 1024) * u) = w at h4
    generalize a - q = y
    generalize 1 / (1204 * 1024) * u = z
    norm_num at h4 ⊢
    nlinarith [sq_nonneg (w - y), sq_nonneg (w - z), sq_nonneg (y - z), sq_nonneg y, sq_nonneg z]
  have k1 := key (q := Q.x) e.1 hn.1
  have k2 := key (q := Q.y) e.2.1 hn.2.1
  have k3 := key (q := Q.z) e.2.2 hn.2.2
  unfold apart
  refine Real.sqrt_le_iff.2 ⟨by positivity, ?_⟩
  norm_num at *
  nlinarith

/-- **The patch of a ball that is seen.** -/
theorem ball_patch {m : Option (Mat Flo)} {diam : Flo} {center : Vec Flo} {r : Ray Flo} {s d c : Vec ℝ} {R : ℝ}
    (h : Looking r diam center s d c R) (hR : 1 / 32 ≤ R) (hstart : R ^ 2 + 1 / 2 ^ 8 ≤ apart s c ^ 2)
    (hin : ∃ T0, 0 < T0 ∧ apart (along s d T0) c ^ 2 ≤ R ^ 2 - 1 / 2 ^ 8) {X : ℝ} (X0 : 0 < X) (hX : apart (along s d X) c = R)
    (hfirst : ∀ T', 0 < T' → T' < X → apart (along s d T') c ≠ R) (wQ : Within 63 (along s d X))
    {hit : HitRecord Flo (Mat Flo)} {r' : Ray Flo} (he : (Obj.sphere m diam center).intersect r = .ok (hit, r')) :
    (hit.t >. lit 0) = true ∧ (hit.normal.normalized.dot r.dir >. lit 0) = false ∧
    ∃ P n, Patch ((r.at hit.t).madd tiny hit.normal.normalized) hit.normal.normalized P n (along s d X) (outward c (along s d X)) ∧
      Within 64 P := by
  obtain ⟨hit1, he1, hpos, hface⟩ := C87_faces m diam center r s d c R h hR hstart hin
  obtain ⟨hit2, he2, -, T, X', hT, T0, X'0, hTX, hX', hfirst'⟩ := C86_seen m diam center r s d c R h
    (le_trans (by linarith) (le_abs_self _)) hin
  rw [he1] at he he2
  cases he
  cases he2
  have hXX : X' = X := by
    rcases lt_trichotomy X' X with hlt | heq | hgt
    · exact absurd hX' (hfirst X' X'0 hlt)
    · exact heq
    · exact absurd hX (hfirst' X X0 hgt)
  subst hXX
  refine ⟨hpos, hface, ?_⟩
  have he' : hit = (Obj.sphereQ m diam center).hit r := by
    have : (Obj.sphere m diam center).intersect r = .ok ((Obj.sphereQ m diam center).hit r, r) := rfl
    rw [this] at he1
    cases he1
    rfl
  rcases hit_sound (m := m) h.sized with e | ⟨t, T', ht, hT0, hT1, hx, e⟩
  · rw [he', e] at hpos
    have : ((lit 0 : Flo) <. lit 0) = true := hpos
    rw [Flo.lt_is flo_zero flo_zero] at this
    simp at this
  rw [e] at he'
  have htt : hit.t = t := by rw [he']; rfl
  have hTT : T' = T := by
    rw [htt] at hT
    obtain ⟨s1, e1⟩ := ht
    obtain ⟨s2, e2⟩ := hT
    exact (Ext.num.inj (e1.symm.trans e2)).1
  subst hTT
  obtain ⟨a, ν, n, κ, g, p, hl, hn, ha, -, -, hp, px, py, pz⟩ := leaving h.sized hR h.start_le h.center_le ht hT0 hT1 hx he'
  have hu := hl.unit_near (A := apart (along s d T') c) (apart_nonneg' _ _) (by rw [apart_sq, ha]; rfl)
  rw [ha] at hu
  replace hu : Within (1 / 2 ^ 32) (n.sub (outward c (along s d T'))) := hu
  have hA := along_apart (s := s) h.short hTX
  have hA0 : 0 < apart (along s d T') c := by
    have := Bounce.apart_tri (along s d T') (along s d X') c
    rw [hX', abs_le] at this
    norm_num at *
    linarith
  have hclose : apart p (along s d X') ≤ 1 / 2 ^ 19 := by
    refine step_close (A := along s d T') (n := n) ⟨?_, ?_, ?_⟩ hu (outward_unit hA0) hA
    · rw [ha] at px
      refine le_of_eq_of_le ?_ (px.trans (by norm_num : (1 : ℝ) / 2 ^ 40 ≤ 1 / 2 ^ 35))
      congr 1
      simp only [Vec.sub, along]
      ring
    · rw [ha] at py
      refine le_of_eq_of_le ?_ (py.trans (by norm_num : (1 : ℝ) / 2 ^ 40 ≤ 1 / 2 ^ 35))
      congr 1
      simp only [Vec.sub, along]
      ring
    · rw [ha] at pz
      refine le_of_eq_of_le ?_ (pz.trans (by norm_num : (1 : ℝ) / 2 ^ 40 ≤ 1 / 2 ^ 35))
      congr 1
      simp only [Vec.sub, along]
      ring
  have hoff := outward_off hX' hR hA (by norm_num)
  obtain ⟨c1, c2, c3⟩ := apart_comp p (along s d X')
  have wp : Within 64 p := by
    obtain ⟨w1, w2, w3⟩ := wQ
    refine ⟨?_, ?_, ?_⟩
    · rw [abs_le] at *
      norm_num at *
      constructor <;> linarith
    · rw [abs_le] at *
      norm_num at *
      constructor <;> linarith
    · rw [abs_le] at *
      norm_num at *
      constructor <;> linarith
  obtain ⟨u1, u2, u3⟩ := hu
  obtain ⟨o1, o2, o3⟩ := hoff
  simp only [Vec.sub] at u1 u2 u3 o1 o2 o3
  refine ⟨p, n, ⟨?_, hn, ⟨wp.1.trans (by norm_num), wp.2.1.trans (by norm_num), wp.2.2.trans (by norm_num)⟩, hclose,
    outward_unit (by rw [hX']; linarith), ?_, ?_, ?_⟩, wp⟩
  · rw [htt]; exact hp
  · rw [abs_le] at u1 o1 ⊢
    norm_num at u1 o1 ⊢
    constructor <;> linarith
  · rw [abs_le] at u2 o2 ⊢
    norm_num at u2 o2 ⊢
    constructor <;> linarith
  · rw [abs_le] at u3 o3 ⊢
    norm_num at u3 o3 ⊢
    constructor <;> linarith

end BR
