import Verif.Lemmas.ScreenErr
import Verif.Spec.Picture
import Verif.Lemmas.Geom
import Verif.Lemmas.ExtCam
import Mathlib.Analysis.SpecialFunctions.Trigonometric.Bounds

/-! In double precision: how far the rays of a camera are from the exact lines of sight. -/

namespace BR.Turn
open Bounce

/-! ## Places on the image -/

theorem half_off (n : ℤ) (hn : |n| ≤ 2 ^ 20) : roundBits 53 ((n : ℝ) / 2) = (n : ℝ) / 2 := by
  have := roundBits_exact 53 n (-1) (lt_of_le_of_lt hn (by norm_num)) (by norm_num)
  rw [show (n : ℝ) / 2 = n * (2 : ℝ) ^ (-1 : ℤ) by rw [zpow_neg_one]; ring]
  exact this

theorem sub_half {n : Nat} (hn : n ≤ 2 ^ 18) : (ofInt (n : Int) - lit (1 / 2) : Flo).Is (n - 1 / 2) := by
  have hR' : (n : ℝ) ≤ 2 ^ 18 * 1 := by rw [mul_one]; exact_mod_cast hn
  have h0 : (0 : ℝ) ≤ n := Nat.cast_nonneg _
  have h := Flo.sub_is (int_is n (hn.trans (by norm_num))) half_is (by rw [abs_le]; constructor <;> norm_num <;> linarith [(by norm_num : (2 : ℝ) ^ 18 = 262144)])
  have e := half_off (2 * n - 1) (by rw [abs_le]; constructor <;> omega)
  push_cast at e
  rw [show ((2 : ℝ) * n - 1) / 2 = n - 1 / 2 by ring] at e
  rwa [e] at h

theorem sub_mhalf {n : Nat} (hn : n ≤ 2 ^ 18) : (ofInt (n : Int) - lit (-1 / 2) : Flo).Is (n + 1 / 2) := by
  have hR' : (n : ℝ) ≤ 2 ^ 18 * 1 := by rw [mul_one]; exact_mod_cast hn
  have h0 : (0 : ℝ) ≤ n := Nat.cast_nonneg _
  have h := Flo.sub_is (int_is n (hn.trans (by norm_num))) mhalf_is (by rw [abs_le]; constructor <;> norm_num <;> linarith [(by norm_num : (2 : ℝ) ^ 18 = 262144)])
  have e := half_off (2 * n + 1) (by rw [abs_le]; constructor <;> omega)
  push_cast at e
  rw [show ((2 : ℝ) * n + 1) / 2 = n - -1 / 2 by ring] at e
  rw [e] at h
  exact h.of_eq (by ring)

theorem all_halves {n : Nat} (hn : n ≤ 2 ^ 18) : (ofInt (n : Int) - lit (1 / 2) - lit (-1 / 2) : Flo).Is n := by
  have hR' : (n : ℝ) ≤ 2 ^ 18 * 1 := by rw [mul_one]; exact_mod_cast hn
  have h0 : (0 : ℝ) ≤ n := Nat.cast_nonneg _
  have h := Flo.sub_is (sub_half hn) mhalf_is (by rw [abs_le]; constructor <;> norm_num <;> linarith [(by norm_num : (2 : ℝ) ^ 18 = 262144)])
  have e := half_off (2 * n) (by rw [abs_le]; constructor <;> omega)
  push_cast at e
  rw [show ((2 : ℝ) * n) / 2 = n - 1 / 2 - -1 / 2 by ring] at e
  rw [e] at h
  exact h.of_eq (by ring)

theorem linterp_near {n p : Nat} (hn : n ≤ 2 ^ 16) (hp : p < n) {y1 y2 : Flo} {a b : ℝ} (ha : y1.Near a (1 / 2 ^ 47) 9) (hb : y2.Near b (1 / 2 ^ 47) 9) :
    (linterp (lit (-1 / 2)) y1 (ofInt (n : Int) - lit (1 / 2)) y2 (ofInt (p : Int))).Near (a + (b - a) * ((p + 1 / 2) / n)) (0.9 / 2 ^ 28) 27 := by
  have hnR : (n : ℝ) ≤ 2 ^ 16 := by exact_mod_cast hn
  have h1 : (p : ℝ) + 1 ≤ n := by exact_mod_cast hp
  have h0 : (0 : ℝ) ≤ p := Nat.cast_nonneg _
  have d1 := (all_halves (n := n) (hn.trans (by norm_num))).near (b := 2 ^ 16) (by rw [abs_of_nonneg (by linarith)]; exact hnR)
  have d2 := (sub_mhalf (n := p) (by omega)).near (b := 2 ^ 16) (by rw [abs_of_nonneg (by linarith)]; linarith)
  have d3 := hb.sub (1 / 2 ^ 45) 18 ha
  have d4 := d3.mul (1.2 / 2 ^ 29) (18 * 2 ^ 16) d2
  have d5 := d4.div 1 (1.5 / 2 ^ 29) (18 * 2 ^ 16) d1 (by rw [abs_of_nonneg (by linarith)]; linarith)
  have hq : |(b - a) * (p + 1 / 2) / n| ≤ 18 := by
    rw [mul_div_assoc, abs_mul]
    have q : |((p : ℝ) + 1 / 2) / n| ≤ 1 := by
      rw [abs_of_nonneg (div_nonneg (by linarith) (by linarith)), div_le_one (by linarith)]
      linarith
    have := mul_le_mul d3.2 q (abs_nonneg _) (by norm_num)
    linarith
  exact (ha.add (0.9 / 2 ^ 28) 27 (d5.bound hq)).of_eq (by ring)

/-- The coordinates of the centre of a pixel. -/
theorem screen_near {w h : Nat} (hw : w ≤ 2 ^ 16) (hh : h ≤ 2 ^ 16) (hr : h ≤ 16 * w) {p : Nat × Nat} (hx : p.1 < w) (hy : p.2 < h) {uv : Flo × Flo}
    (e : indexToCam (w : Int) (h : Int) (ofInt p.1 : Flo) (ofInt p.2) = .ok uv) :
    uv.1.Near ((p.1 + 1 / 2) / w) (0.9 / 2 ^ 28) 27 ∧ uv.2.Near (1 / 2 + (h / 2 - (p.2 + 1 / 2)) / w) (0.9 / 2 ^ 28) 27 := by
  unfold indexToCam at e
  dsimp only at e
  split at e
  · cases e
  rw [Except.ok.injEq] at e
  subst e
  have hwR : (w : ℝ) ≤ 2 ^ 16 := by exact_mod_cast hw
  have hhR : (h : ℝ) ≤ 2 ^ 16 := by exact_mod_cast hh
  have hrR : (h : ℝ) ≤ 16 * w := by exact_mod_cast hr
  have w1 : (1 : ℝ) ≤ w := by exact_mod_cast (by omega : 1 ≤ w)
  have h1 : (1 : ℝ) ≤ h := by exact_mod_cast (by omega : 1 ≤ h)
  have half := half_is.near (b := 1 / 2) (by norm_num [abs_of_pos])
  have qb : |(h : ℝ) / w| ≤ 16 := by
    rw [abs_of_nonneg (div_nonneg (by linarith) (by linarith)), div_le_iff₀ (by linarith)]
    linarith
  have q' : ((ofInt (h : Int) : Flo) / ofInt (w : Int)).Near ((h : ℝ) / w) (17 / 2 ^ 53) 16 := by
    have hb200 : |(h : ℝ) / w| ≤ 2 ^ 200 := qb.trans (by norm_num)
    have hI := Flo.div_is (int_is h (hh.trans (by norm_num))) (int_is w (hw.trans (by norm_num))) (by linarith) hb200
    exact ⟨⟨_, hI, err_le (roundBits_err 53 (by norm_num) _) qb (by norm_num)⟩, qb⟩
  have m := half.mul (20 / 2 ^ 53) 8 q'
  refine ⟨?_, ?_⟩
  · exact (linterp_near hw hx (y1 := lit 0) (y2 := lit 1) ((Ball.flo_zero.near (b := 9) (by norm_num)).weaken (by norm_num) le_rfl)
      ((flo_lit_one.near (b := 9) (by norm_num)).weaken (by norm_num) le_rfl)).of_eq (by ring)
  · refine (linterp_near hh hy (half.add (1 / 2 ^ 47) 9 m) (half.sub (1 / 2 ^ 47) 9 m)).of_eq ?_
    field_simp
    ring

/-- The first member of the sequence for anti-aliasing. -/
theorem jitter_near {b : Nat} (h1 : 2 ≤ b) (h2 : b ≤ 8) {x : Flo} (ex : halton b 0 = .ok x) : (frac (x + lit 0)).Near (1 / b) (1 / 2 ^ 40) (1 / 2) := by
  have bR : (2 : ℝ) ≤ b := by exact_mod_cast h1
  have bR' : (b : ℝ) ≤ 8 := by exact_mod_cast h2
  have l1 : (1 : ℝ) / b ≤ 1 / 2 := one_div_le_one_div_of_le (by norm_num) bR
  have l2 : (1 : ℝ) / 8 ≤ 1 / b := one_div_le_one_div_of_le (by linarith) bR'
  obtain ⟨z, hz, ez⟩ := ((halton_first b h1 h2 ex).add (1 / 2 ^ 45) 1 (Ball.flo_zero.near (b := 0) (by norm_num))).1
  rw [add_zero] at ez
  generalize (1 : ℝ) / b = β at *
  have ez' := abs_le.1 ez
  norm_num at ez'
  have f0 : ⌊z⌋ = 0 := Int.floor_eq_zero_iff.2 ⟨by linarith, by linarith⟩
  have hf := floor_is hz
  rw [f0, Int.cast_zero] at hf
  obtain ⟨w, hw, e⟩ := (Flo.Is.sub_near (b := 1) (1 / 2 ^ 45) 1 hz hf (by rw [sub_zero, abs_le]; constructor <;> linarith)).1
  refine ⟨⟨w, hw, ?_⟩, by rw [abs_of_nonneg (by linarith)]; exact l1⟩
  rw [abs_le] at *
  norm_num at *
  constructor <;> linarith

theorem pixelSize_near {w h : Nat} (hw : w ≤ 2 ^ 16) (hh : h ≤ 2 ^ 16) (w0 : 0 < w) (h0 : 0 < h) :
    (pixelSize (w : Int) (h : Int) : Flo).Near (1 / min (w : ℝ) h) (1 / 2 ^ 50) 1 := by
  have one : ∀ n : Nat, 1 ≤ n → n ≤ 2 ^ 16 → ((lit 1 : Flo) / ofInt (n : Int)).Near (1 / n) (1 / 2 ^ 50) 1 := by
    intro n h1 h2
    have hR1 : (1 : ℝ) ≤ n := by exact_mod_cast h1
    have hb : |(1 : ℝ) / n| ≤ 1 := by
      rw [abs_of_nonneg (by positivity), div_le_one (by linarith)]; exact hR1
    have hI := Flo.div_is flo_lit_one (int_is n (h2.trans (by norm_num))) (by linarith) (hb.trans (by norm_num))
    exact ⟨⟨_, hI, err_le (roundBits_err 53 (by norm_num) (1 / (n : ℝ))) hb (by norm_num)⟩, hb⟩
  unfold pixelSize
  dsimp only
  rw [Flo.lt_is (int_is w (hw.trans (by norm_num))) (int_is h (hh.trans (by norm_num)))]
  by_cases hlt : (w : ℝ) < h
  · rw [if_pos (by simpa using hlt), min_eq_left hlt.le]
    exact one w w0 hw
  · rw [if_neg (by simpa using hlt), min_eq_right (not_lt.1 hlt)]
    exact one h h0 hh

/-- The point of the picture a pixel's ray goes through, with or without anti-aliasing. -/
theorem sample_near {w h : Nat} (hw : w ≤ 2 ^ 16) (hh : h ≤ 2 ^ 16) (hr : h ≤ 16 * w) {p : Nat × Nat} (hx : p.1 < w) (hy : p.2 < h) {uv : Flo × Flo}
    (e : indexToCam (w : Int) (h : Int) (ofInt p.1 : Flo) (ofInt p.2) = .ok uv) {shifts : List (Flo × Flo)} {j : Flo × Flo}
    (ej : (HaltonSeq.new 2 3 1 shifts).generate2 = .ok j) :
    (uv.1 + pixelSize w h * (j.1 - lit (1 / 2))).Near ((p.1 + 1 / 2) / w) (1 / 2 ^ 28) 27.5 ∧
      (uv.2 + pixelSize w h * (j.2 - lit (1 / 2))).Near (1 / 2 + (h / 2 - (sampleRow true w h p.2 + 1 / 2)) / w) (1 / 2 ^ 28) 27.5 := by
  obtain ⟨hu, hv⟩ := screen_near hw hh hr hx hy e
  unfold HaltonSeq.generate2 at ej
  obtain ⟨x, ex, ej⟩ := bind_eq_ok.1 ej
  obtain ⟨y, ey, ej⟩ := bind_eq_ok.1 ej
  simp only [pure_ok, Except.ok.injEq] at ej
  subst ej
  have w0 : 0 < w := by omega
  have h0 : 0 < h := by omega
  have ps := pixelSize_near hw hh w0 h0
  have half := half_is.near (b := 1 / 2) (by norm_num [abs_of_pos])
  have j1 : (frac (x + lit 0) - lit (1 / 2) : Flo).Near (1 / (2 : ℕ) - 1 / 2) (1 / 2 ^ 39) (1 / 2) :=
    ((jitter_near (b := 2) (by norm_num) (by norm_num) ex).sub (1 / 2 ^ 39) 1 half).bound (by norm_num)
  have j2 : (frac (y + lit 0) - lit (1 / 2) : Flo).Near (1 / (3 : ℕ) - 1 / 2) (1 / 2 ^ 39) (1 / 2) :=
    ((jitter_near (b := 3) (by norm_num) (by norm_num) ey).sub (1 / 2 ^ 39) 1 half).bound (by norm_num)
  have a1 := hu.add (1 / 2 ^ 28) 27.5 (ps.mul (1 / 2 ^ 38) (1 / 2) j1)
  have a2 := hv.add (1 / 2 ^ 28) 27.5 (ps.mul (1 / 2 ^ 38) (1 / 2) j2)
  have wR : (w : ℝ) ≠ 0 := by positivity
  have m0 : min (w : ℝ) h ≠ 0 := (lt_min (by positivity) (by positivity)).ne'
  refine ⟨a1.of_eq (by norm_num), a2.of_eq ?_⟩
  rw [sampleRow, if_pos rfl]
  push_cast
  generalize min (w : ℝ) h = m at *
  field_simp
  ring

/-! ## The opening angle -/

theorem focal_near {fov : Flo} {x : ℝ} {cam : Cam Flo} (hx : fov.Is x) (lo : 1 / 16 ≤ x) (hi : x ≤ 2)
    (e : Cam.projective fov = .ok cam) : ∃ f, cam = ⟨.projective f (lit 1) (lit 0), ⟨lit 0, lit 0, lit 0⟩,
      (Affine.yawPitchRoll (lit 180 * Cam.deg) (lit 0) (lit 0)).A⟩ ∧ f.Near (1 / 2 / Real.tan (x / 2)) (1 / 2 ^ 36) 17 ∧
      1 / 5 ≤ 1 / 2 / Real.tan (x / 2) := by
  unfold Cam.projective Cam.projectiveAperture at e
  obtain ⟨f, ef, e⟩ := bind_eq_ok.1 e
  simp only [pure_ok, Except.ok.injEq] at e
  subst e
  refine ⟨f, ?_, ?_⟩
  · change (⟨BaseCam.projective _ _ _, _, _⟩ : Cam Flo) = _
    congr 2
    split <;> rfl
  have i2 : (lit 2 : Flo).Is 2 := by exact_mod_cast flo_int_is 2 (by norm_num)
  unfold Cam.fovToFocalLen at ef
  split at ef
  · cases ef
  rw [Except.ok.injEq] at ef
  have h1 := (hx.near (b := 2) (by rw [abs_le]; constructor <;> linarith)).div 2 (2 / 2 ^ 53) 1 (i2.near (b := 2) (by norm_num)) (by norm_num)
  obtain ⟨y, hy, ey⟩ := h1.1
  have ey' := ey
  rw [abs_le] at ey'
  have y1 : (1 : ℝ) / 33 ≤ y := by norm_num at ey' ⊢; linarith
  have y2 : y ≤ 1.0001 := by norm_num at ey' ⊢; linarith
  have pi1 := Real.pi_gt_d2
  -- bounds of sine and cosine
  have sin_ge : ∀ {y : ℝ}, 1 / 33 ≤ y → y ≤ 1.0001 → 1 / 66 ≤ Real.sin y := by
    intro y a b
    have := Real.mul_le_sin (x := y) (by linarith) (by norm_num at pi1 b; linarith)
    have h2 : 1 / 2 ≤ 2 / Real.pi := by
      rw [div_le_div_iff₀ (by norm_num) Real.pi_pos]
      have := Real.pi_lt_d2
      norm_num at this ⊢
      linarith
    have := mul_le_mul h2 a (by norm_num) (by positivity)
    linarith
  have cos_ge : ∀ {y : ℝ}, 1 / 33 ≤ y → y ≤ 1.0001 → 0.49 ≤ Real.cos y := by
    intro y a b
    have := Real.one_sub_sq_div_two_le_cos (x := y)
    have h2 : y ^ 2 ≤ 1.0001 ^ 2 := pow_le_pow_left₀ (by linarith) b 2
    norm_num at h2 ⊢
    linarith
  have hh1 : 1 / 33 ≤ x / 2 := by linarith
  have hh2 : x / 2 ≤ 1.0001 := by norm_num; linarith
  have s1 := sin_ge y1 y2
  have c1 := cos_ge y1 y2
  have s2 := sin_ge hh1 hh2
  have c2 := cos_ge hh1 hh2
  have t1 : (1 : ℝ) / 66 ≤ Real.tan y := by
    rw [Real.tan_eq_sin_div_cos, le_div_iff₀ (by linarith)]
    have := Real.cos_le_one y
    linarith
  have t2 : Real.tan y ≤ 2.1 := by
    rw [Real.tan_eq_sin_div_cos, div_le_iff₀ (by linarith)]
    have := Real.sin_le_one y
    linarith
  have ht : (GoFloat.tan (fov / lit 2)).Near (Real.tan y) (3 / 2 ^ 53) 2.1 := by
    obtain ⟨s, hs⟩ := hy
    have hb : |Real.tan y| ≤ 2.1 := by rw [abs_le]; constructor <;> linarith
    refine ⟨⟨roundBits 53 (Real.tan y), ?_, ?_⟩, hb⟩
    · change (Flo.rnd (GoFloat.tan (fov / lit 2).e)).Is _
      rw [hs]
      exact Flo.rnd_is _ (hb.trans (by norm_num))
    · exact err_le (roundBits_err 53 (by norm_num) _) hb (by norm_num)
  obtain ⟨φ, hφ, eφ⟩ := ((half_is.near (b := 1 / 2) (by norm_num [abs_of_pos])).div (1 / 66) (1 / 2 ^ 38) 33 ht
    (by rw [abs_of_nonneg (by linarith)]; exact t1)).1
  have cot : ∀ {y : ℝ}, 1 / 66 ≤ Real.sin y → 0.49 ≤ Real.cos y → 1 / 2 / Real.tan y = Real.cos y / (2 * Real.sin y) := by
    intro y a b
    have : Real.sin y ≠ 0 := by linarith
    have : Real.cos y ≠ 0 := by linarith
    rw [Real.tan_eq_sin_div_cos]
    field_simp
  have dcot : |1 / 2 / Real.tan y - 1 / 2 / Real.tan (x / 2)| ≤ 1 / 2 ^ 38 := by
    rw [cot s1 c1, cot s2 c2]
    have n1 : Real.sin y ≠ 0 := by linarith
    have n2 : Real.sin (x / 2) ≠ 0 := by linarith
    rw [show Real.cos y / (2 * Real.sin y) - Real.cos (x / 2) / (2 * Real.sin (x / 2)) = Real.sin (x / 2 - y) / (2 * (Real.sin y * Real.sin (x / 2))) by
      rw [Real.sin_sub]; field_simp, abs_div]
    have hs : |Real.sin (x / 2 - y)| ≤ 2 / 2 ^ 53 := (Real.abs_sin_le_abs).trans (by rw [abs_sub_comm]; exact ey)
    have hp : 1 / 66 * (1 / 66) ≤ Real.sin y * Real.sin (x / 2) := mul_le_mul s1 s2 (by norm_num) (by linarith)
    rw [abs_of_nonneg (by linarith : (0 : ℝ) ≤ 2 * (Real.sin y * Real.sin (x / 2))), div_le_iff₀ (by linarith)]
    norm_num at hs hp ⊢
    linarith
  have big : 1 / 2 / Real.tan (x / 2) ≤ 17 := by
    rw [cot s2 c2, div_le_iff₀ (by linarith)]
    have := Real.cos_le_one (x / 2)
    have h3 := Real.mul_le_sin (x := x / 2) (by linarith) (by norm_num at pi1 hh2; linarith)
    have h4 := Real.sin_gt_sub_cube (x := 1 / 32) (by norm_num)
    have h5 : Real.sin (1 / 32) ≤ Real.sin (x / 2) := Real.sin_le_sin_of_le_of_le_pi_div_two (by linarith) (by norm_num at pi1 hh2; linarith) (by linarith)
    norm_num at h4
    linarith
  refine ⟨⟨⟨φ, ef ▸ hφ, ?_⟩, ?_⟩, ?_⟩
  · rw [show φ - 1 / 2 / Real.tan (x / 2) = (φ - 1 / 2 / Real.tan y) + (1 / 2 / Real.tan y - 1 / 2 / Real.tan (x / 2)) by ring]
    refine (abs_add_le _ _).trans ?_
    norm_num at *
    linarith
  · rw [abs_of_nonneg (div_nonneg (by norm_num) (Real.tan_nonneg_of_nonneg_of_le_pi_div_two (by linarith) (by norm_num at pi1 hh2; linarith)))]
    exact big
  · rw [cot s2 c2, le_div_iff₀ (by linarith)]
    have := Real.sin_le_one (x / 2)
    norm_num at c2 ⊢
    linarith

/-! ## Directions -/

/-- How far the direction moves when the vector moves. -/
theorem unit_move {w w0 : Vec ℝ} {g g0 η : ℝ} (h : Within η (w.sub w0)) (hg : g ^ 2 = w.x ^ 2 + w.y ^ 2 + w.z ^ 2)
    (hg0 : g0 ^ 2 = w0.x ^ 2 + w0.y ^ 2 + w0.z ^ 2) (lo : 1 / 6 ≤ g) (lo0 : 1 / 6 ≤ g0) :
    Within (24 * η) ((w.mul (1 / g)).sub (w0.mul (1 / g0))) := by
  obtain ⟨hx, hy, hz⟩ := h
  simp only [Vec.sub] at hx hy hz
  have η0 : 0 ≤ η := (abs_nonneg _).trans hx
  have le : ∀ {a b g : ℝ}, g ^ 2 = a ^ 2 + b → 0 ≤ b → 0 ≤ g → |a| ≤ g := fun {a b g} h hb hg =>
    abs_le_of_sq_le_sq (by linarith) hg
  have gp : 0 ≤ g := by linarith
  have gp0 : 0 ≤ g0 := by linarith
  have bx := le (a := w.x) (b := w.y ^ 2 + w.z ^ 2) (by linarith) (by positivity) gp
  have bY := le (a := w.y) (b := w.x ^ 2 + w.z ^ 2) (by linarith) (by positivity) gp
  have bz := le (a := w.z) (b := w.x ^ 2 + w.y ^ 2) (by linarith) (by positivity) gp
  have cx := le (a := w0.x) (b := w0.y ^ 2 + w0.z ^ 2) (by linarith) (by positivity) gp0
  have cy := le (a := w0.y) (b := w0.x ^ 2 + w0.z ^ 2) (by linarith) (by positivity) gp0
  have cz := le (a := w0.z) (b := w0.x ^ 2 + w0.y ^ 2) (by linarith) (by positivity) gp0
  have hd : |g - g0| ≤ 3 * η := by
    have e : (g - g0) * (g + g0) = (w.x - w0.x) * (w.x + w0.x) + (w.y - w0.y) * (w.y + w0.y) + (w.z - w0.z) * (w.z + w0.z) := by
      linear_combination hg - hg0
    have t : ∀ {a b : ℝ}, |a - b| ≤ η → |a| ≤ g → |b| ≤ g0 → |(a - b) * (a + b)| ≤ η * (g + g0) := fun {a b} h1 h2 h3 => by
      rw [abs_mul]
      exact mul_le_mul h1 ((abs_add_le _ _).trans (by linarith)) (abs_nonneg _) η0
    have s : |(g - g0) * (g + g0)| ≤ 3 * η * (g + g0) := by
      rw [e]
      refine (abs_add_le _ _).trans ?_
      have := (abs_add_le ((w.x - w0.x) * (w.x + w0.x)) ((w.y - w0.y) * (w.y + w0.y)))
      have := t hx bx cx
      have := t hy bY cy
      have := t hz bz cz
      linarith
    rw [abs_mul, abs_of_nonneg (by linarith : 0 ≤ g + g0)] at s
    exact le_of_mul_le_mul_right s (by linarith)
  have go : ∀ {a b : ℝ}, |a - b| ≤ η → |b| ≤ g0 → |1 / g * a - 1 / g0 * b| ≤ 24 * η := by
    intro a b h1 h2
    have gn : g ≠ 0 := by linarith
    have gn0 : g0 ≠ 0 := by linarith
    rw [show 1 / g * a - 1 / g0 * b = ((a - b) + b / g0 * (g0 - g)) / g by field_simp; ring, abs_div, abs_of_nonneg gp,
      div_le_iff₀ (by linarith)]
    have q : |b / g0| ≤ 1 := by
      rw [abs_div, abs_of_nonneg gp0, div_le_one (by linarith)]
      exact h2
    have := abs_add_le (a - b) (b / g0 * (g0 - g))
    have r : |b / g0 * (g0 - g)| ≤ 1 * (3 * η) := by
      rw [abs_mul, abs_sub_comm g0]
      exact mul_le_mul q hd (abs_nonneg _) (by norm_num)
    have : 24 * η * (1 / 6) ≤ 24 * η * g := mul_le_mul_of_nonneg_left lo (by linarith)
    linarith
  exact ⟨go hx cx, go hy cy, go hz cz⟩

theorem unitVec_ip {v : Vec ℝ} (h : 0 < ip v v) : ip (unitVec v) (unitVec v) = 1 := by
  have e : v.dot v = ip v v := rfl
  have hs := Real.mul_self_sqrt h.le
  have hn : Real.sqrt (ip v v) ≠ 0 := (Real.sqrt_pos.2 h).ne'
  simp only [unitVec, e]
  generalize Real.sqrt (ip v v) = g at hs hn
  simp only [ip, Vec.mul] at hs ⊢
  field_simp
  linear_combination -hs

set_option maxHeartbeats 400000 in
/-- The direction of a ray of a pinhole camera, before the camera is turned. -/
theorem base_near {f u v : Flo} {φ U V : ℝ} (hf : f.Near φ (1 / 2 ^ 36) 17) (lo : 1 / 5 ≤ φ) (hu : u.Near U (1 / 2 ^ 28) 27.5) (hv : v.Near V (1 / 2 ^ 28) 27.5) :
    ∃ d, (BaseCam.projectiveRay f (lit 1) ⟨lit 0, lit 0, lit 0⟩ u v).dir.FIs d ∧
      Within (25 / 2 ^ 28) (d.sub (unitVec ⟨-(U - 1 / 2), V - 1 / 2, φ⟩)) := by
  have hfoc : ((lit 1 : Flo) ==. lit 0) = false := by
    rw [Bool.eq_false_iff]
    intro h
    have := flo_cmp_eq flo_lit_one Ball.flo_zero h
    norm_num at this
  have half := half_is.near (b := 1 / 2) (by norm_num [abs_of_pos])
  have step : ∀ {a : Flo} {x : ℝ}, a.Near x (1.01 / 2 ^ 28) 28 → ∃ w, (lit 1 * a - lit 0).Is w ∧ |w - x| ≤ 1.03 / 2 ^ 28 := by
    intro a x ha
    have h1 := (flo_lit_one.near (b := 1) (by norm_num)).mul (1.02 / 2 ^ 28) 28 ha
    obtain ⟨w, hw, h⟩ := (h1.sub (1.03 / 2 ^ 28) 28 (Ball.flo_zero.near (b := 0) (by norm_num))).1
    exact ⟨w, hw, h.trans_eq' (by rw [one_mul, sub_zero])⟩
  obtain ⟨a, ha, ea⟩ := step ((hu.sub (1.01 / 2 ^ 28) 28 half).neg)
  obtain ⟨b, hb, eb⟩ := step (hv.sub (1.01 / 2 ^ 28) 28 half)
  obtain ⟨c, hc, ec⟩ := step (hf.weaken (by norm_num) (by norm_num))
  have b2 := hu.2
  have b3 := hv.2
  have b4 := hf.2
  rw [abs_le] at b2 b3 b4
  have sq : ∀ {w B : ℝ}, |w| ≤ B → w ^ 2 ≤ B ^ 2 := fun {w B} h => sq_le_sq' (neg_le_of_abs_le h) (le_of_abs_le h)
  have ba : a ^ 2 ≤ 30 ^ 2 := sq (by rw [abs_le] at ea ⊢; norm_num at ea ⊢; constructor <;> linarith)
  have bb : b ^ 2 ≤ 30 ^ 2 := sq (by rw [abs_le] at eb ⊢; norm_num at eb ⊢; constructor <;> linarith)
  have bc : c ^ 2 ≤ 30 ^ 2 := sq (by rw [abs_le] at ec ⊢; norm_num at ec ⊢; constructor <;> linarith)
  have c6 : (1 : ℝ) / 6 ≤ c := by rw [abs_le] at ec; norm_num at ec ⊢; linarith
  have c36 : ((1 : ℝ) / 6) ^ 2 ≤ c ^ 2 := pow_le_pow_left₀ (by norm_num) c6 2
  have φ36 : ((1 : ℝ) / 6) ^ 2 ≤ φ ^ 2 := pow_le_pow_left₀ (by norm_num) (by linarith) 2
  have p1 : 0 ≤ a ^ 2 + b ^ 2 + c ^ 2 := by positivity
  have hg := Real.sq_sqrt p1
  have g6 : 1 / 6 ≤ Real.sqrt (a ^ 2 + b ^ 2 + c ^ 2) := Real.le_sqrt_of_sq_le (by nlinarith [sq_nonneg a, sq_nonneg b])
  have g12 : Real.sqrt (a ^ 2 + b ^ 2 + c ^ 2) ≤ 2 ^ 12 := Real.sqrt_le_iff.2 ⟨by norm_num, by norm_num at *; linarith⟩
  generalize Real.sqrt (a ^ 2 + b ^ 2 + c ^ 2) = g at *
  have q1 : 0 ≤ (-(U - 1 / 2)) ^ 2 + (V - 1 / 2) ^ 2 + φ ^ 2 := by positivity
  have hg0 := Real.sq_sqrt q1
  have g06 : 1 / 6 ≤ Real.sqrt ((-(U - 1 / 2)) ^ 2 + (V - 1 / 2) ^ 2 + φ ^ 2) :=
    Real.le_sqrt_of_sq_le (by nlinarith [sq_nonneg (-(U - 1 / 2)), sq_nonneg (V - 1 / 2)])
  have mv := unit_move (w := ⟨a, b, c⟩) (w0 := ⟨-(U - 1 / 2), V - 1 / 2, φ⟩) (η := 1.03 / 2 ^ 28) ⟨ea, eb, ec⟩ hg hg0 g6 g06
  have eu : unitVec ⟨-(U - 1 / 2), V - 1 / 2, φ⟩ = Vec.mul ⟨-(U - 1 / 2), V - 1 / 2, φ⟩ (1 / Real.sqrt ((-(U - 1 / 2)) ^ 2 + (V - 1 / 2) ^ 2 + φ ^ 2)) := by
    simp only [unitVec, Vec.dot, pow_two]
  rw [eu]
  obtain ⟨n, κ, hn, κ0, κg, nx, ny, nz⟩ := normalized_is (v := Vec.sub (Vec.mul ⟨-(u - lit (1 / 2)), v - lit (1 / 2), f⟩ (lit 1)) ⟨lit 0, lit 0, lit 0⟩)
    (w := ⟨a, b, c⟩) ⟨ha, hb, hc⟩ (g := g) (by norm_num at g6 ⊢; linarith) g12 hg
  refine ⟨n, ?_, ?_⟩
  · unfold BaseCam.projectiveRay
    simp only [hfoc]
    exact hn
  have gp : 0 < g := by linarith
  have le : ∀ {x : ℝ}, x ^ 2 ≤ g ^ 2 → |κ * x - 1 / g * x| ≤ 1 / 2 ^ 48 := by
    intro x hx
    have hx : |x| ≤ g := abs_le_of_sq_le_sq hx gp.le
    rw [show κ * x - 1 / g * x = (κ * g - 1) * (x / g) by field_simp, abs_mul, abs_div, abs_of_pos gp]
    have : |x| / g ≤ 1 := (div_le_one gp).2 hx
    have := mul_le_mul κg this (div_nonneg (abs_nonneg _) gp.le) (by norm_num)
    linarith
  have fin : ∀ {n x y : ℝ}, |n - κ * x| ≤ 1 / 2 ^ 50 → |κ * x - 1 / g * x| ≤ 1 / 2 ^ 48 → |1 / g * x - y| ≤ 24 * (1.03 / 2 ^ 28) → |n - y| ≤ 25 / 2 ^ 28 := by
    intro n x y h1 h2 h3
    rw [abs_le] at *
    norm_num at *
    constructor <;> linarith
  obtain ⟨m1, m2, m3⟩ := mv
  simp only [Vec.sub, Vec.mul] at m1 m2 m3
  exact ⟨fin nx (le (by rw [hg]; nlinarith [sq_nonneg b, sq_nonneg c])) m1, fin ny (le (by rw [hg]; nlinarith [sq_nonneg a, sq_nonneg c])) m2,
    fin nz (le (by rw [hg]; nlinarith [sq_nonneg a, sq_nonneg b])) m3⟩

/-! ## Turning -/

theorem rot_mulVec {u : Vec ℝ} (hu : Axis u) (t : ℝ) (v : Vec ℝ) : (rot u t).mulVec v = rodrigues u t v := by
  rcases hu with rfl | rfl | rfl <;> simp only [rot, rodrigues, geo] <;> refine ⟨?_, ?_, ?_⟩ <;> ring

theorem ypr_near {y p r : Flo} {Y P R : ℝ} (hy : y.Is Y) (hp : p.Is P) (hr : r.Is R) :
    ∃ Q, Orth Q ∧ MNear (Affine.yawPitchRoll y p r).A Q (1 / 2 ^ 42) ∧ ∀ v, Q.mulVec v = turned Y P R v := by
  have ax : (Vec.ex : Vec Flo).FIs ⟨1, 0, 0⟩ := ⟨flo_lit_one, Ball.flo_zero, Ball.flo_zero⟩
  have ay : (Vec.ey : Vec Flo).FIs ⟨0, 1, 0⟩ := ⟨Ball.flo_zero, flo_lit_one, Ball.flo_zero⟩
  have az : (Vec.ez : Vec Flo).FIs ⟨0, 0, 1⟩ := ⟨Ball.flo_zero, Ball.flo_zero, flo_lit_one⟩
  have uy : Axis ⟨0, 1, 0⟩ := .inr (.inl rfl)
  have ux : Axis ⟨1, 0, 0⟩ := .inl rfl
  have uz : Axis ⟨0, 0, 1⟩ := .inr (.inr rfl)
  have h1 := rotate_near ay uy hy
  have h2 := rotate_near ax ux hp
  have h3 := rotate_near az uz hr
  have o1 := rot_orth uy Y
  have o2 := rot_orth ux P
  have o3 := rot_orth uz R
  have h12 := (h1.mul h2 o1 o2 (by norm_num) (by norm_num)).weaken (show _ ≤ (410 : ℝ) / 2 ^ 53 by norm_num)
  have h := (h12.mul h3 (o1.mul o2) o3 (by norm_num) (by norm_num)).weaken (show _ ≤ (1 : ℝ) / 2 ^ 42 by norm_num)
  refine ⟨_, (o1.mul o2).mul o3, h, fun v => ?_⟩
  rw [Matrix.mul_mulVec, Matrix.mul_mulVec, rot_mulVec uz, rot_mulVec ux, rot_mulVec uy]
  rfl

/-- Half a turn, in double precision. -/
theorem half_turn : (lit 180 * Cam.deg : Flo).Near Real.pi (1 / 2 ^ 42) 4 := by
  have i : (lit 180 : Flo).Is 180 := by exact_mod_cast flo_int_is 180 (by norm_num)
  have h := (i.near (b := 180) (by norm_num)).mul (1 / 2 ^ 42) 180
    (pi_near.div 180 (1 / 2 ^ 51) 1 (i.near (b := 180) (by norm_num)) (by norm_num))
  refine (h.of_eq (by ring)).bound ?_
  have := Real.pi_lt_four
  rw [abs_of_pos Real.pi_pos]
  exact this.le

theorem half_turn_near : ∃ Q, Orth Q ∧ MNear (Affine.yawPitchRoll (lit 180 * Cam.deg) (lit 0) (lit 0) : Affine Flo).A Q (1 / 2 ^ 42) ∧
    ∀ v : Vec ℝ, Within 1 v → Within (4 / 2 ^ 42) ((Q.mulVec v).sub ⟨-v.x, v.y, -v.z⟩) := by
  obtain ⟨x, hx, ex⟩ := half_turn.1
  obtain ⟨Q, o, h, hQ⟩ := ypr_near hx Ball.flo_zero Ball.flo_zero
  refine ⟨Q, o, h, fun v hv => ?_⟩
  rw [hQ]
  have s : |Real.sin x| ≤ 1 / 2 ^ 42 := by
    have e : Real.sin x = -Real.sin (x - Real.pi) := by rw [Real.sin_sub_pi, neg_neg]
    rw [e, abs_neg]
    exact Real.abs_sin_le_abs.trans ex
  have c : |Real.cos x + 1| ≤ 1 / 2 ^ 42 := by
    have e : Real.cos x = -Real.cos (x - Real.pi) := by rw [Real.cos_sub_pi, neg_neg]
    have h1 := Real.one_sub_sq_div_two_le_cos (x := x - Real.pi)
    have h2 := Real.cos_le_one (x - Real.pi)
    have h3 : (x - Real.pi) ^ 2 ≤ (1 / 2 ^ 42) ^ 2 := sq_le_sq' (neg_le_of_abs_le ex) (le_of_abs_le ex)
    rw [e, abs_le]
    norm_num at *
    constructor <;> linarith
  obtain ⟨vx, vy, vz⟩ := hv
  have m : ∀ {a b : ℝ}, |a| ≤ 1 / 2 ^ 42 → |b| ≤ 1 → |a * b| ≤ 1 / 2 ^ 42 := fun {a b} ha hb => by
    rw [abs_mul]
    have := mul_le_mul ha hb (abs_nonneg _) (by norm_num)
    linarith
  have t : turned x 0 0 v = ⟨Real.cos x * v.x + Real.sin x * v.z, v.y, Real.cos x * v.z - Real.sin x * v.x⟩ := by
    simp only [turned, rodrigues, geo, Real.cos_zero, Real.sin_zero]
    refine ⟨?_, ?_, ?_⟩ <;> ring
  rw [t]
  refine ⟨?_, ?_, ?_⟩ <;> simp only [Vec.sub]
  · have := m c vx
    have := m s vz
    rw [show Real.cos x * v.x + Real.sin x * v.z - -v.x = (Real.cos x + 1) * v.x + Real.sin x * v.z by ring]
    refine (abs_add_le _ _).trans ?_
    norm_num at *
    linarith
  · norm_num
  · have := m c vz
    have := m s vx
    rw [show Real.cos x * v.z - Real.sin x * v.x - -v.z = (Real.cos x + 1) * v.z - Real.sin x * v.x by ring]
    refine (abs_sub _ _).trans ?_
    norm_num at *
    linarith

theorem Orth.within {Q : Matrix ℝ} (o : Orth Q) {v : Vec ℝ} {e : ℝ} (h : Within e v) : Within (2 * e) (Q.mulVec v) := by
  have e0 : 0 ≤ e := (abs_nonneg _).trans h.1
  obtain ⟨h1, h2, h3⟩ := h
  have sq : ∀ {w : ℝ}, |w| ≤ e → w * w ≤ e * e := fun {w} h => by
    rw [← abs_mul_abs_self w]; exact mul_le_mul h h (abs_nonneg _) e0
  refine within_of_sq (by linarith) ?_
  rw [o.mulVec]
  simp only [ip]
  have := sq h1
  have := sq h2
  have := sq h3
  have := mul_self_nonneg e
  nlinarith

theorem mulVec_sub (Q : Matrix ℝ) (v w : Vec ℝ) : (Q.mulVec v).sub (Q.mulVec w) = Q.mulVec (v.sub w) := by
  simp only [geo]; refine ⟨?_, ?_, ?_⟩ <;> ring

/-- The line of sight in the frame of the camera, turned half around. -/
theorem pixel_turn {fov : ℝ} {w h : ℕ} (hw : 0 < w) {x y φ : ℝ} (hφ : φ = 1 / 2 / Real.tan (fov / 2)) (hp : 0 < φ) {U V : ℝ}
    (hU : U = (x + 1 / 2) / w) (hV : V = 1 / 2 + (h / 2 - (y + 1 / 2)) / w) {u : Vec ℝ} (hu : u = unitVec ⟨-(U - 1 / 2), V - 1 / 2, φ⟩) :
    (⟨-u.x, u.y, -u.z⟩ : Vec ℝ) = unitVec (pixelDir fov w h x y) := by
  have hw' : (w : ℝ) ≠ 0 := by exact_mod_cast hw.ne'
  have ht : Real.tan (fov / 2) ≠ 0 := by
    intro h0
    rw [h0, div_zero] at hφ
    linarith
  have e : (pixelDir fov w h x y).mul φ = ⟨U - 1 / 2, V - 1 / 2, -φ⟩ := by
    simp only [pixelDir, Vec.mul, Vec.mk.injEq]
    refine ⟨?_, ?_, ?_⟩
    · rw [hφ, hU]; field_simp
    · rw [hφ, hV]; field_simp; ring
    · ring
  rw [← unitVec_scale hp, e, hu]
  have d : Vec.dot (⟨U - 1 / 2, V - 1 / 2, -φ⟩ : Vec ℝ) ⟨U - 1 / 2, V - 1 / 2, -φ⟩ = Vec.dot ⟨-(U - 1 / 2), V - 1 / 2, φ⟩ ⟨-(U - 1 / 2), V - 1 / 2, φ⟩ := by
    simp only [Vec.dot]; ring
  simp only [unitVec, d]
  simp only [Vec.mul, Vec.mk.injEq]
  refine ⟨?_, trivial, ?_⟩ <;> ring

/-- The ray through a point of the picture is close to the exact line of sight. -/
theorem sight_near {S : Type} {w h : Nat} (wpos : 0 < w) {X Y : ℝ} {a b : Flo} (hu : a.Near ((X + 1 / 2) / w) (1 / 2 ^ 28) 27.5)
    (hv : b.Near (1 / 2 + (h / 2 - (Y + 1 / 2)) / w) (1 / 2 ^ 28) 27.5)
    {fov y p r : Flo} {eye : Vec Flo} {V : View} (Hf : fov.Is V.fov) (Hy : y.Is V.yaw) (Hp : p.Is V.pitch) (Hr : r.Is V.roll) (He : eye.FIs V.eye)
    (lo : 1 / 16 ≤ V.fov) (hi : V.fov ≤ 2) (hb : Within 60 V.eye) {c : Cam Flo} (ec : Cam.projective fov = .ok c) :
    ∃ q v d, (∀ (rng : Rng Flo S) (ctx : Ctx Flo S), ((c.yawPitchRoll y p r).translate eye).rayFrom rng ctx a b = (q, ctx)) ∧
      q.start.FIs v ∧ q.dir.FIs d ∧ Within (1 / 2 ^ 35) (v.sub (V.sight w h X Y).start) ∧ Within (1 / 2 ^ 22) (d.sub (V.sight w h X Y).dir) := by
  obtain ⟨f, rfl, hf, lof⟩ := focal_near Hf lo hi ec
  obtain ⟨d0, hd0, ed0⟩ := base_near hf lof hu hv
  set φ := 1 / 2 / Real.tan (V.fov / 2) with hφ
  set w0 : Vec ℝ := ⟨-((X + 1 / 2) / w - 1 / 2), (1 / 2 + (h / 2 - (Y + 1 / 2)) / w) - 1 / 2, φ⟩ with hw0
  have one : ip (unitVec w0) (unitVec w0) = 1 := unitVec_ip (by
    have : 0 < φ * φ := by positivity
    simp only [ip, hw0]
    nlinarith [mul_self_nonneg (-((X + 1 / 2) / w - 1 / 2)), mul_self_nonneg ((1 / 2 + (h / 2 - (Y + 1 / 2)) / w) - 1 / 2)])
  have pt := pixel_turn (fov := V.fov) (w := w) (h := h) wpos (x := X) (y := Y) hφ (by linarith) rfl rfl (u := unitVec w0) rfl
  have wu := unit_within one
  obtain ⟨H, oH, nH, tH⟩ := half_turn_near
  obtain ⟨Q, oQ, nQ, tQ⟩ := ypr_near Hy Hp Hr
  have nM := (MNear.one_mul isOne_unit ((nQ.mul nH oQ oH (by norm_num) (by norm_num)).weaken (show _ ≤ (1 : ℝ) / 2 ^ 39 by norm_num)) (by norm_num)).weaken
    (show _ ≤ (1.1 : ℝ) / 2 ^ 39 by norm_num)
  have wd : Within 1.001 d0 := by
    obtain ⟨a1, a2, a3⟩ := ed0
    obtain ⟨b1, b2, b3⟩ := wu
    simp only [Vec.sub] at a1 a2 a3
    refine ⟨?_, ?_, ?_⟩ <;> rw [abs_le] at * <;> norm_num at * <;> constructor <;> linarith
  obtain ⟨d, hd, ed⟩ := mulVec_is nM (by norm_num) hd0 wd
  have hz : (⟨lit 0, lit 0, lit 0⟩ : Vec Flo).FIs ⟨0, 0, 0⟩ := ⟨Ball.flo_zero, Ball.flo_zero, Ball.flo_zero⟩
  obtain ⟨z, hz, ez⟩ := mulVec_is nM (by norm_num) hz ⟨by norm_num, by norm_num, by norm_num⟩
  have z0 : (Q.mul H).mulVec ⟨0, 0, 0⟩ = ⟨0, 0, 0⟩ := by simp [Matrix.mulVec]
  rw [z0] at ez
  have add : ∀ {a b : Flo} {x y : ℝ}, a.Is x → b.Is y → |x - 0| ≤ 3.01 * (1.1 / 2 ^ 39) + 12 / 2 ^ 53 → |y| ≤ 60 →
      ∃ s, (a + (b + (lit 0 + lit 0))).Is s ∧ |s - y| ≤ 1 / 2 ^ 35 := by
    intro a b x y ha hb hx hy
    rw [sub_zero] at hx
    have n0 := Ball.flo_zero.near (b := 0) (by norm_num)
    have n2 := (hb.near hy).add (80 / 2 ^ 53) 60 (n0.add (1 / 2 ^ 53) 0 n0)
    obtain ⟨s, hs, es⟩ := ((ha.near (b := 1 / 2) (hx.trans (by norm_num))).add (200 / 2 ^ 53) 60.5 n2).1
    refine ⟨s, hs, ?_⟩
    rw [abs_le] at es hx ⊢
    norm_num at es hx ⊢
    constructor <;> linarith
  obtain ⟨sx, hsx, bx⟩ := add hz.1 He.1 ez.1 hb.1
  obtain ⟨sy, hsy, bY⟩ := add hz.2.1 He.2.1 ez.2.1 hb.2.1
  obtain ⟨sz, hsz, bz⟩ := add hz.2.2 He.2.2 ez.2.2 hb.2.2
  have hap : ((lit 0 : Flo) >. lit 0) = false := by rw [Flo.lt_is Ball.flo_zero Ball.flo_zero]; simp
  refine ⟨⟨((Matrix.unit.mul ((Affine.yawPitchRoll y p r).A.mul (Affine.yawPitchRoll (lit 180 * Cam.deg) (lit 0) (lit 0)).A)).mulVec ⟨lit 0, lit 0, lit 0⟩).add
    (eye.add (Vec.add ⟨lit 0, lit 0, lit 0⟩ ⟨lit 0, lit 0, lit 0⟩)), (Matrix.unit.mul ((Affine.yawPitchRoll y p r).A.mul
      (Affine.yawPitchRoll (lit 180 * Cam.deg) (lit 0) (lit 0)).A)).mulVec (BaseCam.projectiveRay f (lit 1) ⟨lit 0, lit 0, lit 0⟩ a b).dir⟩, ⟨sx, sy, sz⟩, d, fun rng ctx => ?_, ⟨hsx, hsy, hsz⟩, hd, ⟨bx, bY, bz⟩, ?_⟩
  · unfold Cam.rayFrom Cam.translate Cam.yawPitchRoll Cam.transform BaseCam.rayFrom
    simp only [hap]
    rfl
  · change Within _ (d.sub (turned V.yaw V.pitch V.roll (unitVec (pixelDir V.fov w h X Y))))
    rw [← pt, ← tQ]
    have e1 := (oQ.mul oH).within ed0
    have e2 := oQ.within (tH _ wu)
    rw [← mulVec_sub] at e1 e2
    rw [Matrix.mul_mulVec] at ed
    rw [Matrix.mul_mulVec, Matrix.mul_mulVec] at e1
    have fin : ∀ {a b c x : ℝ}, |a - b| ≤ 3.01 * (1.1 / 2 ^ 39) + 12 / 2 ^ 53 → |b - c| ≤ 2 * (25 / 2 ^ 28) → |c - x| ≤ 2 * (4 / 2 ^ 42) → |a - x| ≤ 1 / 2 ^ 22 := by
      intro a b c x h1 h2 h3
      rw [abs_le] at *
      norm_num at *
      constructor <;> linarith
    exact ⟨fin ed.1 e1.1 e2.1, fin ed.2.1 e1.2.1 e2.2.1, fin ed.2.2 e1.2.2 e2.2.2⟩

end BR.Turn
