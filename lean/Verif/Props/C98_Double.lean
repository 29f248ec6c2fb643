import Verif.Lemmas.MeanErr
import Verif.Spec.Double
import Verif.Props.C03_Schedule
import Verif.Props.C06_Variance

/-!
# C98 Pictures and error estimates are accumulated accurately in double precision

The mean and the variance of up to `2^26` passes differ from the exact ones by rounding errors only. But the variance is computed
as a difference of two large numbers and can be negative; the standard deviation is then NaN (`C98_violated`).
-/

namespace BR
set_option linter.unusedSectionVars false

open Finset Dbl

variable {g : ℕ → Color Flo} {G : ℕ → Color ℝ} {n : ℕ}

theorem accumulated (hg : ∀ k, (g k).FIs (G k)) (hG : ∀ k, (G k).Moderate) (hn : n ≤ 2 ^ 26) :
    let s := accumulate g Cell.zero n
    (s.sum.R.Is (rsum (fun k => (G k).R) n) ∧ s.sum.G.Is (rsum (fun k => (G k).G) n) ∧ s.sum.B.Is (rsum (fun k => (G k).B) n)) ∧
    s.sumSq.R.Is (rsum (fun k => roundBits 53 ((G k).R * (G k).R)) n) ∧
    s.sumSq.G.Is (rsum (fun k => roundBits 53 ((G k).G * (G k).G)) n) ∧
    s.sumSq.B.Is (rsum (fun k => roundBits 53 ((G k).B * (G k).B)) n) :=
  accumulate_flo g _ _ _ hg (fun k => (hG k).1) (fun k => (hG k).2.1) (fun k => (hG k).2.2) n hn

theorem NearMean.of {x : ℕ → ℝ} {X : ℝ}
    (h : |X - (∑ k ∈ range n, x k) / n| ≤ (2 * n + 4) / 2 ^ 53 * ((∑ k ∈ range n, |x k|) / n) + 5 / 2 ^ 200) : NearMean x n X :=
  h.trans (by
    have : (5 : ℝ) / 2 ^ 200 ≤ 1 / 2 ^ 190 := by norm_num
    linarith)

/-- Every channel of the picture is the mean of the samples, up to rounding. -/
theorem C98_mean (hg : ∀ k, (g k).FIs (G k)) (hG : ∀ k, (G k).Moderate) (h1 : 1 ≤ n) (hn : n ≤ 2 ^ 26) :
    ∃ X : Color ℝ, (accumulate g Cell.zero n).image.FIs X ∧ NearMean (fun k => (G k).R) n X.R ∧
      NearMean (fun k => (G k).G) n X.G ∧ NearMean (fun k => (G k).B) n X.B := by
  obtain ⟨⟨s1, s2, s3⟩, -⟩ := accumulated hg hG hn
  have hk : (accumulate g Cell.zero n).n = n := by rw [accumulate_n]; simp [Cell.zero]
  obtain ⟨X, hX, eX⟩ := mean_chan (fun k => (hG k).1) h1 hn s1
  obtain ⟨Y, hY, eY⟩ := mean_chan (fun k => (hG k).2.1) h1 hn s2
  obtain ⟨Z, hZ, eZ⟩ := mean_chan (fun k => (hG k).2.2) h1 hn s3
  refine ⟨⟨X, Y, Z⟩, ?_, .of eX, .of eY, .of eZ⟩
  rw [Cell.image, hk]
  exact ⟨hX, hY, hZ⟩

theorem NearVariance.of {x : ℕ → ℝ} {V : ℝ} (h2 : 2 ≤ n)
    (h : |V - (n * (∑ k ∈ range n, x k ^ 2) - (∑ k ∈ range n, x k) ^ 2) / (n * (n - 1))| ≤
        (8 * n + 32) / 2 ^ 53 * ((∑ k ∈ range n, x k ^ 2) / (n - 1)) + 1 / 2 ^ 100) : NearVariance x n V := by
  have n0 : (n : ℝ) ≠ 0 := by positivity
  rwa [sum_sq_dev x n (by omega), mul_div_mul_left _ _ n0] at h

/-- Every channel of the reported variance is the unbiased sample variance of the samples, up to rounding. -/
theorem C98_variance (hg : ∀ k, (g k).FIs (G k)) (hG : ∀ k, (G k).Moderate) (h2 : 2 ≤ n) (hn : n ≤ 2 ^ 26) :
    ∃ V : Color ℝ, (accumulate g Cell.zero n).variance.FIs V ∧ NearVariance (fun k => (G k).R) n V.R ∧
      NearVariance (fun k => (G k).G) n V.G ∧ NearVariance (fun k => (G k).B) n V.B := by
  obtain ⟨⟨s1, s2, s3⟩, q1, q2, q3⟩ := accumulated hg hG hn
  have hk : (accumulate g Cell.zero n).n = n := by rw [accumulate_n]; simp [Cell.zero]
  obtain ⟨X, hX, eX⟩ := variance_chan (fun k => (hG k).1) h2 hn s1 q1
  obtain ⟨Y, hY, eY⟩ := variance_chan (fun k => (hG k).2.1) h2 hn s2 q2
  obtain ⟨Z, hZ, eZ⟩ := variance_chan (fun k => (hG k).2.2) h2 hn s3 q3
  refine ⟨⟨X, Y, Z⟩, ?_, .of h2 eX, .of h2 eY, .of h2 eZ⟩
  rw [Cell.variance, hk]
  exact ⟨hX, hY, hZ⟩

/-- The standard deviation of a channel whose computed variance is not negative is its root, up to rounding. -/
theorem C98_stddev_partial {s : Cell Flo} {V : Color ℝ} (hV : s.variance.FIs V) (h : 0 ≤ V.R ∧ 0 ≤ V.G ∧ 0 ≤ V.B)
    (hb : V.R ≤ 2 ^ 200 ∧ V.G ≤ 2 ^ 200 ∧ V.B ≤ 2 ^ 200) :
    ∃ D : Color ℝ, s.stddev.FIs D ∧ |D.R - Real.sqrt V.R| ≤ Real.sqrt V.R / 2 ^ 53 + 1 / 2 ^ 200 ∧
      |D.G - Real.sqrt V.G| ≤ Real.sqrt V.G / 2 ^ 53 + 1 / 2 ^ 200 ∧ |D.B - Real.sqrt V.B| ≤ Real.sqrt V.B / 2 ^ 53 + 1 / 2 ^ 200 := by
  have key : ∀ {a : Flo} {v : ℝ}, a.Is v → 0 ≤ v → v ≤ 2 ^ 200 →
      ∃ d, (GoFloat.sqrt a).Is d ∧ |d - Real.sqrt v| ≤ Real.sqrt v / 2 ^ 53 + 1 / 2 ^ 200 := by
    intro a v ha h0 hb
    have he := roundBits_err 53 (by norm_num) (Real.sqrt v)
    rw [abs_of_nonneg (Real.sqrt_nonneg v)] at he
    exact ⟨_, Flo.sqrt_is ha h0 hb, he⟩
  obtain ⟨x, hx, ex⟩ := key hV.1 h.1 hb.1
  obtain ⟨y, hy, ey⟩ := key hV.2.1 h.2.1 hb.2.1
  obtain ⟨z, hz, ez⟩ := key hV.2.2 h.2.2 hb.2.2
  exact ⟨⟨x, y, z⟩, ⟨hx, hy, hz⟩, ex, ey, ez⟩

/-- A pixel that is a little brighter than white. -/
noncomputable def bright : Color Flo := ⟨lit (1 + 3 / 2 ^ 27), lit (1 + 3 / 2 ^ 27), lit (1 + 3 / 2 ^ 27)⟩

/-- The reported variance can be negative and the standard deviation is then NaN: three equal samples, a little brighter than
white. -/
theorem C98_violated : ∃ c : Color Flo, c.FIs ⟨1 + 3 / 2 ^ 27, 1 + 3 / 2 ^ 27, 1 + 3 / 2 ^ 27⟩ ∧
    ∃ v : ℝ, v < 0 ∧ (accumulate (fun _ => c) Cell.zero 3).variance.R.Is v ∧
      GoFloat.isNaN (accumulate (fun _ => c) Cell.zero 3).stddev.R = true := by
  have hl : (lit (1 + 3 / 2 ^ 27) : Flo).Is (1 + 3 / 2 ^ 27) :=
    (Flo.lit_is (1 + 3 / 2 ^ 27) (2 ^ 27 + 3) (-27) (by push_cast; rw [zpow_neg]; norm_num) (by norm_num) (by norm_num)
      (by push_cast; norm_num [abs_of_pos])).of_eq (by push_cast; rfl)
  have hc : bright.FIs ⟨1 + 3 / 2 ^ 27, 1 + 3 / 2 ^ 27, 1 + 3 / 2 ^ 27⟩ := ⟨hl, hl, hl⟩
  refine ⟨bright, hc, ?_⟩
  have hm : Color.Moderate ⟨1 + 3 / 2 ^ 27, 1 + 3 / 2 ^ 27, 1 + 3 / 2 ^ 27⟩ := by
    refine ⟨?_, ?_, ?_⟩ <;> dsimp only <;> rw [abs_of_pos (by norm_num)] <;> norm_num
  obtain ⟨⟨s1, -⟩, q1, -⟩ := accumulated (n := 3) (g := fun _ => bright) (G := fun _ => ⟨1 + 3 / 2 ^ 27, 1 + 3 / 2 ^ 27, 1 + 3 / 2 ^ 27⟩)
    (fun _ => hc) (fun _ => hm) (by norm_num)
  have hk : (accumulate (fun _ => bright) Cell.zero 3).n = 3 := by rw [accumulate_n]; simp [Cell.zero]
  -- the square
  have z54 : (2 : ℝ) ^ (-54 : ℤ) = 1 / 2 ^ 54 := by rw [zpow_neg]; norm_num
  have z52 : (2 : ℝ) ^ (-52 : ℤ) = 1 / 2 ^ 52 := by rw [zpow_neg]; norm_num
  have z51 : (2 : ℝ) ^ (-51 : ℤ) = 1 / 2 ^ 51 := by rw [zpow_neg]; norm_num
  have z49 : (2 : ℝ) ^ (-49 : ℤ) = 1 / 2 ^ 49 := by rw [zpow_neg]; norm_num
  have z27 : (2 : ℝ) ^ (-27 : ℤ) = 1 / 2 ^ 27 := by rw [zpow_neg]; norm_num
  have e1 : roundBits 53 ((1 + 3 / 2 ^ 27) * (1 + 3 / 2 ^ 27) : ℝ) = (2 ^ 54 + 6 * 2 ^ 27 + 8) / 2 ^ 54 := by
    rw [roundBits_near 53 (by norm_num) _ (2 ^ 52 + 6 * 2 ^ 25 + 2) (-52) (by norm_num)]
    · push_cast; rw [z52]; norm_num
    · rw [z52, abs_of_pos (by norm_num)]; norm_num
    · rw [z52, abs_of_pos (by norm_num)]; norm_num
    · rw [z52, abs_lt]; push_cast; constructor <;> norm_num
  have eS : rsum (fun _ => (1 + 3 / 2 ^ 27 : ℝ)) 3 = 3 * (1 + 3 / 2 ^ 27) := by
    have r : ∀ k : ℤ, 0 < k → k ≤ 3 → roundBits 53 (k * (1 + 3 / 2 ^ 27) : ℝ) = k * (1 + 3 / 2 ^ 27) := by
      intro k h0 h3
      have := roundBits_exact 53 (k * (2 ^ 27 + 3)) (-27) (by rw [abs_of_pos (by positivity)]; omega) (by norm_num)
      rw [z27, show ((k * (2 ^ 27 + 3) : ℤ) : ℝ) * (1 / 2 ^ 27) = k * (1 + 3 / 2 ^ 27) by push_cast; ring] at this
      exact this
    simp only [rsum]
    have r1 := r 1 (by norm_num) (by norm_num)
    have r2 := r 2 (by norm_num) (by norm_num)
    have r3 := r 3 (by norm_num) (by norm_num)
    push_cast at r1 r2 r3
    generalize (1 + 3 / 2 ^ 27 : ℝ) = y at *
    rw [one_mul] at r1
    rw [zero_add, r1, ← two_mul, r2, show 2 * y + y = 3 * y by ring, r3]
  have eQ : rsum (fun _ => ((2 ^ 54 + 6 * 2 ^ 27 + 8) / 2 ^ 54 : ℝ)) 3 = 3 * ((2 ^ 54 + 6 * 2 ^ 27 + 8) / 2 ^ 54) := by
    have r : ∀ k : ℤ, 0 < k → k ≤ 3 → roundBits 53 (k * ((2 ^ 54 + 6 * 2 ^ 27 + 8) / 2 ^ 54) : ℝ) = k * ((2 ^ 54 + 6 * 2 ^ 27 + 8) / 2 ^ 54) := by
      intro k h0 h3
      have := roundBits_exact 53 (k * (2 ^ 51 + 6 * 2 ^ 24 + 1)) (-51) (by rw [abs_of_pos (by positivity)]; omega) (by norm_num)
      rw [z51, show ((k * (2 ^ 51 + 6 * 2 ^ 24 + 1) : ℤ) : ℝ) * (1 / 2 ^ 51) = k * ((2 ^ 54 + 6 * 2 ^ 27 + 8) / 2 ^ 54) by push_cast; ring] at this
      exact this
    simp only [rsum]
    have r1 := r 1 (by norm_num) (by norm_num)
    have r2 := r 2 (by norm_num) (by norm_num)
    have r3 := r 3 (by norm_num) (by norm_num)
    push_cast at r1 r2 r3
    generalize ((2 ^ 54 + 6 * 2 ^ 27 + 8) / 2 ^ 54 : ℝ) = y at *
    rw [one_mul] at r1
    rw [zero_add, r1, ← two_mul, r2, show 2 * y + y = 3 * y by ring, r3]
  dsimp only at s1 q1
  rw [e1, eQ] at q1
  rw [eS] at s1
  have i3 : (ofInt 3 : Flo).Is 3 := (Flo.ofInt_is 3 (by norm_num)).of_eq (by norm_num)
  -- the two large numbers
  have iN := Flo.mul_is i3 q1 (by rw [abs_of_pos (by norm_num)]; norm_num)
  have iP := Flo.mul_is s1 s1 (by rw [abs_of_pos (by norm_num)]; norm_num)
  have eN : roundBits 53 (3 * (3 * ((2 ^ 54 + 6 * 2 ^ 27 + 8) / 2 ^ 54)) : ℝ) = (9 * 2 ^ 54 + 54 * 2 ^ 27 + 64) / 2 ^ 54 := by
    rw [roundBits_near 53 (by norm_num) _ (9 * 2 ^ 49 + 54 * 2 ^ 22 + 2) (-49) (by norm_num)]
    · push_cast; rw [z49]; norm_num
    · rw [z49, abs_of_pos (by norm_num)]; norm_num
    · rw [z49, abs_of_pos (by norm_num)]; norm_num
    · rw [z49, abs_lt]; push_cast; constructor <;> norm_num
  have eP : roundBits 53 (3 * (1 + 3 / 2 ^ 27) * (3 * (1 + 3 / 2 ^ 27)) : ℝ) = (9 * 2 ^ 54 + 54 * 2 ^ 27 + 96) / 2 ^ 54 := by
    rw [roundBits_near 53 (by norm_num) _ (9 * 2 ^ 49 + 54 * 2 ^ 22 + 3) (-49) (by norm_num)]
    · push_cast; rw [z49]; norm_num
    · rw [z49, abs_of_pos (by norm_num)]; norm_num
    · rw [z49, abs_of_pos (by norm_num)]; norm_num
    · rw [z49, abs_lt]; push_cast; constructor <;> norm_num
  rw [eN] at iN
  rw [eP] at iP
  have iD := Flo.sub_is iN iP (by rw [abs_of_neg (by norm_num)]; norm_num)
  have eD : roundBits 53 ((9 * 2 ^ 54 + 54 * 2 ^ 27 + 64) / 2 ^ 54 - (9 * 2 ^ 54 + 54 * 2 ^ 27 + 96) / 2 ^ 54 : ℝ) = -(1 / 2 ^ 49) := by
    have := roundBits_exact 53 (-1) (-49) (by norm_num) (by norm_num)
    push_cast at this
    rw [z49] at this
    rw [show ((9 * 2 ^ 54 + 54 * 2 ^ 27 + 64) / 2 ^ 54 - (9 * 2 ^ 54 + 54 * 2 ^ 27 + 96) / 2 ^ 54 : ℝ) = -1 * (1 / 2 ^ 49) by norm_num, this]
    norm_num
  rw [eD] at iD
  -- the divisor
  have i2 := Flo.sub_is i3 flo_lit_one (by norm_num)
  have e2 : roundBits 53 (3 - 1 : ℝ) = 2 := by
    have := roundBits_exact 53 2 0 (by norm_num) (by norm_num)
    norm_num at this ⊢
    exact this
  rw [e2] at i2
  have i6 := Flo.mul_is i3 i2 (by norm_num)
  have e6 : roundBits 53 (3 * 2 : ℝ) = 6 := by
    have := roundBits_exact 53 6 0 (by norm_num) (by norm_num)
    norm_num at this ⊢
    exact this
  rw [e6] at i6
  have id := Flo.div_is flo_lit_one i6 (by norm_num) (by norm_num [abs_of_pos])
  have ed := roundBits_rel 53 (by norm_num) (by norm_num) (x := (1 / 6 : ℝ)) (by rw [abs_of_pos (by norm_num)]; norm_num)
  rw [abs_of_pos (show (0 : ℝ) < 1 / 6 by norm_num), abs_le] at ed
  have d0 : 1 / 7 ≤ roundBits 53 (1 / 6 : ℝ) := by
    have := ed.1
    norm_num at this ⊢
    linarith
  have d1 : roundBits 53 (1 / 6 : ℝ) ≤ 1 := by
    have := ed.2
    norm_num at this ⊢
    linarith
  generalize roundBits 53 (1 / 6 : ℝ) = d at *
  have hneg : -(1 / 2 ^ 49) * d ≤ -(1 / 2 ^ 52) := by
    have : (1 : ℝ) / 2 ^ 49 * (1 / 7) ≤ 1 / 2 ^ 49 * d := mul_le_mul_of_nonneg_left d0 (by positivity)
    norm_num at this ⊢
    linarith
  have habs : |-(1 / 2 ^ 49) * d| ≤ 1 := by
    rw [abs_mul, abs_neg, abs_of_pos (by positivity), abs_of_pos (by linarith)]
    calc _ ≤ (1 : ℝ) / 2 ^ 49 * 1 := mul_le_mul_of_nonneg_left d1 (by positivity)
      _ ≤ 1 := by norm_num
  have iv := Flo.mul_is iD id (habs.trans (by norm_num))
  have hv : roundBits 53 (-(1 / 2 ^ 49) * d) < 0 := by
    have := roundBits_mono 53 (by norm_num) hneg
    have e := roundBits_exact 53 (-1) (-52) (by norm_num) (by norm_num)
    push_cast at e
    rw [z52, show (-1 : ℝ) * (1 / 2 ^ 52) = -(1 / 2 ^ 52) by ring] at e
    rw [e] at this
    refine lt_of_le_of_lt this ?_
    norm_num
  have hvar : (accumulate (fun _ => bright) Cell.zero 3).variance.R.Is (roundBits 53 (-(1 / 2 ^ 49) * d)) := by
    rw [Cell.variance, hk]
    exact iv
  refine ⟨_, hv, hvar, ?_⟩
  obtain ⟨s, hs⟩ := hvar
  change GoFloat.isNaN (GoFloat.sqrt (accumulate (fun _ => bright) Cell.zero 3).variance.R) = true
  change GoFloat.isNaN (Flo.rnd (GoFloat.sqrt (accumulate (fun _ => bright) Cell.zero 3).variance.R.e)).e = true
  rw [hs]
  have : (GoFloat.sqrt (Ext.num (roundBits 53 (-(1 / 2 ^ 49) * d)) s) : Ext) = .nan := if_pos hv
  rw [this]
  rfl

/-- However many workers there are and however they are scheduled: when they have all returned, each pixel of the picture is the
mean of possible colours of its passes, up to rounding. -/
theorem C98_picture {C : Type} {W : Nat} {sh : Shader Flo C} {w h : Nat} {aa : Bool} {I : C → Prop} {ctx0 : Fin W → C}
    {P : Pixel → ℕ → Color ℝ → Prop} (hP : ∀ p k c, P p k c → c.Moderate)
    (hpos : Possible sh w h aa I fun p k c => ∃ C, c.FIs C ∧ P p k C) (hI : ∀ i, I (ctx0 i)) (hW : 0 < W) (h1 : 1 ≤ n) (hn : n ≤ 2 ^ 26)
    (s : SamplerState Flo C W) (k : Nat) (hr : Runs sh w h aa n (samplerInit w h ctx0 fun _ => Cell.zero) k s) (hdone : s.done)
    (p : Pixel) (hx : p.1 < w) (hy : p.2 < h) :
    ∃ G : ℕ → Color ℝ, (∀ j, P p j (G j)) ∧ ∃ X : Color ℝ, (s.mem p).image.FIs X ∧ NearMean (fun k => (G k).R) n X.R ∧
      NearMean (fun k => (G k).G) n X.G ∧ NearMean (fun k => (G k).B) n X.B := by
  obtain ⟨g, hg, hmem⟩ := C03_every_pass hpos hI hW s k hr hdone
  choose G hG using fun j => hg p hx hy j
  refine ⟨G, fun j => (hG j).2, ?_⟩
  rw [hmem p, if_pos ⟨hx, hy⟩]
  exact C98_mean (fun j => (hG j).1) (fun j => hP _ _ _ (hG j).2) h1 hn

/-- For samples that are not negative the picture is the mean up to a relative error: a thousand passes lose less than one part in
four million millions. -/
example {x : ℕ → ℝ} (hx : ∀ k, 0 ≤ x k) {X : ℝ} (h : NearMean x 1000 X) :
    |X - mean x 1000| ≤ 1 / 2 ^ 41 * mean x 1000 + 1 / 2 ^ 190 := by
  unfold NearMean at h
  rw [sum_congr rfl fun k _ => abs_of_nonneg (hx k)] at h
  refine h.trans ?_
  have : 0 ≤ mean x 1000 := div_nonneg (sum_nonneg fun k _ => hx k) (by norm_num)
  change (2 * ((1000 : ℕ) : ℝ) + 4) / 2 ^ 53 * mean x 1000 + 1 / 2 ^ 190 ≤ _
  have h2 : (2 * ((1000 : ℕ) : ℝ) + 4) / 2 ^ 53 ≤ 1 / 2 ^ 41 := by norm_num
  linarith [mul_le_mul_of_nonneg_right h2 this]

/-- Non-vacuity: a hundred samples that alternate between black and white. -/
example : ∃ (g : ℕ → Color Flo) (G : ℕ → Color ℝ), (∀ k, (g k).FIs (G k)) ∧ (∀ k, (G k).Moderate) ∧ G 0 ≠ G 1 ∧
    ∃ V : Color ℝ, (accumulate g Cell.zero 100).variance.FIs V ∧ NearVariance (fun k => (G k).R) 100 V.R := by
  have hg : ∀ k : ℕ, (if Even k then Color.black else ⟨lit 1, lit 1, lit 1⟩ : Color Flo).FIs (if Even k then ⟨0, 0, 0⟩ else ⟨1, 1, 1⟩) := by
    intro k
    split
    · exact ⟨Ball.flo_zero, Ball.flo_zero, Ball.flo_zero⟩
    · exact ⟨flo_lit_one, flo_lit_one, flo_lit_one⟩
  have hG : ∀ k : ℕ, (if Even k then ⟨0, 0, 0⟩ else ⟨1, 1, 1⟩ : Color ℝ).Moderate := by
    intro k
    split <;> refine ⟨?_, ?_, ?_⟩ <;> norm_num
  refine ⟨_, _, hg, hG, by norm_num, ?_⟩
  obtain ⟨V, h1, h2, -⟩ := C98_variance (n := 100) hg hG (by norm_num) (by norm_num)
  exact ⟨V, h1, h2⟩

end BR
