import Verif.Lemmas.Lit

/-! The rays that a surface casts lead away from its tangent plane. -/

namespace BR

/-- The ray starts within `2 gap` of the point `P` of a surface with normal `N`, and leads away from the tangent plane. If
`across`, it does not start in that plane. -/
def Leaves (across : Prop) (P N : Vec ℝ) (R : Ray ℝ) : Prop :=
  R.dir.dot R.dir = 1 ∧ ((R.start.sub P).dot (R.start.sub P) ≤ (2 * gap) ^ 2) ∧
  0 ≤ (R.start.sub P).dot N * R.dir.dot N ∧ (across → (R.start.sub P).dot N ≠ 0)

theorem casts_leaving {shadow : Ray ℝ → ℝ → Prop} {next : Ray ℝ → Prop} {lamps : List Bulb} {R : Ray ℝ} {T : ℝ} {N : Vec ℝ}
    (hu : R.dir.dot R.dir = 1) (hN : N.dot N = 1)
    (hsh : ∀ L ∈ lamps, ∀ R' : Ray ℝ, Leaves (R.dir.dot N ≠ 0) (R.at T) N R' → shadow R' (length3 (L.pos.sub R'.start)))
    (hnx : ∀ R' : Ray ℝ, Leaves (R.dir.dot N ≠ 0) (R.at T) N R' → next R')
    (hfar : ∀ L ∈ lamps, gap < length3 (L.pos.sub (R.at T))) (X : Surface) : Casts shadow next lamps R T N X := by
  have hg : 0 < gap := by unfold gap; norm_num
  have mir : ∀ {n w : Vec ℝ}, n.dot n = 1 → IsMirror R.dir n w → w.dot w = 1 := by
    rintro n w hn ⟨h1, h2⟩
    simp only [geo] at hu hn h1 h2 ⊢
    obtain ⟨e1, e2, e3⟩ := h2
    rw [h1] at e1 e2 e3
    have e1' : w.x = R.dir.x - 2 * (R.dir.x * n.x + R.dir.y * n.y + R.dir.z * n.z) * n.x := by linarith
    have e2' : w.y = R.dir.y - 2 * (R.dir.x * n.x + R.dir.y * n.y + R.dir.z * n.z) * n.y := by linarith
    have e3' : w.z = R.dir.z - 2 * (R.dir.x * n.x + R.dir.y * n.y + R.dir.z * n.z) * n.z := by linarith
    rw [e1', e2', e3']
    linear_combination hu + 4 * (R.dir.x * n.x + R.dir.y * n.y + R.dir.z * n.z) ^ 2 * hn
  have hlamp : ∀ L ∈ lamps, L.pos ≠ (R.at T).add ((facing N R.dir).mul gap) := by
    intro L hL e
    have := hfar L hL
    rw [e] at this
    have hfu := facing_unit (D := R.dir) hN
    generalize facing N R.dir = fn at this hfu
    generalize R.at T = P at this
    have e2 : length3 ((P.add (fn.mul gap)).sub P) = gap := by
      unfold length3
      have : ((P.add (fn.mul gap)).sub P).x ^ 2 + ((P.add (fn.mul gap)).sub P).y ^ 2 + ((P.add (fn.mul gap)).sub P).z ^ 2 =
          gap ^ 2 := by
        simp only [geo] at hfu ⊢
        linear_combination gap ^ 2 * hfu
      rw [this, Real.sqrt_sq hg.le]
    rw [e2] at this
    exact lt_irrefl _ this
  -- the normal on the side of the viewer
  obtain ⟨s, hs, hfac⟩ : ∃ s : ℝ, s ^ 2 = 1 ∧ facing N R.dir = N.mul s := by
    unfold facing
    split
    · exact ⟨-1, by norm_num, by simp only [geo]; refine ⟨?_, ?_, ?_⟩ <;> ring⟩
    · exact ⟨1, by norm_num, by simp only [geo]; refine ⟨?_, ?_, ?_⟩ <;> ring⟩
  -- rays that start in front of the surface
  have front : ∀ (k : ℝ) (ω : Vec ℝ), 0 < k → k ≤ 2 * gap → ω.dot ω = 1 → 0 ≤ ω.dot (facing N R.dir) →
      Leaves (R.dir.dot N ≠ 0) (R.at T) N ⟨(R.at T).add ((facing N R.dir).mul k), ω⟩ := by
    intro k ω hk hk2 hω hside
    rw [hfac] at hside ⊢
    generalize R.at T = P
    have e1 : (((P.add ((N.mul s).mul k)).sub P).dot ((P.add ((N.mul s).mul k)).sub P)) = k ^ 2 := by
      simp only [geo] at hN ⊢
      linear_combination (k ^ 2 * s ^ 2) * hN + k ^ 2 * hs
    have e2 : ((P.add ((N.mul s).mul k)).sub P).dot N = s * k := by
      simp only [geo] at hN ⊢
      linear_combination (s * k) * hN
    refine ⟨hω, ?_, ?_, ?_⟩
    · dsimp only
      rw [e1]
      exact pow_le_pow_left₀ hk.le hk2 2
    · dsimp only
      rw [e2]
      have : s * k * ω.dot N = k * ω.dot (N.mul s) := by simp only [geo]; ring
      rw [this]
      exact mul_nonneg hk.le hside
    · intro _
      dsimp only
      rw [e2]
      refine mul_ne_zero ?_ hk.ne'
      rintro rfl
      norm_num at hs
  -- rays that start on the ray
  have along : ∀ (k : ℝ) (w : Vec ℝ), |k| = gap → w.dot w = 1 → 0 ≤ k * R.dir.dot N * w.dot N →
      Leaves (R.dir.dot N ≠ 0) (R.at T) N ⟨R.at (T + k), w⟩ := by
    intro k w hk hw hside
    have hk2 : k ^ 2 = gap ^ 2 := by rw [← sq_abs, hk]
    have e1 : ((R.at (T + k)).sub (R.at T)).dot ((R.at (T + k)).sub (R.at T)) = k ^ 2 := by
      simp only [geo, Ray.at] at hu ⊢
      linear_combination k ^ 2 * hu
    have e2 : ((R.at (T + k)).sub (R.at T)).dot N = k * R.dir.dot N := by
      simp only [geo, Ray.at]
      ring
    refine ⟨hw, ?_, ?_, ?_⟩
    · dsimp only
      rw [e1, hk2]
      nlinarith
    · dsimp only
      rw [e2]
      exact hside
    · intro ha
      dsimp only
      rw [e2]
      refine mul_ne_zero ?_ ha
      rintro rfl
      rw [abs_zero] at hk
      exact hg.ne hk
  have sub : ∀ x : ℝ, R.at (x - gap) = R.at (x + -gap) := fun x => by rw [sub_eq_add_neg]
  have mirror : ∀ w, IsMirror R.dir N w → next ⟨R.at (T - gap), w⟩ := by
    intro w hw
    rw [sub]
    refine hnx _ (along _ w (by rw [abs_neg, abs_of_pos hg]) (mir hN hw) ?_)
    rw [hw.1]
    nlinarith [mul_nonneg hg.le (sq_nonneg (R.dir.dot N))]
  induction X with
  | glow => trivial
  | matte =>
    refine ⟨fun L hL => ⟨hlamp L hL, fun hpos => ?_⟩, fun ω hω hside => hnx _ (front _ ω (by linarith) le_rfl hω hside)⟩
    have hne : L.pos.sub ((R.at T).add ((facing N R.dir).mul gap)) ≠ ⟨0, 0, 0⟩ := by
      intro e
      apply hlamp L hL
      simp only [geo] at e ⊢
      refine ⟨?_, ?_, ?_⟩ <;> linarith [e.1, e.2.1, e.2.2]
    refine hsh L hL ⟨_, _⟩ (front gap _ hg (by linarith) (unitVec_dot hne) ?_)
    have hl := Real.sqrt_nonneg ((L.pos.sub ((R.at T).add ((facing N R.dir).mul gap))).dot
      (L.pos.sub ((R.at T).add ((facing N R.dir).mul gap))))
    generalize L.pos.sub ((R.at T).add ((facing N R.dir).mul gap)) = d at hpos hl ⊢
    have : (unitVec d).dot (facing N R.dir) = 1 / Real.sqrt (d.dot d) * d.dot (facing N R.dir) := by
      unfold unitVec
      simp only [Vec.mul, Vec.dot]
      ring
    rw [this]
    exact mul_nonneg (by positivity) hpos.le
  | mirror => exact mirror
  | varnish n X ih => exact ⟨mirror, ih⟩
  | glass n1 n2 =>
    intro I hI
    have hI1 : I.i = R.dir := by
      obtain ⟨k, hk, e⟩ := hI.i_dir
      have h1 := hI.i_unit
      rw [e] at h1 ⊢
      have : k = 1 := by
        have h2 : k ^ 2 = 1 := by
          simp only [geo] at h1 hu
          nlinarith
        nlinarith
      rw [this]
      simp [Vec.mul]
    obtain ⟨κ, hκ, hI2⟩ : ∃ κ : ℝ, κ ^ 2 = 1 ∧ I.n = N.mul κ := by
      obtain ⟨k, e⟩ : ∃ k : ℝ, I.n = N.mul k := by
        rcases le_or_gt (R.dir.dot N) 0 with h | h
        · obtain ⟨⟨k, -, e⟩, -⟩ := hI.outside h
          exact ⟨k, e⟩
        · obtain ⟨⟨k, -, e⟩, -⟩ := hI.inside h
          exact ⟨k, e⟩
      refine ⟨k, ?_, e⟩
      have h1 := hI.n_unit
      rw [e] at h1
      simp only [geo] at h1 hN
      linear_combination h1 - k ^ 2 * hN
    have dotn : ∀ v : Vec ℝ, v.dot I.n = κ * v.dot N := by
      intro v
      rw [hI2]
      simp only [geo]
      ring
    refine ⟨fun w hw => ?_, fun _ t ht hside _ => ?_⟩
    · rcases hw with hw | hw
      · exact mirror w hw
      · rw [hI1] at hw
        rw [sub]
        refine hnx _ (along _ w (by rw [abs_neg, abs_of_pos hg]) (mir hI.n_unit hw) ?_)
        have h1 := hw.1
        rw [dotn, dotn] at h1
        have h2 : w.dot N = - R.dir.dot N := by
          have : κ * (κ * w.dot N) = κ * (-(κ * R.dir.dot N)) := by rw [h1]
          linear_combination this - (w.dot N + R.dir.dot N) * hκ
        rw [h2]
        nlinarith [mul_nonneg hg.le (sq_nonneg (R.dir.dot N))]
    · refine hnx _ (along _ t (abs_of_pos hg) ht ?_)
      have h1 := hI.side
      rw [hI1, dotn] at h1
      rw [dotn] at hside
      have := mul_nonneg_of_nonpos_of_nonpos h1 hside
      have e : gap * R.dir.dot N * t.dot N = gap * (κ * R.dir.dot N * (κ * t.dot N)) := by
        linear_combination -(gap * R.dir.dot N * t.dot N) * hκ
      rw [e]
      exact mul_nonneg hg.le this
  | clear =>
    refine hnx _ (along _ _ (abs_of_pos hg) hu ?_)
    nlinarith [mul_nonneg hg.le (sq_nonneg (R.dir.dot N))]
  | mix a X b Y ih1 ih2 => exact ⟨ih1, ih2⟩
  | sides X Y ih1 ih2 => exact ⟨fun _ => ih1, fun _ => ih2⟩

end BR
