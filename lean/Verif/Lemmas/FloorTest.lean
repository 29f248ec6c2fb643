import Verif.Lemmas.FloorBox

/-! A flat box in double precision: the test of the tree before the triangles. -/

namespace BR
set_option linter.unusedSectionVars false

open CmpModel

namespace Flo

/-- Rounding to single precision. -/
theorem toF32_is {a : Flo} {x : ℝ} (h : a.Is x) (hx : |x| ≤ 2 ^ 20) :
    (GoFloat.toF32 a).Is (roundBits 24 x) ∧ |roundBits 24 x - x| ≤ |x| / 2 ^ 24 + 1 / 2 ^ 100 := by
  have hr : |roundBits 24 x - x| ≤ |x| / 2 ^ 24 + 1 / 2 ^ 100 := by
    rcases eq_or_ne x 0 with rfl | hx0
    · rw [roundBits_zero]; simp
    refine (roundBits_half 24 x).trans ?_
    have h1 := half_place 24 hx0
    have h0 : 0 ≤ |x| / 2 ^ 24 := by positivity
    have h2 : (1 / 2 : ℝ) * 2 ^ lowest 24 ≤ 1 / 2 ^ 100 := by
      have : lowest 24 = -149 := rfl
      rw [this]; norm_num
    have h3 : (0 : ℝ) ≤ 1 / 2 ^ 100 := by positivity
    unfold lastPlace
    rcases max_choice (Int.log 2 |x| - (((24 : ℕ) : ℤ) - 1)) (lowest 24) with e | e <;> rw [e] <;> linarith
  refine ⟨?_, hr⟩
  obtain ⟨s, hs⟩ := h
  have hb : |roundBits 24 x| < 2 ^ 128 := by
    have := abs_sub_abs_le_abs_sub (roundBits 24 x) x
    norm_num at *; linarith
  refine ⟨if roundBits 24 x = 0 then (Ext.num x s).sgn else s, ?_⟩
  change roundTo 24 128 a.e = _
  rw [hs, roundTo, if_neg (not_le.2 hb)]

private theorem slab_flat {lo hi s d : Flo} {F S D : ℝ} (hlo : lo.Is F) (hhi : hi.Is F) (hs : s.Is S) (hd : d.Is D)
    (h1 : 1 / 2 ^ 60 ≤ |F - S|) (h2 : |F - S| ≤ 2 ^ 11) (h3 : 1 / 2 ^ 60 ≤ |D|) (h4 : |D| ≤ 2) :
    ∃ k, (BBox.slab lo hi s d).1.Is k ∧ (BBox.slab lo hi s d).2.Is k ∧ |k - (F - S) / D| ≤ 1 / 2 ^ 49 * |(F - S) / D| := by
  have F0 : 0 < |F - S| := lt_of_lt_of_le (by positivity) h1
  have D0 : 0 < |D| := lt_of_lt_of_le (by positivity) h3
  have hD : D ≠ 0 := abs_pos.1 D0
  have i1 : 1 / |D| ≤ 2 ^ 60 := by
    rw [div_le_iff₀ D0]; norm_num at *; linarith
  have i2 : 1 / 2 ≤ 1 / |D| := one_div_le_one_div_of_le D0 h4
  have fF : Roomy |F - S| := ⟨le_trans (by norm_num) h1, h2.trans (by norm_num)⟩
  have fD : Roomy (1 / |D|) := ⟨le_trans (by norm_num) i2, i1.trans (by norm_num)⟩
  have fQ : Roomy (|F - S| * (1 / |D|)) := by
    refine ⟨?_, ?_⟩
    · refine le_trans ?_ (mul_le_mul h1 i2 (by norm_num) F0.le)
      norm_num
    · refine (mul_le_mul h2 i1 (by positivity) (by positivity)).trans ?_
      norm_num
  have inv : ((lit 1 : Flo) / d).Rel (1 / D) (1 / 2 ^ 52) 1 (1 / |D|) := by
    have a := flo_lit_one.rel (b := 1) (Q := 1) (by simp)
    have b := hd.rel (b := 1) (Q := |D|) (by simp)
    exact Rel.div 1 (1 / 2 ^ 52) 1 one_pos D0 fD a b (by simp)
  have both : ∀ f : Flo, f.Is F → ∃ A, (f - s).Is A ∧ |A - (F - S)| ≤ 1 / 2 ^ 52 * |F - S| ∧ A = roundBits 53 (F - S) := by
    intro f hf
    obtain ⟨⟨v, hv, e⟩, -⟩ := Is.sub_rel (b := 1) (1 / 2 ^ 52) fF hf hs (by simp)
    have g := sub_is hf hs (h2.trans (by norm_num))
    have : v = roundBits 53 (F - S) := by
      obtain ⟨u, hu⟩ := hv
      obtain ⟨w, hw⟩ := g
      rw [hu] at hw
      injection hw
    exact ⟨v, hv, e, this⟩
  obtain ⟨A, hA, eA, rA⟩ := both lo hlo
  obtain ⟨A', hA', eA', rA'⟩ := both hi hhi
  rw [← rA] at rA'
  subst rA'
  have prod : ∀ f : Flo, f.Is A' → ∃ k, (f * (lit 1 / d)).Is k ∧ |k - (F - S) / D| ≤ 1 / 2 ^ 49 * |(F - S) / D| := by
    intro f hf
    have := Rel.mul (1 / 2 ^ 49) 1 F0 (by positivity) fQ (⟨⟨A', hf, eA'⟩, by simp⟩ : f.Rel (F - S) (1 / 2 ^ 52) 1 |F - S|) inv
    obtain ⟨⟨k, hk, ek⟩, -⟩ := this
    refine ⟨k, hk, ?_⟩
    rwa [mul_one_div, mul_one_div, ← abs_div] at ek
  obtain ⟨k, hk, ek⟩ := prod (lo - s) hA
  obtain ⟨k', hk', ek'⟩ := prod (hi - s) hA'
  have same : k = k' := by
    obtain ⟨⟨i, ⟨si, hsi⟩, -⟩, -⟩ := inv
    obtain ⟨sa, hsa⟩ := hA
    obtain ⟨sb, hsb⟩ := hA'
    obtain ⟨u, hu⟩ := hk
    obtain ⟨w, hw⟩ := hk'
    change (rnd ((lo - s).e * (lit 1 / d).e)).e = _ at hu
    change (rnd ((hi - s).e * (lit 1 / d).e)).e = _ at hw
    rw [hsa, hsi, Ext.num_mul_num] at hu
    rw [hsb, hsi, Ext.num_mul_num] at hw
    rcases rnd_cases (A' * i) ((Ext.num A' sa).sgn ^^ (Ext.num i si).sgn) with ⟨v, h⟩ | ⟨v, h⟩
    · rw [h] at hu; cases hu
    · rcases rnd_cases (A' * i) ((Ext.num A' sb).sgn ^^ (Ext.num i si).sgn) with ⟨v', h'⟩ | ⟨v', h'⟩
      · rw [h'] at hw; cases hw
      · rw [h] at hu
        rw [h'] at hw
        injection hu with hu
        injection hw with hw
        rw [← hu, ← hw]
  subst same
  refine ⟨k, ?_, ?_, ek⟩
  · rcases slab_fst_cases lo hi s d with e | e <;> rw [e]
    · exact hk
    · exact hk'
  · rcases slab_snd_cases lo hi s d with e | e <;> rw [e]
    · exact hk
    · exact hk'

/-- **The test of a flat box**: if the line meets it clearly inside its edges, ahead, the test says so. -/
theorem flat_box {bb : BBox Flo} {r : Ray Flo} {S d : Vec ℝ} {a0 a1 c0 c1 F : ℝ} (hlo : bb.min.FIs ⟨a0, F, c0⟩)
    (hhi : bb.max.FIs ⟨a1, F, c1⟩) (hs : r.start.FIs S) (hd : r.dir.FIs d)
    (b1 : |a0| ≤ 2 ^ 10) (b2 : |a1| ≤ 2 ^ 10) (b3 : |c0| ≤ 2 ^ 10) (b4 : |c1| ≤ 2 ^ 10)
    (s1 : |S.x| ≤ 2 ^ 10) (s2 : |S.z| ≤ 2 ^ 10) (d1 : |d.x| ≤ 2) (d2 : |d.y| ≤ 2) (d3 : |d.z| ≤ 2)
    (h1 : 1 / 2 ^ 60 ≤ |F - S.y|) (h2 : |F - S.y| ≤ 2 ^ 11) (h3 : 1 / 2 ^ 60 ≤ |d.y|)
    (hT : 0 < (F - S.y) / d.y) (hT1 : (F - S.y) / d.y ≤ 2 ^ 13)
    (hin : ∀ T : ℝ, |S.y + T * d.y - F| ≤ 1 / 2 ^ 38 → a0 + 1 / 2 ^ 38 ≤ S.x + T * d.x ∧ S.x + T * d.x ≤ a1 - 1 / 2 ^ 38 ∧
      c0 + 1 / 2 ^ 38 ≤ S.z + T * d.z ∧ S.z + T * d.z ≤ c1 - 1 / 2 ^ 38) :
    (bb.intersect r <=. lit 0) = false := by
  obtain ⟨k, hk1, hk2, ek⟩ := slab_flat hlo.2.1 hhi.2.1 hs.2.1 hd.2.1 h1 h2 h3 d2
  have D0 : d.y ≠ 0 := by intro h; rw [h, div_zero] at hT; exact lt_irrefl _ hT
  have k0 : 0 < k := by
    rw [abs_of_pos hT, abs_le] at ek
    norm_num at *; linarith
  have k1 : k ≤ 2 ^ 14 := by
    rw [abs_of_pos hT, abs_le] at ek
    norm_num at *; linarith
  have hp : |S.y + k * d.y - F| ≤ 1 / 2 ^ 38 := by
    have : S.y + k * d.y - F = (k - (F - S.y) / d.y) * d.y := by field_simp; ring
    rw [this, abs_mul]
    refine (mul_le_mul_of_nonneg_right ek (abs_nonneg _)).trans ?_
    rw [mul_assoc, ← abs_mul, div_mul_cancel₀ _ D0]
    norm_num at *; linarith
  obtain ⟨i1, i2, i3, i4⟩ := hin k hp
  obtain ⟨xa, xb, xka, xkb, xl, xu⟩ := slab_clear hlo.1 hhi.1 hs.1 hd.1 b1 b2 s1 d1 k0.le k1 i1 i2
  obtain ⟨za, zb, zka, zkb, zl, zu⟩ := slab_clear hlo.2.2 hhi.2.2 hs.2.2 hd.2.2 b3 b4 s2 d3 k0.le k1 i3 i4
  have hten := key_upper (key_upper xka hk1.key) zka
  have htex := key_lower (key_lower xkb hk2.key) zkb
  change key (BBox.max3 _ _ _) = _ at hten
  change key (BBox.min3 _ _ _) = _ at htex
  rw [max_eq_right xl.le, max_eq_left zl.le] at hten
  rw [min_eq_right xu.le, min_eq_left zu.le] at htex
  have e : bb.intersect r = BBox.max3 (BBox.slab bb.min.x bb.max.x r.start.x r.dir.x).1
      (BBox.slab bb.min.y bb.max.y r.start.y r.dir.y).1 (BBox.slab bb.min.z bb.max.z r.start.z r.dir.z).1 := by
    unfold BBox.intersect BBox.tenTex
    dsimp only
    rw [show (BBox.max3 _ _ _ >. BBox.min3 _ _ _) = _ from lt_is (flo_of_key htex) (flo_of_key hten), if_neg (by simp),
      lt_is (flo_of_key hten) Ball.flo_zero, if_neg (by simpa using k0.le)]
  rw [e, Bool.eq_false_iff]
  intro hle
  obtain ⟨_, _, p1, p2, p3⟩ := (le_iff _ _).1 hle
  rw [hten, Option.some.injEq] at p1
  rw [Ball.flo_zero.key, Option.some.injEq] at p2
  subst p1 p2
  exact absurd p3 (not_le.2 (by exact_mod_cast k0))

end Flo

end BR
