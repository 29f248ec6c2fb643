import Verif.Lemmas.ExtCam
import Verif.Spec.Lit
import Verif.Lemmas.Refract
import Verif.Props.C44_Reflection
import Verif.Props.C46_Sampling
import Verif.Props.C48_ExpFog
import Verif.Props.C58_Deterministic

/-! Directions and weights computed by materials, in extended numbers: for finite data they are those of exact
arithmetic. -/

namespace BR

namespace Ext.Is

variable {a : Ext} {x y : ℝ}

theorem floor (ha : a.Is x) : (GoFloat.floor a).Is ⌊x⌋ := by obtain ⟨s, rfl⟩ := ha; exact ⟨_, rfl⟩

theorem frac (ha : a.Is x) : (BR.frac a).Is (Int.fract x) := by
  exact Ext.Is.of_eq (ha.sub ha.floor) rfl

theorem unique (ha : a.Is x) (hb : a.Is y) : x = y := by
  obtain ⟨s, rfl⟩ := ha
  obtain ⟨t, e⟩ := hb
  injection e

end Ext.Is

theorem pi_is : (GoFloat.pi : Ext).Is Real.pi := ⟨_, rfl⟩

theorem lit0_is : (lit 0 : Ext).Is 0 := by simpa using Ext.Is.lit 0

theorem lit1_is : (lit 1 : Ext).Is 1 := by simpa using Ext.Is.lit 1

theorem tiny_is : (tiny : Ext).Is gap := Ext.Is.of_eq (Ext.Is.lit _) (by unfold gap; norm_num)

namespace Color.Is

variable {c d : Color Ext} {C D : Color ℝ}

theorem add (hc : c.Is C) (hd : d.Is D) : (c.add d).Is ⟨C.R + D.R, C.G + D.G, C.B + D.B⟩ :=
  ⟨hc.1.add hd.1, hc.2.1.add hd.2.1, hc.2.2.add hd.2.2⟩

theorem mul (hc : c.Is C) {s : Ext} {k : ℝ} (hs : s.Is k) : (c.mul s).Is ⟨C.R * k, C.G * k, C.B * k⟩ :=
  ⟨Ext.Is.of_eq (hs.mul hc.1) (mul_comm _ _), Ext.Is.of_eq (hs.mul hc.2.1) (mul_comm _ _),
    Ext.Is.of_eq (hs.mul hc.2.2) (mul_comm _ _)⟩

theorem mul3 (hc : c.Is C) (hd : d.Is D) : (c.mul3 d).Is ⟨C.R * D.R, C.G * D.G, C.B * D.B⟩ :=
  ⟨hc.1.mul hd.1, hc.2.1.mul hd.2.1, hc.2.2.mul hd.2.2⟩

theorem madd (hc : c.Is C) {s : Ext} {k : ℝ} (hs : s.Is k) (hd : d.Is D) :
    (c.madd s d).Is ⟨C.R + k * D.R, C.G + k * D.G, C.B + k * D.B⟩ :=
  ⟨hc.1.add (hs.mul hd.1), hc.2.1.add (hs.mul hd.2.1), hc.2.2.add (hs.mul hd.2.2)⟩

theorem of_eq (hc : c.Is C) (e : C = D) : c.Is D := e ▸ hc

end Color.Is

theorem black_is : (Color.black : Color Ext).Is ⟨0, 0, 0⟩ := ⟨lit0_is, lit0_is, lit0_is⟩

/-- Unit vectors are finite and normalizing does not change them. -/
theorem unitVec_unit {V : Vec ℝ} (h : V.dot V = 1) : unitVec V = V := by
  unfold unitVec
  rw [h, Real.sqrt_one]
  simp [geo]

theorem unit_ne {V : Vec ℝ} (h : V.dot V = 1) : V ≠ ⟨0, 0, 0⟩ := by
  rintro rfl
  simp [geo] at h

theorem normalized_unit {v : Vec Ext} {V : Vec ℝ} (h : v.Is V) (hV : V.dot V = 1) : v.normalized.Is V :=
  (h.normalized (unit_ne hV)).of_eq (unitVec_unit hV)

theorem flipTowards_is {n d : Vec Ext} {N D : Vec ℝ} (hn : n.Is N) (hd : d.Is D) : (flipTowards n d).Is (facing N D) := by
  unfold flipTowards facing
  rw [(lit0_is).lt (hn.dot hd)]
  by_cases h : 0 < N.dot D
  · rw [if_pos (by simpa using h), if_pos h]
    exact (hn.mul (Ext.Is.lit (-1))).of_eq (by simp [geo])
  · rw [if_neg (by simpa using h), if_neg h]
    exact hn

theorem facing_unit {N D : Vec ℝ} (h : N.dot N = 1) : (facing N D).dot (facing N D) = 1 := by
  unfold facing
  split_ifs
  · simp only [geo] at h ⊢; linarith
  · exact h

theorem reflect_is {v n : Vec Ext} {V N : Vec ℝ} (hv : v.Is V) (hn : n.Is N) : (reflect v n).Is (reflect V N) :=
  hv.madd ((Ext.Is.of_eq (Ext.Is.lit (-2)) rfl).mul (hv.dot hn)) hn

theorem reflect_unit {V N : Vec ℝ} (hV : V.dot V = 1) (hN : N.dot N = 1) : (reflect V N).dot (reflect V N) = 1 := by
  simp only [reflect, geo, lit_real] at *
  push_cast
  linear_combination hV + 4 * (V.x * N.x + V.y * N.y + V.z * N.z) ^ 2 * hN

/-- A pair of numbers in the unit square, as far as it matters. -/
def UnitPair (uv : Ext × Ext) : Prop := ∃ U V, uv.1.Is U ∧ uv.2.Is V ∧ 0 ≤ V ∧ V ≤ 1

theorem cosineSphereAxis_is {n : Vec Ext} {N : Vec ℝ} (hn : n.Is N) : cosineSphereAxis n = cosineSphereAxis N := by
  unfold cosineSphereAxis
  simp only [hn.2.1.abs.lt hn.1.abs, lt_real, abs_real]
  by_cases h : |N.y| < |N.x|
  · simp only [h, decide_true, if_true, hn.2.2.abs.lt hn.2.1.abs]
  · simp only [h, decide_false, Bool.false_eq_true, if_false, hn.2.2.abs.lt hn.1.abs]

theorem cosineSphere_is {u v : Ext} {U V : ℝ} (hu : u.Is U) (hv : v.Is V) (h0 : 0 ≤ V) (h1 : V ≤ 1) {n : Vec Ext}
    {N : Vec ℝ} (hn : n.Is N) (hN : N.dot N = 1) : (cosineSphere u v n).Is (cosineSphere U V N) := by
  have hth : (lit 2 * GoFloat.pi * u : Ext).Is (lit 2 * GoFloat.pi * U) := ((Ext.Is.lit 2).mul pi_is).mul hu
  have hr := hv.sqrt h0
  have hx : (uniformDisk u v).1.Is (uniformDisk U V).1 := hr.mul hth.cos
  have hy : (uniformDisk u v).2.Is (uniformDisk U V).2 := hr.mul hth.sin
  have hd := (C46_disk U V h0 h1).1
  have hz : (GoFloat.sqrt (lit 1 - ((uniformDisk u v).1 * (uniformDisk u v).1 + (uniformDisk u v).2 * (uniformDisk u v).2))).Is
      (Real.sqrt (1 - ((uniformDisk U V).1 * (uniformDisk U V).1 + (uniformDisk U V).2 * (uniformDisk U V).2))) :=
    (lit1_is.sub ((hx.mul hx).add (hy.mul hy))).sqrt (by nlinarith)
  have ht : (n.set (cosineSphereAxis n) (lit 1)).Is (N.set (cosineSphereAxis N) (lit 1)) := by
    rw [cosineSphereAxis_is hn]
    have one : (lit 1 : Ext).Is (lit 1 : ℝ) := Ext.Is.lit 1
    generalize cosineSphereAxis N = i
    unfold Vec.set
    split
    · exact ⟨one, hn.2.1, hn.2.2⟩
    · exact ⟨hn.1, one, hn.2.2⟩
    · exact ⟨hn.1, hn.2.1, one⟩
  obtain ⟨hne, -⟩ := cosineAxis_spec N hN
  have hex := (ht.cross hn).normalized (by simpa [Vec.zero] using hne)
  have e : unitVec ((N.set (cosineSphereAxis N) (lit 1)).cross N) = ((N.set (cosineSphereAxis N) (lit 1)).cross N).normalized := by
    generalize (N.set (cosineSphereAxis N) (lit 1)).cross N = W
    simp [unitVec, Vec.normalized, geo, mul_comm]
  rw [e] at hex
  have hey := hex.cross hn
  have m : ∀ {A B C : Vec Ext} {A' B' C' : Vec ℝ} {a b c : Ext} {a' b' c' : ℝ}, A.Is A' → B.Is B' → C.Is C' → a.Is a' →
      b.Is b' → c.Is c' → ((⟨A, B, C⟩ : Matrix Ext).mulVec ⟨a, b, c⟩).Is ((⟨A', B', C'⟩ : Matrix ℝ).mulVec ⟨a', b', c'⟩) := by
    intro A B C A' B' C' a b c a' b' c' hA hB hC ha hb hc
    exact ⟨((hA.1.mul ha).add (hB.1.mul hb)).add (hC.1.mul hc), ((hA.2.1.mul ha).add (hB.2.1.mul hb)).add (hC.2.1.mul hc),
      ((hA.2.2.mul ha).add (hB.2.2.mul hb)).add (hC.2.2.mul hc)⟩
  have := m hex hey hn hx hy hz
  refine this.of_eq ?_
  simp [cosineSphere]

/-- The reflectance of a coat. -/
theorem fresnelReflection_is {n c : Ext} {N C : ℝ} (hn : n.Is N) (hN : 1 < N) (hc : c.Is C) (h0 : 0 ≤ C) :
    ∃ ct, 0 ≤ ct ∧ 1 - C ^ 2 = N ^ 2 * (1 - ct ^ 2) ∧ (fresnelReflection (lit 1) n c).Is (fresnelR 1 N C ct) := by
  have hN0 : N ≠ 0 := by linarith
  have hn12 := lit1_is.div hn hN0
  have hs2 := (hn12.mul hn12).mul (lit1_is.sub (hc.mul hc))
  have hpos : 0 < 1 - 1 / N * (1 / N) * (1 - C * C) := by
    have e : 1 - 1 / N * (1 / N) * (1 - C * C) = (N ^ 2 - (1 - C * C)) / N ^ 2 := by field_simp
    rw [e]
    apply div_pos _ (by positivity)
    nlinarith
  have hct := (lit1_is.sub hs2).sqrt hpos.le
  set ct := Real.sqrt (1 - 1 / N * (1 / N) * (1 - C * C)) with hctdef
  have hct0 : 0 < ct := Real.sqrt_pos.2 hpos
  have hsq : ct ^ 2 = 1 - 1 / N * (1 / N) * (1 - C * C) := Real.sq_sqrt hpos.le
  refine ⟨ct, hct0.le, ?_, ?_⟩
  · rw [hsq]; field_simp; ring
  · have d1 : 1 * C + N * ct ≠ 0 := by have : 0 < N * ct := by positivity
                                       linarith
    have d2 : 1 * ct + N * C ≠ 0 := by have : 0 ≤ N * C := by positivity
                                       linarith
    have p := ((lit1_is.mul hc).sub (hn.mul hct)).div ((lit1_is.mul hc).add (hn.mul hct)) d1
    have s := ((lit1_is.mul hct).sub (hn.mul hc)).div ((lit1_is.mul hct).add (hn.mul hc)) d2
    have := (Ext.Is.lit (1 / 2)).mul ((p.mul p).add (s.mul s))
    refine Ext.Is.of_eq this ?_
    unfold fresnelR
    push_cast
    ring

/-- The incidence of a unit ray on a unit normal. -/
theorem refractGeom_is {n1 n2 : Ext} {N1 N2 : ℝ} (h1 : n1.Is N1) (h2 : n2.Is N2) (p1 : 0 < N1) (p2 : 0 < N2)
    {d n : Vec Ext} {D N : Vec ℝ} (hd : d.Is D) (hn : n.Is N) (uD : D.dot D = 1) (uN : N.dot N = 1) :
    ∃ I, IsIncidence N1 N2 D N I ∧ (I.m₁ = N1 ∧ I.m₂ = N2 ∨ I.m₁ = N2 ∧ I.m₂ = N1) ∧ ∃ n' i' m1 m2 ci s2,
      refractGeom n1 n2 d n = (n', i', m1, m2, ci, s2) ∧ n'.Is I.n ∧ i'.Is I.i ∧ m1.Is I.m₁ ∧ m2.Is I.m₂ ∧
      ci.Is (-I.i.dot I.n) ∧ s2.Is ((I.m₁ * I.sinI / I.m₂) ^ 2) := by
  have hn' := normalized_unit hn uN
  have hi' := normalized_unit hd uD
  have fin : ∀ (I : Incidence), I.i.dot I.i = 1 → I.n.dot I.n = 1 → ∀ {n' i' : Vec Ext} {m1 m2 : Ext}, n'.Is I.n → i'.Is I.i →
      m1.Is I.m₁ → m2.Is I.m₂ → I.m₂ ≠ 0 → (-i'.dot n').Is (-I.i.dot I.n) ∧
      (m1 / m2 * (m1 / m2) * (lit 1 - (-i'.dot n') * (-i'.dot n'))).Is ((I.m₁ * I.sinI / I.m₂) ^ 2) := by
    intro I ui un n' i' m1 m2 a b c d ne
    have hc := (b.dot a).neg
    refine ⟨hc, Ext.Is.of_eq (((c.div d ne).mul (c.div d ne)).mul (lit1_is.sub (hc.mul hc))) ?_⟩
    have := sinI_sq I ui un
    have e : 1 - -I.i.dot I.n * -I.i.dot I.n = I.sinI ^ 2 := by rw [this]; ring
    rw [e]; ring
  by_cases h : 0 < D.dot N
  · refine ⟨⟨D, N.mul (-1), N2, N1⟩, ⟨uD, ⟨1, one_pos, by simp [geo]⟩, by simp only [geo] at uN ⊢; linarith, ?_,
      fun h' => absurd h (not_lt.2 h'), fun _ => ⟨⟨-1, by norm_num, rfl⟩, rfl, rfl⟩⟩, .inr ⟨rfl, rfl⟩, ?_⟩
    · have : D.dot (N.mul (-1)) = -D.dot N := by simp only [geo]; ring
      dsimp only; rw [this]; linarith
    · unfold refractGeom
      have hif : (d.normalized.dot n.normalized >. lit 0) = true := by
        rw [lit0_is.lt (hi'.dot hn')]; simpa using h
      have hneg : (n.normalized.mul (lit (-1))).Is (N.mul (-1)) := by
        simpa using hn'.mul (Ext.Is.lit (-1))
      have f := fin ⟨D, N.mul (-1), N2, N1⟩ uD (by simp only [geo] at uN ⊢; linarith) hneg hi' h2 h1 p1.ne'
      simp only [hif, if_true]
      exact ⟨_, _, _, _, _, _, rfl, hneg, hi', h2, h1, f.1, f.2⟩
  · refine ⟨⟨D, N, N1, N2⟩, ⟨uD, ⟨1, one_pos, by simp [geo]⟩, uN, not_lt.1 h,
      fun _ => ⟨⟨1, one_pos, by simp [geo]⟩, rfl, rfl⟩, fun h' => absurd h' h⟩, .inl ⟨rfl, rfl⟩, ?_⟩
    unfold refractGeom
    have hif : (d.normalized.dot n.normalized >. lit 0) = false := by
      rw [lit0_is.lt (hi'.dot hn')]; simpa using not_lt.1 h
    have f := fin ⟨D, N, N1, N2⟩ uD uN hn' hi' h1 h2 p2.ne'
    simp only [hif, Bool.false_eq_true, if_false]
    exact ⟨_, _, _, _, _, _, rfl, hn', hi', h1, h2, f.1, f.2⟩

theorem refractDir_is {k c s : Ext} {K C Q : ℝ} (hk : k.Is K) (hc : c.Is C) (hs : s.Is Q) (hQ : Q ≤ 1) {i n : Vec Ext}
    {I N : Vec ℝ} (hi : i.Is I) (hn : n.Is N) : (refractDir k c s i n).Is (refractDir K C Q I N) := by
  have hr := (lit1_is.sub hs).sqrt (sub_nonneg.2 hQ)
  refine ((hi.mul hk).madd ((hk.mul hc).sub hr) hn).of_eq ?_
  simp [refractDir]

theorem refractR_is {n1 n2 c s : Ext} {N1 N2 C Q : ℝ} (h1 : n1.Is N1) (h2 : n2.Is N2) (p1 : 0 < N1) (p2 : 0 < N2)
    (hc : c.Is C) (h0 : 0 ≤ C) (hs : s.Is Q) (hQ : Q ≤ 1) (hne : 0 < C ∨ Q < 1) :
    (refractR n1 n2 c s).Is (refractR N1 N2 C Q) := by
  have hr := (lit1_is.sub hs).sqrt (sub_nonneg.2 hQ)
  have r0 : 0 ≤ Real.sqrt (1 - Q) := Real.sqrt_nonneg _
  have hpos : 0 < C ∨ 0 < Real.sqrt (1 - Q) := hne.imp id fun h => Real.sqrt_pos.2 (sub_pos.2 h)
  generalize hw : Real.sqrt (1 - Q) = w at hr r0 hpos
  have d1 : N1 * C + N2 * w ≠ 0 := by
    rcases hpos with h | h
    · have : 0 < N1 * C := by positivity
      have : 0 ≤ N2 * w := by positivity
      linarith
    · have : 0 ≤ N1 * C := by positivity
      have : 0 < N2 * w := by positivity
      linarith
  have d2 : N1 * w + N2 * C ≠ 0 := by
    rcases hpos with h | h
    · have : 0 < N2 * C := by positivity
      have : 0 ≤ N1 * w := by positivity
      linarith
    · have : 0 ≤ N2 * C := by positivity
      have : 0 < N1 * w := by positivity
      linarith
  have p := ((h1.mul hc).sub (h2.mul hr)).div ((h1.mul hc).add (h2.mul hr)) d1
  have s := ((h1.mul hr).sub (h2.mul hc)).div ((h1.mul hr).add (h2.mul hc)) d2
  refine Ext.Is.of_eq ((Ext.Is.lit (1 / 2)).mul ((p.mul p).add (s.mul s))) ?_
  simp [refractR, sqr, hw]

/-- Halton numbers. -/
theorem haltonLoop_is {b : Nat} (hb : 2 ≤ b) (fuel i : Nat) (f r : Ext) {x y : ℝ} (hf : f.Is x) (hr : r.Is y)
    (hi : i ≤ fuel) : ∃ a, haltonLoop b fuel f r i = .ok a ∧ a.Is (y + x * radInv b i) := by
  induction fuel generalizing i f r x y with
  | zero =>
    obtain rfl : i = 0 := by omega
    exact ⟨r, by rw [haltonLoop, if_neg (by omega)], by simpa [radInv_zero] using hr⟩
  | succ fuel ih =>
    rw [haltonLoop]
    split_ifs with h0 h1
    · omega
    · have hb0 : ((b : Int) : ℝ) ≠ 0 := by positivity
      have hf' := hf.div (ofInt_is (b : Int)) hb0
      have e : GoFloat.trunc (GoFloat.floor (ofInt (i : Int) / (ofInt (b : Int) : Ext))) =
          GoFloat.trunc (GoFloat.floor ((ofInt (i : Int) : ℝ) / ofInt (b : Int))) := by
        rw [Ext.ofInt_ext, Ext.ofInt_ext, Ext.num_div_num _ _ _ _ hb0]
        rfl
      have hd := Nat.div_lt_self h0 (show 1 < b by omega)
      obtain ⟨a, ea, ha⟩ := ih (i / b) _ _ hf' (hr.add (hf'.mul (ofInt_is (i % b : Nat)))) (by omega)
      refine ⟨a, ?_, Ext.Is.of_eq ha ?_⟩
      · dsimp only
        rw [e, trunc_floor_div]
        exact ea
      · rw [radInv_rec hb i]
        rw [Int.cast_natCast] at hb0
        simp only [Int.cast_natCast]
        field_simp
        ring
    · obtain rfl : i = 0 := by omega
      exact ⟨r, rfl, by simpa [radInv_zero] using hr⟩

/-- The pairs of the sequences. -/
theorem generate2_is (s : HaltonSeq Ext) (hu : 2 ≤ s.baseU) (hv : 2 ≤ s.baseV) {x y : ℝ} (h1 : s.shiftU.Is x)
    (h2 : s.shiftV.Is y) : ∃ uv, s.generate2 = .ok uv ∧ uv.1.Is (Int.fract (radInv s.baseU (s.index + 1) + x)) ∧
      uv.2.Is (Int.fract (radInv s.baseV (s.index + 1) + y)) := by
  obtain ⟨u, e1, hU⟩ := haltonLoop_is hu (s.index + 1) (s.index + 1) (lit 1) (lit 0) lit1_is lit0_is le_rfl
  obtain ⟨v, e2, hV⟩ := haltonLoop_is hv (s.index + 1) (s.index + 1) (lit 1) (lit 0) lit1_is lit0_is le_rfl
  rw [zero_add, one_mul] at hU hV
  unfold HaltonSeq.generate2 halton
  rw [e1, e2]
  exact ⟨_, rfl, (hU.add h1).frac, (hV.add h2).frac⟩

/-- The sequences give pairs in the unit square. -/
theorem generate2_unit (s : HaltonSeq Ext) (hu : 2 ≤ s.baseU) (hv : 2 ≤ s.baseV) (h1 : ∃ x, s.shiftU.Is x)
    (h2 : ∃ x, s.shiftV.Is x) : ∃ uv, s.generate2 = .ok uv ∧ UnitPair uv := by
  obtain ⟨x, hx⟩ := h1
  obtain ⟨y, hy⟩ := h2
  obtain ⟨uv, e, hU, hV⟩ := generate2_is s hu hv hx hy
  exact ⟨uv, e, _, _, hU, hV, Int.fract_nonneg _, (Int.fract_lt_one _).le⟩

end BR
