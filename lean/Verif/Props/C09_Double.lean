import Verif.Lemmas.SampleErr
import Verif.Props.C10_Sequence

/-!
# C09 and C10 in double precision

The code divides the index by the base in floating point. For indices below `2^53` this gives the right digits, and the Halton
number differs from the radical inverse by rounding only. The shifted pairs stay in the half-open unit square.
-/

namespace BR
set_option linter.unusedSectionVars false

/-- The `i`-th Halton number computed in double precision is the radical inverse of `i + 1` up to a relative error of `2^-45`. -/
theorem C09_double {b i : Nat} (hb : 2 ≤ b) (hb' : b < 2 ^ 53) (hi : i + 1 < 2 ^ 53) :
    ∃ (a : Flo) (X : ℝ), halton b i = .ok a ∧ a.Is X ∧ |X - radInv b (i + 1)| ≤ radInv b (i + 1) / 2 ^ 45 := by
  obtain ⟨a, X, e, ha, hX⟩ := Dbl.halton_rounded b i hb hb' hi
  have h0 := (radInv_bounds hb (i + 1)).1
  refine ⟨a, X, e, ha, (hX.err h0 (by norm_num)).trans ?_⟩
  rw [div_eq_mul_inv]
  exact mul_le_mul_of_nonneg_left (by norm_num) h0

/-- In double precision the pairs of a shifted sequence are in the half-open unit square, and each of the two numbers is the
radical inverse of the pass plus the shift, less a whole number, up to an error of `2^-43`. -/
theorem C10_double (s : HaltonSeq Flo) (hu : 2 ≤ s.baseU) (hu' : s.baseU < 2 ^ 53) (hv : 2 ≤ s.baseV) (hv' : s.baseV < 2 ^ 53)
    (hi : s.index + 1 < 2 ^ 53) {dx dy : ℝ} (hdx : s.shiftU.Is dx) (hdy : s.shiftV.Is dy) (hx : 0 ≤ dx ∧ dx < 1)
    (hy : 0 ≤ dy ∧ dy < 1) :
    ∃ (u v : Flo) (U V : ℝ), s.generate2 = .ok (u, v) ∧ u.Is U ∧ v.Is V ∧ (0 ≤ U ∧ U < 1) ∧ (0 ≤ V ∧ V < 1) ∧
      (∃ k : ℤ, |U + k - (radInv s.baseU (s.index + 1) + dx)| ≤ 1 / 2 ^ 43) ∧
      ∃ k : ℤ, |V + k - (radInv s.baseV (s.index + 1) + dy)| ≤ 1 / 2 ^ 43 := by
  have key : ∀ {b : Nat}, 2 ≤ b → b < 2 ^ 53 → ∀ {sh : Flo} {d : ℝ}, sh.Is d → 0 ≤ d ∧ d < 1 →
      ∃ (a : Flo) (U : ℝ), halton b s.index = .ok a ∧ (frac (a + sh)).Is U ∧ (0 ≤ U ∧ U < 1) ∧
        ∃ k : ℤ, |U + k - (radInv b (s.index + 1) + d)| ≤ 1 / 2 ^ 43 := by
    intro b hb hb' sh d hd ⟨d0, d1⟩
    obtain ⟨a, X, e, ha, hX⟩ := C09_double hb hb' hi
    obtain ⟨r0, r1⟩ := radInv_bounds hb (s.index + 1)
    generalize radInv b (s.index + 1) = r at *
    have hr : r / 2 ^ 45 ≤ 1 / 2 ^ 45 := div_le_div_of_nonneg_right r1.le (by positivity)
    have hX0 : 0 ≤ X := by
      have : r / 2 ^ 45 ≤ r := div_le_self r0 (by norm_num)
      rw [abs_le] at hX
      linarith
    have hX1 : X ≤ 2 := by
      rw [abs_le] at hX
      have : (1 : ℝ) / 2 ^ 45 ≤ 1 := by norm_num
      linarith
    have hsum := Flo.add_is ha hd (show |X + d| ≤ 2 ^ 200 by
      rw [abs_of_nonneg (by linarith)]
      exact le_trans (show X + d ≤ 3 by linarith) (by norm_num))
    have h0 := roundBits_nonneg 53 (by norm_num) (show 0 ≤ X + d by linarith)
    refine ⟨a, _, e, Dbl.frac_exact hsum rfl h0, ⟨Int.fract_nonneg _, Int.fract_lt_one _⟩, ⌊roundBits 53 (X + d)⌋, ?_⟩
    rw [Int.fract_add_floor]
    have he := roundBits_err 53 (by norm_num) (X + d)
    rw [abs_of_nonneg (show 0 ≤ X + d by linarith)] at he
    have h3 : (X + d) / 2 ^ 53 ≤ 3 / 2 ^ 53 := div_le_div_of_nonneg_right (by linarith) (by positivity)
    rw [abs_le] at he hX ⊢
    have h4 : (3 : ℝ) / 2 ^ 53 + 1 / 2 ^ 200 + 1 / 2 ^ 45 ≤ 1 / 2 ^ 43 := by norm_num
    constructor <;> linarith
  obtain ⟨a, U, e1, hU, hU', hUk⟩ := key hu hu' hdx hx
  obtain ⟨b, V, e2, hV, hV', hVk⟩ := key hv hv' hdy hy
  refine ⟨_, _, U, V, ?_, hU, hV, hU', hV', hUk, hVk⟩
  unfold HaltonSeq.generate2
  rw [e1, ok_bind, e2, ok_bind]
  rfl

/-- Non-vacuity of `C10_double`: bases 2 and 3, pass 1000, a shift of a quarter and a half. -/
example : ∃ s : HaltonSeq Flo, s.baseU = 2 ∧ s.baseV = 3 ∧ s.index = 1000 ∧ s.shiftU.Is (1 / 4) ∧ s.shiftV.Is (1 / 2) :=
  ⟨⟨2, 3, 1, 1000, lit (1 / 4), lit (1 / 2), []⟩, rfl, rfl, rfl,
    (Flo.lit_is (1 / 4) 1 (-2) (by norm_num) (by norm_num) (by norm_num) (by norm_num)).of_eq (by norm_num),
    (Flo.lit_is (1 / 2) 1 (-1) (by norm_num) (by norm_num) (by norm_num) (by norm_num)).of_eq (by norm_num)⟩

/-- `C09_double` for the millionth number with base 3. -/
example : ∃ (a : Flo) (X : ℝ), halton 3 1000000 = .ok a ∧ a.Is X ∧ |X - radInv 3 1000001| ≤ radInv 3 1000001 / 2 ^ 45 :=
  C09_double (by norm_num) (by norm_num) (by norm_num)

end BR
