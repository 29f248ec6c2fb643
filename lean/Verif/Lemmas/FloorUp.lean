import Verif.Lemmas.FloorTest

/-! The normals of a level rectangle, in double precision. -/

namespace BR
set_option linter.unusedSectionVars false

namespace Flo

/-- A vector that points straight up and has almost unit length. -/
def Up (n : Vec Flo) : Prop := n.x.Is 0 ∧ (∃ v, n.y.Is v ∧ |v - 1| ≤ 1 / 2 ^ 48) ∧ n.z.Is 0

/-- Making a vector that points straight up one of unit length. -/
theorem up_normalized {n : Vec Flo} {N : ℝ} (hx : n.x.Is 0) (hy : n.y.Is N) (hz : n.z.Is 0) (h1 : 1 / 2 ≤ N) (h2 : N ≤ 2 ^ 24) :
    Up n.normalized := by
  have N0 : 0 < N := by linarith
  have aN : |N| = N := abs_of_pos N0
  have rN : Roomy N := ⟨le_trans (by norm_num) h1, h2.trans (by norm_num)⟩
  have rNN : Roomy (N * N) := ⟨le_trans (by norm_num) (mul_le_mul h1 h1 (by norm_num) N0.le),
    (mul_le_mul h2 h2 N0.le (by norm_num)).trans (by norm_num)⟩
  have yy := Is.mul_rel (b := 1) (1 / 2 ^ 52) rNN hy hy (by rw [abs_mul, aN, one_mul])
  have xx := (Is.mul_zero (hx.rel_zero (Q := 1)) hx).rel_zero (Q := N * N)
  have zz := (Is.mul_zero (hz.rel_zero (Q := 1)) hz).rel_zero (Q := N * N)
  have sum := (Rel.add (b := 1) (d := 0) (1 / 2 ^ 50) 1 rNN (Rel.add (b := 0) (d := 1) (1 / 2 ^ 51) 1 rNN xx yy) zz).of_eq
    (show 0 + N * N + 0 = N * N by ring)
  obtain ⟨⟨u, hu, eu⟩, -⟩ := sum
  have q0 : 0 < N * N := by positivity
  have u0 : 0 ≤ u := by rw [abs_le] at eu; norm_num at *; linarith
  have uN : u ≤ 2 ^ 200 := by
    have : N * N ≤ 2 ^ 24 * 2 ^ 24 := mul_le_mul h2 h2 N0.le (by norm_num)
    rw [abs_le] at eu; norm_num at *; linarith
  have rt := sqrt_is hu u0 uN
  have near : |Real.sqrt u - N| ≤ 1 / 2 ^ 50 * N := by
    have s0 := Real.sqrt_nonneg u
    have e : (Real.sqrt u - N) * (Real.sqrt u + N) = u - N * N := by
      have := Real.mul_self_sqrt u0
      linear_combination this
    have : |Real.sqrt u - N| * (Real.sqrt u + N) ≤ 1 / 2 ^ 50 * (N * N) := by
      rw [← abs_of_nonneg (show 0 ≤ Real.sqrt u + N by positivity), ← abs_mul, e]
      exact eu
    have h3 : |Real.sqrt u - N| * N ≤ |Real.sqrt u - N| * (Real.sqrt u + N) :=
      mul_le_mul_of_nonneg_left (by linarith) (abs_nonneg _)
    have h4 : |Real.sqrt u - N| * N ≤ (1 / 2 ^ 50 * N) * N := by linarith
    exact le_of_mul_le_mul_right h4 N0
  have er := roundBits_err 53 (by norm_num) (Real.sqrt u)
  have rel : (GoFloat.sqrt (n.x * n.x + n.y * n.y + n.z * n.z)).Rel N (1 / 2 ^ 49) 1 N := by
    refine ⟨⟨_, rt, ?_⟩, by rw [aN, one_mul]⟩
    generalize roundBits 53 (Real.sqrt u) = w at *
    rw [abs_of_nonneg (Real.sqrt_nonneg u)] at er
    rw [abs_le] at *
    norm_num at *
    constructor <;> linarith
  have rI : Roomy (1 / N) := by
    refine ⟨?_, ?_⟩
    · refine le_trans ?_ (one_div_le_one_div_of_le N0 h2); norm_num
    · refine (one_div_le_one_div_of_le (by norm_num) h1).trans ?_; norm_num
  have inv := Rel.div (b := 1) 1 (1 / 2 ^ 49 + 1 / 2 ^ 52) 1 one_pos N0 rI (flo_lit_one.rel (b := 1) (Q := 1) (by simp)) rel (by rw [aN, one_mul])
  have r1 : Roomy (N * (1 / N)) := by rw [mul_one_div_cancel N0.ne']; exact roomy_of le_rfl (by norm_num)
  have fin := Rel.mul (b := 1) (d := 1) (1 / 2 ^ 48) 1 N0 (by positivity) r1 (hy.rel (b := 1) (Q := N) (by rw [aN, one_mul])) inv
  obtain ⟨⟨v, hv, ev⟩, -⟩ := fin
  rw [mul_one_div_cancel N0.ne', mul_one] at ev
  exact ⟨Is.zero_mul hx inv, ⟨v, hv, ev⟩, Is.zero_mul hz inv⟩

theorem Up.again {n : Vec Flo} (h : Up n) : Up n.normalized := by
  obtain ⟨hx, ⟨v, hv, e⟩, hz⟩ := h
  rw [abs_le] at e
  exact up_normalized hx hv hz (by norm_num at *; linarith) (by norm_num at *; linarith)

private theorem one_add {n m : Vec Flo} {a b : ℝ} (hx : n.x.Is 0) (hy : n.y.Is a) (hz : n.z.Is 0) (kx : m.x.Is 0) (ky : m.y.Is b) (kz : m.z.Is 0)
    (h1 : |a + b| ≤ 4) : (n.add m).x.Is 0 ∧ (∃ v, (n.add m).y.Is v ∧ |v - (a + b)| ≤ 1 / 2 ^ 48) ∧ (n.add m).z.Is 0 := by
  refine ⟨Is.zero_add hx kx, ⟨_, add_is hy ky (h1.trans (by norm_num)), ?_⟩, Is.zero_add hz kz⟩
  have := roundBits_err 53 (by norm_num) (a + b)
  norm_num at *; linarith

theorem Up.zero_add {n : Vec Flo} (h : Up n) : Up ((Vec.zero : Vec Flo).add n).normalized := by
  obtain ⟨hx, ⟨v, hv, e⟩, hz⟩ := h
  have z : (lit 0 : Flo).Is 0 := Ball.flo_zero
  obtain ⟨p, ⟨w, hw, ew⟩, q⟩ := one_add (n := Vec.zero) z z z hx hv hz (by rw [abs_le] at *; norm_num at *; constructor <;> linarith)
  rw [abs_le] at e ew
  exact up_normalized p hw q (by norm_num at *; linarith) (by norm_num at *; linarith)

theorem Up.zero_add_add {n m : Vec Flo} (h : Up n) (k : Up m) : Up (((Vec.zero : Vec Flo).add n).add m).normalized := by
  obtain ⟨hx, ⟨v, hv, e⟩, hz⟩ := h
  obtain ⟨kx, ⟨u, hu, f⟩, kz⟩ := k
  have z : (lit 0 : Flo).Is 0 := Ball.flo_zero
  obtain ⟨p, ⟨w, hw, ew⟩, q⟩ := one_add (n := Vec.zero) z z z hx hv hz (by rw [abs_le] at *; norm_num at *; constructor <;> linarith)
  obtain ⟨p', ⟨w', hw', ew'⟩, q'⟩ := one_add p hw q kx hu kz (by rw [abs_le] at *; norm_num at *; constructor <;> linarith)
  rw [abs_le] at e ew ew' f
  exact up_normalized p' hw' q' (by norm_num at *; linarith) (by norm_num at *; linarith)

theorem Up.not_bad {n : Vec Flo} (h : Up n) : isBadVec n = false := by
  obtain ⟨hx, ⟨v, hv, -⟩, hz⟩ := h
  have fin : ∀ {a : Flo} {x : ℝ}, a.Is x → isBad a = false := by
    rintro a x ⟨s, hs⟩
    have e1 : GoFloat.isNaN a = false := by change GoFloat.isNaN a.e = false; rw [hs]; rfl
    have e2 : (a ==. GoFloat.inf) = false := by change (a.e ==. GoFloat.inf) = false; rw [hs]; rfl
    have e3 : (a ==. -GoFloat.inf) = false := by change (a.e ==. -GoFloat.inf) = false; rw [hs]; rfl
    simp [isBad, e1, e2, e3]
  simp [isBadVec, fin hx, fin hv, fin hz]

end Flo

open Flo in
/-- The normal of a level triangle whose edges turn the right way. -/
theorem FlatFace.up {v0 v1 v2 : Vertex Flo} {O : Vec ℝ} {k a b : ℝ} (h : FlatFace v0 v1 v2 O k a b) (hab : 0 < a * b) :
    Up (triangleNormal v0.pos v1.pos v2.pos) := by
  obtain ⟨nx, ⟨⟨N, hN, eN⟩, -⟩, nz⟩ := h.normal _ rfl
  rw [← abs_mul, abs_of_pos hab, abs_le] at eN
  have ab1 : 1 ≤ a * b := by
    rw [← abs_of_pos hab, abs_mul]; nlinarith [h.a_ge, h.b_ge]
  have ab2 : a * b ≤ 2 ^ 22 := by
    rw [← abs_of_pos hab, abs_mul]
    exact (mul_le_mul h.a_le h.b_le (abs_nonneg _) (by positivity)).trans (by norm_num)
  exact up_normalized nx hN nz (by norm_num at *; linarith) (by norm_num at *; linarith)

end BR
