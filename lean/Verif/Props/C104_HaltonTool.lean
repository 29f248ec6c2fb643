import Verif.Lemmas.HaltonTool
import Verif.Props.C09_Halton
import Verif.Props.C09_Double

/-! C104: the command `halton` prints the points of Halton sequences. -/

namespace BR

theorem haltonInt_nat {F : Type} [Add F] [Sub F] [Mul F] [Div F] [Neg F] [GoFloat F] {b i : Int} (hb : 0 ≤ b) (hi : 0 ≤ i) :
    (haltonInt b i : GoM F) = halton b.toNat i.toNat := by
  rw [haltonInt, if_neg (by omega), if_neg (by omega)]

/-- **The points are those of the two Halton sequences** with the given bases, from the given start in steps of the given stride: the
command ends, the line number `k` has the indices `start + k * stride`, and the lines are those with an index below
`stride * (start + n)`. -/
theorem C104_points (f : HaltonFlags) (ha : 2 ≤ f.a) (hb : 2 ≤ f.b) (hs : 1 ≤ f.s) (hi : 0 ≤ f.i) (hr : f.rnd = false) (hd : f.disk = false)
    (rand : Nat → ℝ × ℝ) (fuel : Nat) (hf : f.s * (f.i + f.n) - f.i ≤ fuel) :
    ∃ lines, f.run rand fuel = (lines, .done) ∧
      (∀ k (h : k < lines.length), lines[k] = (radInv f.a.toNat ((f.i + k * f.s).toNat + 1), radInv f.b.toNat ((f.i + k * f.s).toNat + 1))) ∧
      ∀ k : Nat, k < lines.length ↔ f.i + k * f.s < f.s * (f.i + f.n) := by
  refine f.run_lines hs rand (fun k l => l = (radInv f.a.toNat ((f.i + k * f.s).toNat + 1), radInv f.b.toNat ((f.i + k * f.s).toNat + 1)))
    (fun k _ => ⟨_, ?_, rfl⟩) fuel hf
  have h0 : 0 ≤ f.i + k * f.s := by positivity
  rw [HaltonFlags.line, haltonInt_nat (by omega) h0, haltonInt_nat (by omega) h0, C09_value (by omega), C09_value (by omega)]
  simp only [ok_bind, hr, hd]
  rfl

/-- Every third point of the first fifteen from the fifth on. -/
example (rand : Nat → ℝ × ℝ) : ∃ lines, HaltonFlags.run { s := 3, i := 4, n := 1 } rand 20 = (lines, .done) ∧ lines.length = 4 ∧
    ∀ k (h : k < lines.length), lines[k] = (radInv 2 (4 + k * 3 + 1), radInv 3 (4 + k * 3 + 1)) := by
  obtain ⟨lines, e, h1, h2⟩ := C104_points { s := 3, i := 4, n := 1 } (by norm_num) (by norm_num) (by norm_num) (by norm_num) rfl rfl rand 20 (by norm_num)
  refine ⟨lines, e, ?_, fun k hk => ?_⟩
  · have := h2 3
    have := h2 4
    norm_num at *
    omega
  · rw [h1 k hk]
    have : ((4 : Int) + k * 3).toNat = 4 + k * 3 := by omega
    simp only [this]
    rfl

/-- In double precision each number has fourteen right digits. -/
theorem C104_double (f : HaltonFlags) (ha : 2 ≤ f.a) (ha' : f.a < 2 ^ 53) (hb : 2 ≤ f.b) (hb' : f.b < 2 ^ 53) (hs : 1 ≤ f.s) (hi : 0 ≤ f.i)
    (hsmall : f.s * (f.i + f.n) < 2 ^ 53) (hr : f.rnd = false) (hd : f.disk = false) (rand : Nat → Flo × Flo) (fuel : Nat)
    (hf : f.s * (f.i + f.n) - f.i ≤ fuel) :
    ∃ lines, f.run rand fuel = (lines, .done) ∧ (∀ k : Nat, k < lines.length ↔ f.i + k * f.s < f.s * (f.i + f.n)) ∧
      ∀ k (h : k < lines.length), ∃ x y, lines[k].1.Is x ∧ lines[k].2.Is y ∧
        |x - radInv f.a.toNat ((f.i + k * f.s).toNat + 1)| ≤ radInv f.a.toNat ((f.i + k * f.s).toNat + 1) / 2 ^ 45 ∧
        |y - radInv f.b.toNat ((f.i + k * f.s).toNat + 1)| ≤ radInv f.b.toNat ((f.i + k * f.s).toNat + 1) / 2 ^ 45 := by
  have hline : ∀ k : Nat, f.i + k * f.s < f.s * (f.i + f.n) → ∃ l, f.line (rand k) (f.i + k * f.s) = .ok l ∧ ∃ x y, l.1.Is x ∧ l.2.Is y ∧
      |x - radInv f.a.toNat ((f.i + k * f.s).toNat + 1)| ≤ radInv f.a.toNat ((f.i + k * f.s).toNat + 1) / 2 ^ 45 ∧
      |y - radInv f.b.toNat ((f.i + k * f.s).toNat + 1)| ≤ radInv f.b.toNat ((f.i + k * f.s).toNat + 1) / 2 ^ 45 := by
    intro k hk
    have h0 : 0 ≤ f.i + k * f.s := by positivity
    obtain ⟨u, x, eu, hx, bx⟩ := C09_double (b := f.a.toNat) (i := (f.i + k * f.s).toNat) (by omega) (by omega) (by omega)
    obtain ⟨v, y, ev, hy, bY⟩ := C09_double (b := f.b.toNat) (i := (f.i + k * f.s).toNat) (by omega) (by omega) (by omega)
    refine ⟨(u, v), ?_, x, y, hx, hy, bx, bY⟩
    rw [HaltonFlags.line, haltonInt_nat (by omega) h0, haltonInt_nat (by omega) h0, eu, ev]
    simp only [ok_bind, hr, hd]
    rfl
  obtain ⟨lines, e, h1, h2⟩ := f.run_lines hs rand _ hline fuel hf
  exact ⟨lines, e, h2, h1⟩

/-- The default flags meet the conditions. -/
example (rand : Nat → Flo × Flo) : ∃ lines, HaltonFlags.run {} rand 300 = (lines, .done) ∧ lines.length = 300 := by
  obtain ⟨lines, e, h, -⟩ := C104_double {} (by norm_num) (by norm_num) (by norm_num) (by norm_num) (by norm_num) (by norm_num) (by norm_num) rfl rfl rand 300
    (by norm_num)
  refine ⟨lines, e, ?_⟩
  have := h 299
  have := h 300
  norm_num at *
  omega

/-- **From the start, or without stride, exactly `n` points are printed.** -/
theorem C104_count_partial (f : HaltonFlags) (ha : 2 ≤ f.a) (hb : 2 ≤ f.b) (hs : 1 ≤ f.s) (hi : 0 ≤ f.i) (hn : 0 ≤ f.n) (hr : f.rnd = false)
    (hd : f.disk = false) (hsi : f.i = 0 ∨ f.s = 1) (rand : Nat → ℝ × ℝ) (fuel : Nat) (hf : f.s * (f.i + f.n) - f.i ≤ fuel) :
    ∃ lines, f.run rand fuel = (lines, .done) ∧ (lines.length : Int) = f.n := by
  obtain ⟨lines, e, -, h⟩ := C104_points f ha hb hs hi hr hd rand fuel hf
  refine ⟨lines, e, ?_⟩
  have key : ∀ k : Nat, k < lines.length ↔ (k : Int) < f.n := by
    intro k
    rw [h k]
    rcases hsi with h0 | h1
    · rw [h0, zero_add, zero_add, mul_comm]
      exact mul_lt_mul_iff_right₀ (by omega)
    · rw [h1]; omega
  have h1 := key lines.length
  have h2 := key f.n.toNat
  omega

/-- The default flags print 300 points. -/
example (rand : Nat → ℝ × ℝ) : ∃ lines, HaltonFlags.run {} rand 300 = (lines, .done) ∧ (lines.length : Int) = 300 :=
  C104_count_partial {} (by norm_num) (by norm_num) (by norm_num) (by norm_num) (by norm_num) rfl rfl (.inl rfl) rand 300 (by norm_num)

/-- **With a start and a stride other points are printed than asked for**: `halton -i 10 -s 2 -n 5` prints ten points. -/
theorem C104_violated (rand : Nat → ℝ × ℝ) (fuel : Nat) (hf : 20 ≤ fuel) :
    ∃ lines, (HaltonFlags.run { i := 10, s := 2, n := 5 } rand fuel) = (lines, .done) ∧ lines.length = 10 := by
  obtain ⟨lines, e, -, h⟩ := C104_points { i := 10, s := 2, n := 5 } (by norm_num) (by norm_num) (by norm_num) (by norm_num) rfl rfl rand fuel
    (by push_cast; omega)
  refine ⟨lines, e, ?_⟩
  have h1 := h lines.length
  have h2 := h 10
  have h3 := h 9
  norm_num at h1 h2 h3
  omega

/-- **With `-disk` all points are in the disk** of radius 1/2 around (1/2, 1/2), at a distance that is half the root of the second
number. -/
theorem C104_disk (f : HaltonFlags) (ha : 2 ≤ f.a) (hb : 2 ≤ f.b) (hs : 1 ≤ f.s) (hi : 0 ≤ f.i) (hr : f.rnd = false) (hd : f.disk = true)
    (rand : Nat → ℝ × ℝ) (fuel : Nat) (hf : f.s * (f.i + f.n) - f.i ≤ fuel) :
    ∃ lines, f.run rand fuel = (lines, .done) ∧ (∀ k : Nat, k < lines.length ↔ f.i + k * f.s < f.s * (f.i + f.n)) ∧
      ∀ k (h : k < lines.length), (lines[k].1 - 1 / 2) ^ 2 + (lines[k].2 - 1 / 2) ^ 2 = radInv f.b.toNat ((f.i + k * f.s).toNat + 1) / 4 := by
  have hline : ∀ k : Nat, f.i + k * f.s < f.s * (f.i + f.n) → ∃ l, f.line (rand k) (f.i + k * f.s) = .ok l ∧
      (l.1 - 1 / 2) ^ 2 + (l.2 - 1 / 2) ^ 2 = radInv f.b.toNat ((f.i + k * f.s).toNat + 1) / 4 := by
    intro k _
    have h0 : 0 ≤ f.i + k * f.s := by positivity
    rw [HaltonFlags.line, haltonInt_nat (by omega) h0, haltonInt_nat (by omega) h0, C09_value (by omega), C09_value (by omega)]
    simp only [ok_bind, hr, hd]
    refine ⟨_, rfl, ?_⟩
    have hv := (radInv_bounds (show 2 ≤ f.b.toNat by omega) ((f.i + k * f.s).toNat + 1)).1
    generalize radInv f.b.toNat ((f.i + k * f.s).toNat + 1) = v at *
    generalize radInv f.a.toNat ((f.i + k * f.s).toNat + 1) = u at *
    have e : ∀ θ : ℝ, (Real.sqrt v * Real.cos θ / 2 + 1 / 2 - 1 / 2) ^ 2 + (Real.sqrt v * Real.sin θ / 2 + 1 / 2 - 1 / 2) ^ 2 = v / 4 := by
      intro θ
      have h1 := Real.sq_sqrt hv
      have h2 := Real.sin_sq_add_cos_sq θ
      calc _ = Real.sqrt v ^ 2 * (Real.sin θ ^ 2 + Real.cos θ ^ 2) / 4 := by ring
        _ = v / 4 := by rw [h1, h2, mul_one]
    have l2 : (lit 2 : ℝ) = 2 := by simp
    have lh : (lit (1 / 2) : ℝ) = 1 / 2 := by simp
    have := e (lit 2 * GoFloat.pi * u)
    simpa [uniformDisk, l2, lh] using this
  obtain ⟨lines, e, h1, h2⟩ := f.run_lines hs rand _ hline fuel hf
  exact ⟨lines, e, h2, h1⟩

/-- All points are within half of the middle. -/
example (rand : Nat → ℝ × ℝ) : ∃ lines, HaltonFlags.run { disk := true } rand 300 = (lines, .done) ∧
    ∀ k (h : k < lines.length), (lines[k].1 - 1 / 2) ^ 2 + (lines[k].2 - 1 / 2) ^ 2 ≤ 1 / 4 := by
  obtain ⟨lines, e, -, h⟩ := C104_disk { disk := true } (by norm_num) (by norm_num) (by norm_num) (by norm_num) rfl rfl rand 300 (by norm_num)
  refine ⟨lines, e, fun k hk => (h k hk).trans_le ?_⟩
  have := (radInv_bounds (show 2 ≤ 3 by norm_num) (((0 : Int) + k * 1).toNat + 1)).2
  have e3 : (3 : Int).toNat = 3 := rfl
  simp only [e3]
  linarith

/-- **With `-rand` the points are the random numbers**, in order. -/
theorem C104_random (f : HaltonFlags) (ha : 2 ≤ f.a) (hb : 2 ≤ f.b) (hs : 1 ≤ f.s) (hi : 0 ≤ f.i) (hr : f.rnd = true) (hd : f.disk = false)
    (rand : Nat → ℝ × ℝ) (fuel : Nat) (hf : f.s * (f.i + f.n) - f.i ≤ fuel) :
    ∃ lines, f.run rand fuel = (lines, .done) ∧ (∀ k : Nat, k < lines.length ↔ f.i + k * f.s < f.s * (f.i + f.n)) ∧
      ∀ k (h : k < lines.length), lines[k] = rand k := by
  have hline : ∀ k : Nat, f.i + k * f.s < f.s * (f.i + f.n) → ∃ l, f.line (rand k) (f.i + k * f.s) = .ok l ∧ l = rand k := by
    intro k _
    have h0 : 0 ≤ f.i + k * f.s := by positivity
    refine ⟨_, ?_, rfl⟩
    rw [HaltonFlags.line, haltonInt_nat (by omega) h0, haltonInt_nat (by omega) h0, C09_value (by omega), C09_value (by omega)]
    simp only [ok_bind, hr, hd]
    rfl
  obtain ⟨lines, e, h1, h2⟩ := f.run_lines hs rand _ hline fuel hf
  exact ⟨lines, e, h2, h1⟩

/-- Three random points. -/
example (rand : Nat → ℝ × ℝ) : ∃ lines, HaltonFlags.run { rnd := true, n := 3 } rand 3 = (lines, .done) ∧ lines.length = 3 ∧
    ∀ k (h : k < lines.length), lines[k] = rand k := by
  obtain ⟨lines, e, h, hk⟩ := C104_random { rnd := true, n := 3 } (by norm_num) (by norm_num) (by norm_num) (by norm_num) rfl rfl rand 3 (by norm_num)
  refine ⟨lines, e, ?_, hk⟩
  have := h 2
  have := h 3
  norm_num at *
  omega

/-- The place in the disk of radius 1/2 around (1/2, 1/2) for a point of the unit square: the first number is the angle, as a part of the
full circle, and the root of the second is the distance from the middle, as a part of the radius. -/
noncomputable def inDisk (p : ℝ × ℝ) : ℝ × ℝ :=
  (1 / 2 + Real.sqrt p.2 / 2 * Real.cos (2 * Real.pi * p.1), 1 / 2 + Real.sqrt p.2 / 2 * Real.sin (2 * Real.pi * p.1))

/-- **The flag `-disk` only moves the points into the disk**, for any other flags and whether or not the command ends: there are as many,
and each is where the point of the square goes. -/
theorem C104_disk_moves (f : HaltonFlags) (rand : Nat → ℝ × ℝ) (fuel : Nat) :
    HaltonFlags.run { f with disk := true } rand fuel =
      ((HaltonFlags.run { f with disk := false } rand fuel).1.map inDisk, (HaltonFlags.run { f with disk := false } rand fuel).2) := by
  have l2 : (lit 2 : ℝ) = 2 := by simp
  have lh : (lit (1 / 2) : ℝ) = 1 / 2 := by simp
  have hl : ∀ r i, HaltonFlags.line { f with disk := true } r i = (HaltonFlags.line { f with disk := false } r i).map inDisk := by
    intro r i
    unfold HaltonFlags.line
    dsimp only
    cases (haltonInt f.a i : GoM ℝ) with
    | error e => rfl
    | ok u =>
      cases (haltonInt f.b i : GoM ℝ) with
      | error e => rfl
      | ok w =>
        simp only [ok_bind, if_true, Bool.false_eq_true, if_false, pure_ok, Except.map, Except.ok.injEq, inDisk, uniformDisk, l2, lh, Prod.mk.injEq]
        generalize (if f.rnd = true then r else (u, w)) = p
        constructor
        · show Real.sqrt p.2 * Real.cos (2 * Real.pi * p.1) / 2 + 1 / 2 = _
          ring
        · show Real.sqrt p.2 * Real.sin (2 * Real.pi * p.1) / 2 + 1 / 2 = _
          ring
  have key : ∀ fuel i out, HaltonFlags.loop { f with disk := true } rand (f.s * (f.i + f.n)) fuel i (out.map inDisk) =
      ((HaltonFlags.loop { f with disk := false } rand (f.s * (f.i + f.n)) fuel i out).1.map inDisk,
        (HaltonFlags.loop { f with disk := false } rand (f.s * (f.i + f.n)) fuel i out).2) := by
    intro fuel
    induction fuel with
    | zero => intro i out; rfl
    | succ fuel ih =>
      intro i out
      rw [HaltonFlags.loop, HaltonFlags.loop]
      by_cases hi : i < f.s * (f.i + f.n)
      · rw [if_pos hi, if_pos hi, List.length_map, hl]
        cases HaltonFlags.line { f with disk := false } (rand out.length) i with
        | error e => rfl
        | ok l =>
          have := ih (i + f.s) (out ++ [l])
          rw [List.map_append] at this
          exact this
      · rw [if_neg hi, if_neg hi]
  exact key fuel f.i []

/-- Random points in the disk. -/
example (rand : Nat → ℝ × ℝ) : ∃ lines, HaltonFlags.run { rnd := true, disk := true, n := 3 } rand 3 = (lines, .done) ∧
    ∀ k (h : k < lines.length), lines[k] = inDisk (rand k) := by
  obtain ⟨lines, e, h, hk⟩ := C104_random { rnd := true, n := 3 } (by norm_num) (by norm_num) (by norm_num) (by norm_num) rfl rfl rand 3 (by norm_num)
  refine ⟨lines.map inDisk, ?_, fun k h => ?_⟩
  · have := C104_disk_moves { rnd := true, n := 3 } rand 3
    rw [this, e]
  · rw [List.getElem_map, hk]

/-- **A base of zero crashes the command**, before a single point is printed: the first number asked for divides by it. -/
theorem C104_zero_base (f : HaltonFlags) (ha : f.a = 0 ∨ (2 ≤ f.a ∧ f.b = 0)) (hi : 0 ≤ f.i) (hn : f.i < f.s * (f.i + f.n))
    (rand : Nat → ℝ × ℝ) (fuel : Nat) :
    f.run rand (fuel + 1) = ([], .panicked (.msg "integer divide by zero")) := by
  have e0 : (haltonInt 0 f.i : GoM ℝ) = .error (.msg "integer divide by zero") := by
    rw [haltonInt_nat (by omega) hi, halton, haltonLoop, if_pos (by omega)]
    rfl
  have hline : f.line (rand 0) f.i = .error (.msg "integer divide by zero") := by
    rcases ha with h | ⟨h2, h⟩
    · rw [HaltonFlags.line, h, e0]; rfl
    · rw [HaltonFlags.line, h, e0, haltonInt_nat (by omega) hi, C09_value (by omega)]; rfl
  rw [HaltonFlags.run, HaltonFlags.loop, if_pos hn]
  simp only [List.length_nil, hline]

/-- `halton -a 0` crashes. -/
example (rand : Nat → ℝ × ℝ) : HaltonFlags.run { a := 0 } rand 300 = ([], .panicked (.msg "integer divide by zero")) :=
  C104_zero_base { a := 0 } (.inl rfl) (by norm_num) (by norm_num) rand 299

/-- **Without a stride and with a negative start the command never ends.** -/
theorem C104_endless (f : HaltonFlags) (hs : f.s = 0) (hi : f.i < 0) (rand : Nat → ℝ × ℝ) (fuel : Nat) :
    (f.run rand fuel).2 = .running ∧ (f.run rand fuel).1.length = fuel := by
  have hl : ∀ r : ℝ × ℝ, ∃ l, f.line r f.i = .ok l := by
    intro r
    have e : ∀ b, (haltonInt b f.i : GoM ℝ) = .ok (lit 0) := fun b => by rw [haltonInt, if_pos (by omega)]
    rw [HaltonFlags.line, e, e]
    simp only [ok_bind]
    split <;> exact ⟨_, rfl⟩
  have key : ∀ fuel out, (f.loop rand 0 fuel f.i out).2 = .running ∧ (f.loop rand 0 fuel f.i out).1.length = out.length + fuel := by
    intro fuel
    induction fuel with
    | zero => intro out; rw [HaltonFlags.loop, if_pos hi]; exact ⟨rfl, rfl⟩
    | succ fuel ih =>
      intro out
      obtain ⟨l, e⟩ := hl (rand out.length)
      rw [HaltonFlags.loop, if_pos hi, e]
      dsimp only
      rw [hs, add_zero]
      obtain ⟨h1, h2⟩ := ih (out ++ [l])
      refine ⟨h1, h2.trans ?_⟩
      rw [List.length_append, List.length_singleton]
      omega
  rw [HaltonFlags.run, hs, zero_mul]
  simpa using key fuel []

/-- `halton -s 0 -i -1`. -/
example (rand : Nat → ℝ × ℝ) : (HaltonFlags.run { s := 0, i := -1 } rand 1000).1.length = 1000 :=
  (C104_endless { s := 0, i := -1 } rfl (by norm_num) rand 1000).2

end BR
