import Verif.Lemmas.LampErr

/-! The light of many lamps, summed in double precision. -/

namespace BR
set_option linter.unusedSectionVars false

open Flo

variable {S : Type}

/-- The computed point `p` and normal `n` are close to the point `Q` and the unit normal `N`. -/
structure Patch (p n : Vec Flo) (P m Q N : Vec ℝ) : Prop where
  point : p.FIs P
  normal : n.FIs m
  near : Within 1024 P
  close : apart P Q ≤ 1 / 2 ^ 19
  unit : N.x ^ 2 + N.y ^ 2 + N.z ^ 2 = 1
  x_le : |m.x - N.x| ≤ 1 / 2 ^ 16
  y_le : |m.y - N.y| ≤ 1 / 2 ^ 16
  z_le : |m.z - N.z| ≤ 1 / 2 ^ 16

/-- The cosine, negative if the surface faces away. -/
noncomputable def tilt (Q n : Vec ℝ) (l : Bulb) : ℝ :=
  ((l.pos.x - Q.x) * n.x + (l.pos.y - Q.y) * n.y + (l.pos.z - Q.z) * n.z) / apart l.pos Q

theorem pick_mul (c : Color Flo) (s : Flo) (k : Primary) : (c.mul s).pick k = s * c.pick k := by cases k <;> rfl
theorem pick_add (c d : Color Flo) (k : Primary) : (c.add d).pick k = c.pick k + d.pick k := by cases k <;> rfl
theorem pick_mul3 (c d : Color Flo) (k : Primary) : (c.mul3 d).pick k = c.pick k * d.pick k := by cases k <;> rfl
theorem pick_black (k : Primary) : ((Color.black : Color Flo).pick k).Is 0 := by cases k <;> exact Ball.flo_zero

variable {p n : Vec Flo} {P m Q N : Vec ℝ} {pos : Vec Flo} {power : Color Flo} {l : Bulb}

theorem tilt_le (hN : N.x ^ 2 + N.y ^ 2 + N.z ^ 2 = 1) (hg : 1 / 8 ≤ apart l.pos Q) : |tilt Q N l| ≤ 1 := by
  have hp : 0 < apart l.pos Q := by linarith
  have hsq : apart l.pos Q ^ 2 = (l.pos.x - Q.x) ^ 2 + (l.pos.y - Q.y) ^ 2 + (l.pos.z - Q.z) ^ 2 := Real.sq_sqrt (by positivity)
  unfold tilt
  rw [abs_div, abs_of_pos hp, div_le_one hp]
  refine abs_le_of_sq_le_sq ?_ hp.le
  have := Ball.dot_sq_le ⟨l.pos.x - Q.x, l.pos.y - Q.y, l.pos.z - Q.z⟩ N
  dsimp only at this
  nlinarith

namespace Patch

theorem sixteenth (hp : Patch p n P m Q N) (hl : LampFor Q pos power l) : 1 / 16 ≤ apart l.pos P := by
  have htri := Bounce.apart_tri P Q l.pos
  rw [apart_swap P l.pos, apart_swap Q l.pos, abs_le] at htri
  have := hl.far
  have := hp.close
  norm_num at *
  linarith

/-- The cosine that is computed. -/
theorem cosine (hp : Patch p n P m Q N) (hl : LampFor Q pos power l) :
    ∃ θ, ((pos.sub p).normalized.dot n).Is θ ∧ |θ - tilt Q N l| ≤ 6 / 2 ^ 16 := by
  obtain ⟨v, g, hv, -, e1, e2, e3, -⟩ := towards_is hp.point hl.pos hp.near hl.near (hp.sixteenth hl)
  have hoff := cosine_off hp.close hl.far hp.unit hp.x_le hp.y_le hp.z_le
  obtain ⟨c1, c2, c3⟩ := apart_comp l.pos P
  have gp : 0 < apart l.pos P := lt_of_lt_of_le (by norm_num) (hp.sixteenth hl)
  have cut : ∀ {u : ℝ}, |u| ≤ apart l.pos P → |u / apart l.pos P| ≤ 1 := by
    intro u h; rw [abs_div, abs_of_pos gp, div_le_one gp]; exact h
  have mb : ∀ {a b c d : ℝ}, |a - b| ≤ 1 / 2 ^ 16 → b ^ 2 + c ^ 2 + d ^ 2 = 1 → |a| ≤ 1.01 := by
    intro a b c d h1 h2
    have : |b| ≤ 1 := abs_le_one_iff_mul_self_le_one.2 (by nlinarith [sq_nonneg c, sq_nonneg d])
    rw [abs_le] at *
    norm_num at *
    constructor <;> linarith
  have m1 := mb hp.x_le hp.unit
  have m2 := mb (c := N.x) (d := N.z) hp.y_le (by linarith [hp.unit])
  have m3 := mb (c := N.x) (d := N.y) hp.z_le (by linarith [hp.unit])
  have n1 : (pos.sub p).normalized.x.Near ((l.pos.x - P.x) / apart l.pos P) (1 / 2 ^ 46) 1 := ⟨⟨_, hv.1, e1⟩, cut c1⟩
  have n2 : (pos.sub p).normalized.y.Near ((l.pos.y - P.y) / apart l.pos P) (1 / 2 ^ 46) 1 := ⟨⟨_, hv.2.1, e2⟩, cut c2⟩
  have n3 : (pos.sub p).normalized.z.Near ((l.pos.z - P.z) / apart l.pos P) (1 / 2 ^ 46) 1 := ⟨⟨_, hv.2.2, e3⟩, cut c3⟩
  have t1 := n1.mul (1 / 2 ^ 45) 1.01 (hp.normal.1.near m1)
  have t2 := n2.mul (1 / 2 ^ 45) 1.01 (hp.normal.2.1.near m2)
  have t3 := n3.mul (1 / 2 ^ 45) 1.01 (hp.normal.2.2.near m3)
  obtain ⟨⟨θ, hθ, eθ⟩, -⟩ := (t1.add (1 / 2 ^ 43) 3 t2).add (1 / 2 ^ 42) 5 t3
  refine ⟨θ, hθ, ?_⟩
  unfold tilt
  have := abs_sub_le θ _ _ |>.trans (add_le_add eθ hoff)
  exact this.trans (by norm_num)

/-- The strength that is computed. -/
theorem strength (hp : Patch p n P m Q N) (hl : LampFor Q pos power l) (k : Primary) :
    ∃ ι, ((power.mul (Light.pointIntensity p pos)).pick k).Is ι ∧
      |ι - squarely Q l k| ≤ 1 / 2 ^ 13 * squarely Q l k + 1 / 2 ^ 199 ∧ 0 ≤ squarely Q l k ∧ squarely Q l k ≤ 2 ^ 43 := by
  obtain ⟨v, hv, ev⟩ := strength_is hp.point hl.pos hp.near hl.near (by rw [apart_swap]; exact hp.sixteenth hl)
  have hoff := strength_off hp.close hl.far
  have w0 := hl.nonneg k
  have w1 := hl.weak k
  have hk := hl.power k
  have e : squarely Q l k = l.power.pick k * (1 / (4 * Real.pi * apart l.pos Q ^ 2)) := by unfold squarely; ring
  have hf : 1 / (4 * Real.pi * apart l.pos Q ^ 2) ≤ 6 := by
    have := pow_le_pow_left₀ (by norm_num) hl.far 2
    have hpi := Real.pi_gt_three
    rw [div_le_iff₀ (by positivity)]
    nlinarith
  have hf0 : 0 ≤ 1 / (4 * Real.pi * apart l.pos Q ^ 2) := by positivity
  rw [pick_mul, e]
  generalize 1 / (4 * Real.pi * apart l.pos Q ^ 2) = κ at *
  generalize 1 / (4 * Real.pi * apart P l.pos ^ 2) = κ' at *
  generalize l.power.pick k = w at *
  have hvκ : |v - κ| ≤ (1 / 2 ^ 14 + 1 / 2 ^ 40) * κ := by
    rw [abs_le] at *
    norm_num at *
    constructor <;> linarith
  have hv2 := abs_le.1 hvκ
  have v0 : 0 ≤ v := by norm_num at *; linarith
  have v1 : v ≤ 7 := by norm_num at *; linarith
  have hvw0 : 0 ≤ v * w := mul_nonneg v0 w0
  have hvw : v * w ≤ 7 * 10 ^ 12 := mul_le_mul v1 w1 w0 (by norm_num)
  have hr := round_rel (v * w)
  rw [abs_of_nonneg hvw0] at hr
  have hdiff : |v * w - w * κ| ≤ (1 / 2 ^ 14 + 1 / 2 ^ 40) * (w * κ) := by
    rw [show v * w - w * κ = w * (v - κ) by ring, abs_mul, abs_of_nonneg w0]
    have := mul_le_mul_of_nonneg_left hvκ w0
    linarith
  refine ⟨_, Flo.mul_is hv hk (by rw [abs_of_nonneg hvw0]; norm_num at *; linarith), ?_, mul_nonneg w0 hf0, ?_⟩
  · have hwκ := mul_nonneg w0 hf0
    rw [abs_le] at *
    norm_num at *
    constructor <;> linarith
  · have := mul_le_mul w1 hf hf0 (by norm_num)
    norm_num at *
    linarith

end Patch

/-- The sum so far: `a` stands for `s` but for the errors that `j` lamps bring, the sum of whose light is `b`. -/
def Tally (j : ℕ) (a : Flo) (s b : ℝ) : Prop :=
  ∃ α, a.Is α ∧ |α - s| ≤ (3 / 2 ^ 13 + j / 2 ^ 51) * b + j / 2 ^ 170 ∧ 0 ≤ s ∧ s ≤ b ∧ b ≤ j * 2 ^ 43

theorem Tally.zero {a : Flo} (h : a.Is 0) : Tally 0 a 0 0 := ⟨0, h, by simp, le_rfl, le_rfl, by simp⟩

/-- A lamp that gives next to no light. -/
theorem Tally.skip {j : ℕ} {a : Flo} {s b : ℝ} (h : Tally j a s b) {t u : ℝ} (t0 : 0 ≤ t) (tu : t ≤ u) (u1 : u ≤ 2 ^ 43)
    (ht : t ≤ 6 / 2 ^ 16 * u + 1 / 2 ^ 198) : Tally (j + 1) a (s + t) (b + u) := by
  obtain ⟨α, ha, e, h1, h2, h3⟩ := h
  refine ⟨α, ha, ?_, by linarith, by linarith, by push_cast; linarith⟩
  have hj : (0 : ℝ) ≤ j := Nat.cast_nonneg j
  have hb : 0 ≤ b := h1.trans h2
  have hu : 0 ≤ u := t0.trans tu
  have p1 := mul_nonneg hj hb
  have p2 := mul_nonneg hj hu
  push_cast
  rw [abs_le] at *
  norm_num at *
  constructor <;> nlinarith

/-- A lamp whose light is added. -/
theorem Tally.add {j : ℕ} {a c : Flo} {s b : ℝ} (h : Tally j a s b) (hj : j ≤ 2 ^ 30) {t u τ : ℝ} (t0 : 0 ≤ t) (tu : t ≤ u) (u1 : u ≤ 2 ^ 43)
    (hc : c.Is τ) (ht : |τ - t| ≤ 3 / 2 ^ 13 * u + 1 / 2 ^ 178) : Tally (j + 1) (a + c) (s + t) (b + u) := by
  obtain ⟨α, ha, e, h1, h2, h3⟩ := h
  have hj0 : (0 : ℝ) ≤ j := Nat.cast_nonneg j
  have hj1 : (j : ℝ) ≤ 2 ^ 30 := by exact_mod_cast hj
  clear hj
  unfold Tally
  push_cast
  generalize (j : ℝ) = x at *
  have hb : 0 ≤ b := h1.trans h2
  have hu : 0 ≤ u := t0.trans tu
  have hjb : x / 2 ^ 51 * b ≤ 1 / 2 ^ 21 * b := by
    refine mul_le_mul_of_nonneg_right ?_ hb
    norm_num at *
    linarith
  have p1 := mul_nonneg hj0 hb
  have p2 := mul_nonneg hj0 hu
  have hsum : |α + τ| ≤ 2 * (b + u) + 1 / 2 ^ 130 := by
    rw [abs_le] at *
    norm_num at *
    constructor <;> linarith
  have hbig : b ≤ 2 ^ 30 * 2 ^ 43 := h3.trans (mul_le_mul_of_nonneg_right hj1 (by norm_num))
  have hr := (round_rel (α + τ)).trans (add_le_add (div_le_div_of_nonneg_right hsum (by norm_num)) le_rfl)
  refine ⟨_, Flo.add_is ha hc (hsum.trans (by norm_num at *; linarith)), ?_, by linarith, by linarith, by linarith⟩
  rw [abs_le] at *
  norm_num at *
  constructor <;> linarith

/-- The light of one lamp, where a part `κ` of it arrives. -/
theorem lamp_part {a c : Flo} {θ ι ω σ q κ : ℝ} (hθ : a.Is θ) (hω : c.Is ω) (θb : |θ| ≤ 1.01) (d1 : |θ - σ| ≤ 6 / 2 ^ 16)
    (eι : |ι - q| ≤ 1 / 2 ^ 13 * q + 1 / 2 ^ 199) (eω : |ω - κ * ι| ≤ 1 / 2 ^ 32 * |κ * ι| + 1 / 2 ^ 179) (q0 : 0 ≤ q) (q1 : q ≤ 2 ^ 43)
    (κ0 : 0 ≤ κ) (κ1 : κ ≤ 1) : ∃ τ, (a * c).Is τ ∧ |τ - κ * (q * σ)| ≤ 3 / 2 ^ 13 * (κ * q) + 1 / 2 ^ 178 := by
  have e1 : |κ * ι - κ * q| ≤ 1 / 2 ^ 13 * (κ * q) + 1 / 2 ^ 199 := by
    rw [← mul_sub, abs_mul, abs_of_nonneg κ0]
    have h1 := mul_le_mul_of_nonneg_left eι κ0
    have h2 : κ * (1 / 2 ^ 199) ≤ 1 / 2 ^ 199 := mul_le_of_le_one_left (by positivity) κ1
    rw [mul_add] at h1
    linarith
  rw [← mul_assoc]
  have u0 := mul_nonneg κ0 q0
  have u1 : κ * q ≤ 2 ^ 43 := (mul_le_of_le_one_left q0 κ1).trans q1
  generalize κ * q = u at *
  generalize κ * ι = j at *
  clear eι
  have jb : |j| ≤ 2 * u + 1 / 2 ^ 199 := by
    rw [abs_le] at *
    norm_num at *
    constructor <;> linarith
  have e2 : |ω - u| ≤ (1 / 2 ^ 13 + 1 / 2 ^ 31) * u + 65 / 2 ^ 185 := by
    generalize |j| = J at *
    rw [abs_le] at *
    norm_num at *
    constructor <;> linarith
  have ωb : |ω| ≤ 2 * u + 65 / 2 ^ 185 := by
    rw [abs_le] at *
    norm_num at *
    constructor <;> linarith
  have hpb : |θ * ω| ≤ 3 * u + 1 / 2 ^ 178 := by
    rw [abs_mul]
    have := mul_le_mul θb ωb (abs_nonneg _) (by norm_num)
    norm_num at *
    linarith
  have hr := (round_rel (θ * ω)).trans (add_le_add (div_le_div_of_nonneg_right hpb (by norm_num)) le_rfl)
  refine ⟨_, Flo.mul_is hθ hω (hpb.trans (by norm_num at *; linarith)), ?_⟩
  have d2 : |θ * ω - u * σ| ≤ 2.5 / 2 ^ 13 * u + 66 / 2 ^ 185 := by
    rw [show θ * ω - u * σ = θ * (ω - u) + u * (θ - σ) by ring]
    refine (abs_add_le _ _).trans ?_
    rw [abs_mul, abs_mul, abs_of_nonneg u0]
    have a1 := mul_le_mul θb e2 (abs_nonneg _) (by norm_num)
    have a2 := mul_le_mul_of_nonneg_left d1 u0
    norm_num at *
    linarith
  generalize roundBits 53 (θ * ω) = w at *
  generalize θ * ω = z at *
  rw [abs_le] at *
  norm_num at *
  constructor <;> linarith

/-- The loop over the lamps, where all are decided. -/
theorem direct_lit (hp : Patch p n P m Q N) (rng : Rng Flo S) (occl : Ray Flo → Flo → Color Flo → GoM (Color Flo × Ray Flo)) (lamps : List Fitting)
    (hl : ∀ x ∈ lamps, LampFor Q x.pos x.power x.bulb)
    (hpart : ∀ x ∈ lamps, ∀ k, 0 ≤ x.part k ∧ x.part k ≤ 1)
    (hocc : ∀ x ∈ lamps, ∀ c, ∃ y r', occl ⟨p, (x.pos.sub p).normalized⟩ (x.pos.sub p).len c = .ok (y, r') ∧ ∀ k ι, (c.pick k).Is ι → |ι| ≤ 2 ^ 45 →
      ∃ ω, (y.pick k).Is ω ∧ |ω - x.part k * ι| ≤ 1 / 2 ^ 32 * |x.part k * ι| + 1 / 2 ^ 179)
    (j : ℕ) (acc : Color Flo) (s b : Primary → ℝ) (h : ∀ k, Tally j (acc.pick k) (s k) (b k)) (hj : j + lamps.length ≤ 2 ^ 30) (ctx : Ctx Flo S) :
    ∃ acc', directLoop rng occl p n (lamps.map Fitting.light) acc ctx = .ok (acc', ctx) ∧
      ∀ k, Tally (j + lamps.length) (acc'.pick k) (s k + (lamps.map (Fitting.gives Q N k)).sum) (b k + (lamps.map (Fitting.most Q k)).sum) := by
  induction lamps generalizing j acc s b with
  | nil => exact ⟨acc, rfl, by simpa using h⟩
  | cons x xs ih =>
    have hx := hl x (by simp)
    have hl' : ∀ y ∈ xs, LampFor Q y.pos y.power y.bulb := fun y hy => hl y (by simp [hy])
    have hpx := hpart x (by simp)
    have hpart' := fun y (hy : y ∈ xs) => hpart y (by simp [hy])
    have hocc' := fun y (hy : y ∈ xs) => hocc y (by simp [hy])
    have hlen : j + 1 + xs.length ≤ 2 ^ 30 := by rw [List.length_cons] at hj; omega
    have fin : ∀ acc1, directLoop rng occl p n ((x :: xs).map Fitting.light) acc ctx = directLoop rng occl p n (xs.map Fitting.light) acc1 ctx →
        (∀ k, Tally (j + 1) (acc1.pick k) (s k + x.gives Q N k) (b k + x.most Q k)) →
        ∃ acc', directLoop rng occl p n ((x :: xs).map Fitting.light) acc ctx = .ok (acc', ctx) ∧
          ∀ k, Tally (j + (x :: xs).length) (acc'.pick k) (s k + ((x :: xs).map (Fitting.gives Q N k)).sum)
            (b k + ((x :: xs).map (Fitting.most Q k)).sum) := by
      intro acc1 e1 h1
      obtain ⟨acc', e, h2⟩ := ih hl' hpart' hocc' (j + 1) acc1 _ _ h1 hlen
      refine ⟨acc', e1.trans e, fun k => ?_⟩
      have := h2 k
      rw [List.map_cons, List.map_cons, List.sum_cons, List.sum_cons, List.length_cons]
      rw [show j + (xs.length + 1) = j + 1 + xs.length by omega]
      rwa [add_assoc (s k), add_assoc (b k)] at this
    obtain ⟨θ, hθ, eθ⟩ := hp.cosine hx
    have ht := tilt_le (l := x.bulb) hp.unit hx.far
    have slant_eq : slant Q N x.bulb = max 0 (tilt Q N x.bulb) := rfl
    have sl0 : 0 ≤ slant Q N x.bulb := le_max_left _ _
    have sl1 : slant Q N x.bulb ≤ 1 := by rw [slant_eq]; exact max_le zero_le_one (abs_le.1 ht).2
    have give0 : ∀ k, 0 ≤ x.gives Q N k ∧ x.gives Q N k ≤ x.most Q k ∧ x.most Q k ≤ 2 ^ 43 := by
      intro k
      obtain ⟨-, -, -, q0, q1⟩ := hp.strength hx k
      exact ⟨mul_nonneg (hpx k).1 (mul_nonneg q0 sl0), mul_le_mul_of_nonneg_left (mul_le_of_le_one_right q0 sl1) (hpx k).1,
        (mul_le_of_le_one_left q0 (hpx k).2).trans q1⟩
    rw [List.map_cons]
    change ∃ acc', directLoop rng occl p n (.point x.pos x.power :: xs.map Fitting.light) acc ctx = .ok (acc', ctx) ∧ _
    have step : directLoop rng occl p n ((x :: xs).map Fitting.light) acc ctx =
        directLoop rng occl p n (.point x.pos x.power :: xs.map Fitting.light) acc ctx := rfl
    rw [directLoop, Light.sample, ok_bind] at step
    dsimp only at step
    by_cases hz : (x.power.mul (Light.pointIntensity p x.pos)).isZero = true
    · rw [if_pos hz] at step
      refine fin acc step fun k => (h k).skip (give0 k).1 (give0 k).2.1 (give0 k).2.2 ?_
      obtain ⟨ι, hι, eι, q0, q1⟩ := hp.strength hx k
      have ι0 : ι = 0 := by
        have h0 : ((x.power.mul (Light.pointIntensity p x.pos)).pick k ==. lit 0) = true := by
          unfold Color.isZero at hz
          rw [Bool.and_eq_true, Bool.and_eq_true] at hz
          cases k
          · exact hz.1.1
          · exact hz.1.2
          · exact hz.2
        exact Turn.flo_cmp_eq hι Ball.flo_zero h0
      have h1 := (give0 k).2.1
      have h2 : x.most Q k ≤ squarely Q x.bulb k := mul_le_of_le_one_left q0 (hpx k).2
      have h3 := (give0 k).1.trans h1
      rw [ι0, zero_sub, abs_neg, abs_of_nonneg q0] at eι
      generalize x.gives Q N k = t at *
      generalize x.most Q k = u at *
      generalize squarely Q x.bulb k = q at *
      clear h fin step hpx hpart hpart'
      norm_num at *
      linarith
    · rw [if_neg hz] at step
      by_cases hc : ((x.pos.sub p).normalized.dot n <=. lit 0) = true
      · rw [if_pos hc] at step
        refine fin acc step fun k => (h k).skip (give0 k).1 (give0 k).2.1 (give0 k).2.2 ?_
        rw [Ball.le_flo hθ Ball.flo_zero, decide_eq_true_eq] at hc
        obtain ⟨-, -, -, q0, q1⟩ := hp.strength hx k
        have : slant Q N x.bulb ≤ 6 / 2 ^ 16 := by
          rw [slant_eq]
          refine max_le (by norm_num) ?_
          have := (abs_le.1 eθ).1
          linarith
        unfold Fitting.gives Fitting.most
        have := mul_le_mul_of_nonneg_left (mul_le_mul_of_nonneg_left this q0) (hpx k).1
        refine this.trans ?_
        have h198 : (0 : ℝ) ≤ 1 / 2 ^ 198 := by positivity
        linarith
      · rw [if_neg hc] at step
        rw [Ball.le_flo hθ Ball.flo_zero, decide_eq_true_eq, not_le] at hc
        obtain ⟨y, r', hr', hy⟩ := hocc x (by simp) (x.power.mul (Light.pointIntensity p x.pos))
        rw [hr', ok_bind] at step
        refine fin _ step fun k => ?_
        rw [pick_add, pick_mul]
        obtain ⟨ι, hι, eι, q0, q1⟩ := hp.strength hx k
        have θb : |θ| ≤ 1.01 := by
          rw [abs_le] at *
          norm_num at *
          constructor <;> linarith
        have d1 : |θ - slant Q N x.bulb| ≤ 6 / 2 ^ 16 := by
          rw [slant_eq]
          rcases le_total 0 (tilt Q N x.bulb) with h0 | h0
          · rwa [max_eq_right h0]
          · rw [max_eq_left h0, sub_zero, abs_of_pos hc]
            have := (abs_le.1 eθ).2
            linarith
        obtain ⟨ω, hω, eω⟩ := hy k ι hι (by
          clear * - eι q0 q1
          rw [abs_le] at *
          norm_num at *
          constructor <;> linarith)
        obtain ⟨τ, hτ, eτ⟩ := lamp_part hθ hω θb d1 eι eω q0 q1 (hpx k).1 (hpx k).2
        exact (h k).add (by omega) (give0 k).1 (give0 k).2.1 (give0 k).2.2 hτ eτ

end BR
