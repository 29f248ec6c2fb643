import Verif.Lemmas.LampSum

/-! The way from a point to a lamp, in double precision. -/

namespace BR

open Flo

variable {p n : Vec Flo} {P m Q N : Vec ℝ} {pos : Vec Flo} {power : Color Flo} {l : Bulb}

/-- The ray from the point `p` to a lamp, in double precision: `v` is its direction and `g` the distance. -/
structure Way (p pos : Vec Flo) (P Q L v : Vec ℝ) (g : ℝ) : Prop where
  start : p.FIs P
  dir : (pos.sub p).normalized.FIs v
  len : (pos.sub p).len.Is g
  near : Within 64 P
  lamp : Within 1024 L
  close : apart P Q ≤ 1 / 2 ^ 19
  far : 1 / 16 ≤ apart L P
  reach : |g - apart L P| ≤ 1 / 2 ^ 49 * apart L P
  vx : |v.x - (L.x - P.x) / apart L P| ≤ 1 / 2 ^ 46
  vy : |v.y - (L.y - P.y) / apart L P| ≤ 1 / 2 ^ 46
  vz : |v.z - (L.z - P.z) / apart L P| ≤ 1 / 2 ^ 46

theorem Patch.way (hp : Patch p n P m Q N) (hn : Within 64 P) (hl : LampFor Q pos power l) :
    ∃ v g, Way p pos P Q l.pos v g := by
  obtain ⟨v, g, hv, hg, e1, e2, e3, eg⟩ := towards_is hp.point hl.pos hp.near hl.near (hp.sixteenth hl)
  exact ⟨v, g, hp.point, hv, hg, hn, hl.near, hp.close, hp.sixteenth hl, eg, e1, e2, e3⟩

/-- The points are within `e` of each other, coordinate by coordinate. -/
def Beside (e : ℝ) (a b : Vec ℝ) : Prop := |a.x - b.x| ≤ e ∧ |a.y - b.y| ≤ e ∧ |a.z - b.z| ≤ e

theorem Beside.apart_le {e : ℝ} {a b : Vec ℝ} (he : 0 ≤ e) (h : Beside e a b) : apart a b ≤ 2 * e := by
  refine Real.sqrt_le_iff.2 ⟨by positivity, ?_⟩
  have sq' : ∀ {x : ℝ}, |x| ≤ e → x ^ 2 ≤ e ^ 2 := fun h => sq_le_sq' (abs_le.1 h).1 (abs_le.1 h).2
  have h1 := sq' h.1
  have h2 := sq' h.2.1
  have h3 := sq' h.2.2
  nlinarith [sq_nonneg e]

theorem beside_of_apart {a b : Vec ℝ} {e : ℝ} (h : apart a b ≤ e) : Beside e a b := by
  obtain ⟨h1, h2, h3⟩ := apart_comp a b
  exact ⟨h1.trans h, h2.trans h, h3.trans h⟩

namespace Way

variable {v L : Vec ℝ} {g : ℝ}

theorem far_le (h : Way p pos P Q L v g) : apart L P ≤ 3600 := by
  have w : Within 1024 P := ⟨h.near.1.trans (by norm_num), h.near.2.1.trans (by norm_num), h.near.2.2.trans (by norm_num)⟩
  exact apart_far h.lamp w

/-- The direction is nearly of length one. -/
theorem unit (h : Way p pos P Q L v g) : |v.x ^ 2 + v.y ^ 2 + v.z ^ 2 - 1| ≤ 1 / 2 ^ 40 := by
  have gp : 0 < apart L P := lt_of_lt_of_le (by norm_num) h.far
  have hsq : apart L P ^ 2 = (L.x - P.x) ^ 2 + (L.y - P.y) ^ 2 + (L.z - P.z) ^ 2 := Real.sq_sqrt (by positivity)
  obtain ⟨c1, c2, c3⟩ := apart_comp L P
  have one : ((L.x - P.x) / apart L P) ^ 2 + ((L.y - P.y) / apart L P) ^ 2 + ((L.z - P.z) / apart L P) ^ 2 = 1 := by
    field_simp
    linarith
  have cut : ∀ {u : ℝ}, |u| ≤ apart L P → |u / apart L P| ≤ 1 := by
    intro u h; rw [abs_div, abs_of_pos gp, div_le_one gp]; exact h
  have sq' : ∀ {a b : ℝ}, |a - b| ≤ 1 / 2 ^ 46 → |b| ≤ 1 → |a ^ 2 - b ^ 2| ≤ 3 / 2 ^ 46 := by
    intro a b h1 h2
    rw [show a ^ 2 - b ^ 2 = (a - b) * (a + b) by ring, abs_mul]
    have h3 : |a + b| ≤ 3 := by
      rw [abs_le] at *
      norm_num at *
      constructor <;> linarith
    have := mul_le_mul h1 h3 (abs_nonneg _) (by norm_num)
    norm_num at *
    linarith
  have a1 := sq' h.vx (cut c1)
  have a2 := sq' h.vy (cut c2)
  have a3 := sq' h.vz (cut c3)
  rw [abs_le] at *
  norm_num at *
  constructor <;> linarith

/-- Along the straight line by parameter. -/
private theorem line (h : Way p pos P Q L v g) {T : ℝ} (hT : |T| ≤ 4000) :
    Beside (1 / 2 ^ 34) (along P v T) (onWay P L (T / apart L P)) := by
  have gp : 0 < apart L P := lt_of_lt_of_le (by norm_num) h.far
  have key : ∀ {a u w : ℝ}, |w - u / apart L P| ≤ 1 / 2 ^ 46 → |(a + T * w) - (a + T / apart L P * u)| ≤ 1 / 2 ^ 34 := by
    intro a u w hw
    rw [show (a + T * w) - (a + T / apart L P * u) = T * (w - u / apart L P) by ring, abs_mul]
    have := mul_le_mul hT hw (abs_nonneg _) (by norm_num)
    norm_num at *
    linarith
  exact ⟨key h.vx, key h.vy, key h.vz⟩

private theorem shift (h : apart P Q ≤ 1 / 2 ^ 19) {f : ℝ} (h0 : 0 ≤ f) (h1 : f ≤ 1) :
    Beside (1 / 2 ^ 19) (onWay P L f) (onWay Q L f) := by
  have key : ∀ {a b c : ℝ}, |a - b| ≤ apart P Q → |(a + f * (c - a)) - (b + f * (c - b))| ≤ 1 / 2 ^ 19 := by
    intro a b c hab
    rw [show (a + f * (c - a)) - (b + f * (c - b)) = (1 - f) * (a - b) by ring, abs_mul, abs_of_nonneg (by linarith : 0 ≤ 1 - f)]
    have := mul_le_mul (show 1 - f ≤ 1 by linarith) (hab.trans h) (abs_nonneg _) zero_le_one
    linarith
  obtain ⟨c1, c2, c3⟩ := apart_comp P Q
  exact ⟨key c1, key c2, key c3⟩

theorem Beside.trans' {e f E : ℝ} {a b c : Vec ℝ} (h : Beside e a b) (h' : Beside f b c) (hE : e + f ≤ E) : Beside E a c :=
  ⟨(abs_sub_le _ b.x _).trans (by linarith [h.1, h'.1]), (abs_sub_le _ b.y _).trans (by linarith [h.2.1, h'.2.1]),
    (abs_sub_le _ b.z _).trans (by linarith [h.2.2, h'.2.2])⟩

/-- Every point of the ray up to the lamp is beside a point on the way. -/
theorem on_way (h : Way p pos P Q L v g) {T : ℝ} (h0 : 0 < T) (h1 : T < g) :
    ∃ f, 0 ≤ f ∧ f ≤ 1 ∧ Beside (1 / 2 ^ 18) (along P v T) (onWay Q L f) := by
  have gp : 0 < apart L P := lt_of_lt_of_le (by norm_num) h.far
  have hfar := h.far_le
  have hr := abs_le.1 h.reach
  have hT : |T| ≤ 4000 := by rw [abs_of_pos h0]; norm_num at *; linarith
  have hl := h.line hT
  rcases le_or_gt (T / apart L P) 1 with hle | hgt
  · have h0' : 0 ≤ T / apart L P := by positivity
    exact ⟨_, h0', hle, Beside.trans' hl (shift h.close h0' hle) (by norm_num)⟩
  · refine ⟨1, zero_le_one, le_rfl, Beside.trans' (Beside.trans' (E := 1 / 2 ^ 20) hl ?_ (f := 1 / 2 ^ 30) (by norm_num)) (shift h.close zero_le_one le_rfl) (by norm_num)⟩
    have hTg : T / apart L P - 1 ≤ 1 / 2 ^ 49 := by
      have : T / apart L P ≤ 1 + 1 / 2 ^ 49 := by rw [div_le_iff₀ gp]; linarith
      linarith
    obtain ⟨c1, c2, c3⟩ := apart_comp L P
    have key : ∀ {a c : ℝ}, |c - a| ≤ apart L P → |(a + T / apart L P * (c - a)) - (a + 1 * (c - a))| ≤ 1 / 2 ^ 30 := by
      intro a c hc
      rw [show (a + T / apart L P * (c - a)) - (a + 1 * (c - a)) = (T / apart L P - 1) * (c - a) by ring, abs_mul,
        abs_of_pos (by linarith)]
      have := mul_le_mul hTg (hc.trans hfar) (abs_nonneg _) (by norm_num)
      norm_num at *
      linarith
    exact ⟨key c1, key c2, key c3⟩

/-- Every point on the way is beside a point of the ray. -/
theorem on_ray (h : Way p pos P Q L v g) {f : ℝ} (h0 : 0 ≤ f) (h1 : f ≤ 1) :
    ∃ T, 0 ≤ T ∧ T ≤ g + 1 / 2 ^ 30 ∧ Beside (1 / 2 ^ 18) (along P v T) (onWay Q L f) := by
  have gp : 0 < apart L P := lt_of_lt_of_le (by norm_num) h.far
  have hfar := h.far_le
  have hr := abs_le.1 h.reach
  have hle : f * apart L P ≤ apart L P := mul_le_of_le_one_left gp.le h1
  have h0' : 0 ≤ f * apart L P := by positivity
  have hl := h.line (T := f * apart L P) (by rw [abs_of_nonneg h0']; linarith)
  rw [mul_div_assoc, div_self gp.ne', mul_one] at hl
  refine ⟨f * apart L P, h0', ?_, Beside.trans' hl (shift h.close h0 h1) (by norm_num)⟩
  norm_num at *
  linarith

end Way

end BR
