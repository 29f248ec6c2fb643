import Verif.Lemmas.CamErr
import Verif.Props.C85_Crash

/-! In double precision: the places on the image that the camera is asked about. -/

namespace BR.Turn
open Bounce

theorem int_is (n : Nat) (hn : n ≤ 2 ^ 20) : (ofInt (n : Int) : Flo).Is n := by
  simpa using Flo.ofInt_is n (by rw [abs_of_nonneg (by positivity)]; exact_mod_cast hn.trans_lt (by norm_num))

theorem mhalf_is : (lit (-1 / 2) : Flo).Is (-1 / 2) :=
  (Flo.lit_is (-1 / 2) (-1) (-1) (by norm_num) (by norm_num) (by norm_num) (by rw [abs_of_neg] <;> norm_num)).of_eq (by norm_num)

/-- Interpolation over the width or height of the image. -/
theorem linterp_is {n p : Nat} (hn : n ≤ 2 ^ 20) (hp : p < n) {y1 y2 : Flo} {a b : ℝ} (ha : y1.Near a (1 / 2 ^ 40) 513) (hb : y2.Near b (1 / 2 ^ 40) 513) :
    ∃ w, (linterp (lit (-1 / 2)) y1 (ofInt (n : Int) - lit (1 / 2)) y2 (ofInt (p : Int))).Is w ∧ |w| ≤ 2000 := by
  have hnR : (n : ℝ) ≤ 2 ^ 20 := by exact_mod_cast hn
  have h1 : (p : ℝ) + 1 ≤ n := by exact_mod_cast hp
  have h0 : (0 : ℝ) ≤ p := Nat.cast_nonneg _
  have hp' : p ≤ 2 ^ 20 := by omega
  have hm : (lit (-1 / 2) : Flo).Near (-1 / 2) 0 (1 / 2) := mhalf_is.near (by norm_num)
  have nb : |(n : ℝ)| ≤ 2 ^ 20 := by rw [abs_of_nonneg (by linarith)]; exact hnR
  have pb : |(p : ℝ)| ≤ 2 ^ 20 := by rw [abs_of_nonneg h0]; linarith
  have d1 := (((int_is n hn).near nb).sub (1 / 2 ^ 32) (2 ^ 20 + 1 / 2) (half_is.near (b := 1 / 2) (by norm_num [abs_of_pos]))).sub
    (1 / 2 ^ 31) (2 ^ 20 + 1) hm
  have d2 := ((int_is p hp').near pb).sub (1 / 2 ^ 32) (2 ^ 20 + 1 / 2) hm
  have d3 := hb.sub (1 / 2 ^ 38) 1026 ha
  have d4 := d3.mul (1 / 2 ^ 15) (2 ^ 31) d2
  have pos : (1 : ℝ) ≤ n - 1 / 2 - -1 / 2 := by linarith
  have d5 := d4.div 1 2 (2 ^ 31) d1 (by rw [abs_of_nonneg (by linarith)]; exact pos)
  have hq : |(b - a) * (p - -1 / 2) / (n - 1 / 2 - -1 / 2)| ≤ 1026 := by
    rw [mul_div_assoc, abs_mul]
    have q : |((p : ℝ) - -1 / 2) / (n - 1 / 2 - -1 / 2)| ≤ 1 := by
      rw [abs_of_nonneg (div_nonneg (by linarith) (by linarith)), div_le_one (by linarith)]
      linarith
    have := mul_le_mul d3.2 q (abs_nonneg _) (by norm_num)
    linarith
  have d6 := ha.add 4 1539 (d5.bound hq)
  obtain ⟨w, hw, e⟩ := d6.1
  refine ⟨w, hw, ?_⟩
  have := d6.2
  rw [abs_le] at *
  constructor <;> linarith

theorem indexToCam_is {w h : Nat} (hw : w ≤ 2 ^ 20) (hh : h ≤ 2 ^ 20) (hr : h ≤ 1024 * w) {p : Nat × Nat} (hx : p.1 < w) (hy : p.2 < h) {uv : Flo × Flo}
    (e : indexToCam (w : Int) (h : Int) (ofInt p.1 : Flo) (ofInt p.2) = .ok uv) :
    ∃ U V, uv.1.Is U ∧ uv.2.Is V ∧ |U| ≤ 2000 ∧ |V| ≤ 2000 := by
  unfold indexToCam at e
  dsimp only at e
  split at e
  · cases e
  rw [Except.ok.injEq] at e
  subst e
  have hwR : (w : ℝ) ≤ 2 ^ 20 := by exact_mod_cast hw
  have hhR : (h : ℝ) ≤ 2 ^ 20 := by exact_mod_cast hh
  have hrR : (h : ℝ) ≤ 1024 * w := by exact_mod_cast hr
  have w1 : (1 : ℝ) ≤ w := by exact_mod_cast (by omega : 1 ≤ w)
  have h0 : (0 : ℝ) ≤ h := Nat.cast_nonneg _
  have half := half_is.near (b := 1 / 2) (by norm_num [abs_of_pos])
  have q := ((int_is h hh).near (b := 2 ^ 20) (by rw [abs_of_nonneg h0]; exact hhR)).div 1 (1 / 2 ^ 32) (2 ^ 20)
    ((int_is w hw).near (b := 2 ^ 20) (by rw [abs_of_nonneg (by linarith)]; exact hwR)) (by rw [abs_of_nonneg (by linarith)]; exact w1)
  have qb : |(h : ℝ) / w| ≤ 1024 := by
    rw [abs_of_nonneg (div_nonneg h0 (by linarith)), div_le_iff₀ (by linarith)]
    linarith
  -- the quotient again, now that it is known to be moderate
  obtain ⟨r, hrI, hre⟩ := q.1
  have q' : ((ofInt (h : Int) : Flo) / ofInt (w : Int)).Near ((h : ℝ) / w) (1024 / 2 ^ 52) 1024 := by
    have hb200 : |(h : ℝ) / w| ≤ 2 ^ 200 := qb.trans (by norm_num)
    have hI := Flo.div_is (int_is h hh) (int_is w hw) (by linarith) hb200
    exact ⟨⟨_, hI, err_le (roundBits_err 53 (by norm_num) _) qb (by norm_num)⟩, qb⟩
  have m := half.mul (1 / 2 ^ 42) 512 q'
  obtain ⟨U, hU, bU⟩ := linterp_is hw hx (y1 := lit 0) (y2 := lit 1) ((Ball.flo_zero.near (b := 513) (by norm_num)).weaken (by norm_num) le_rfl)
    ((flo_lit_one.near (b := 513) (by norm_num)).weaken (by norm_num) le_rfl)
  obtain ⟨V, hV, bV⟩ := linterp_is hh hy (half.add (1 / 2 ^ 40) 513 m) (half.sub (1 / 2 ^ 40) 513 m)
  exact ⟨U, V, hU, hV, bU, bV⟩

theorem floor_is {a : Flo} {x : ℝ} (h : a.Is x) : (GoFloat.floor a).Is (⌊x⌋ : ℤ) := by
  obtain ⟨s, h⟩ := h
  refine ⟨Ext.sgn (.num x s), ?_⟩
  change GoFloat.floor a.e = _
  rw [h]
  rfl

/-- The first number of the sequence with base `b` is near `1/b`. -/
theorem halton_first (b : Nat) (hb : 2 ≤ b) (hb' : b ≤ 8) {x : Flo} (e : halton b 0 = .ok x) : x.Near (1 / b) (8 / 2 ^ 53) 1 := by
  have h := haltonStep_lt b 1 hb (by omega) one_pos
  unfold halton at e
  rw [haltonLoop, if_pos (by norm_num), if_neg (by omega)] at e
  dsimp only at e
  have h0 : (GoFloat.trunc (GoFloat.floor ((ofInt ((0 + 1 : Nat) : Int) : Flo) / (ofInt (b : Int) : Flo)))).toNat = 0 := by
    have : (GoFloat.trunc (GoFloat.floor ((ofInt ((1 : Nat) : Int) : Flo) / (ofInt (b : Int) : Flo)))).toNat = 0 := by omega
    exact this
  rw [h0, haltonLoop, if_neg (by norm_num), Except.ok.injEq] at e
  subst e
  have bR : (2 : ℝ) ≤ b := by exact_mod_cast hb
  have bR' : (b : ℝ) ≤ 8 := by exact_mod_cast hb'
  have i1 : (ofInt (((0 + 1) % b : Nat) : Int) : Flo).Is 1 := by
    rw [show (0 + 1) % b = 1 from Nat.mod_eq_of_lt (by omega)]
    exact_mod_cast int_is 1 (by norm_num)
  have d := (flo_lit_one.near (b := 1) (by norm_num)).div 2 (2 / 2 ^ 53) (1 / 2) ((int_is b (by omega)).near (b := 8) (by rw [abs_of_nonneg (by linarith)]; exact bR'))
    (by rw [abs_of_nonneg (by linarith)]; exact bR)
  have := (Ball.flo_zero.near (b := 0) (by norm_num)).add (8 / 2 ^ 53) 1 (d.mul (4 / 2 ^ 53) (1 / 2) (i1.near (b := 1) (by norm_num)))
  exact this.of_eq (by ring)

theorem frac_is {a : Flo} {x : ℝ} (h : a.Is x) (bx : |x| ≤ 2 ^ 20) : ∃ w, (frac a).Is w ∧ |w| ≤ 2 := by
  have h1 := Int.floor_le x
  have h2 := Int.lt_floor_add_one x
  obtain ⟨w, hw, e⟩ := (Flo.Is.sub_near (b := 1) (1 / 2 ^ 40) 1 h (floor_is h) (by rw [abs_le]; constructor <;> linarith)).1
  refine ⟨w, hw, ?_⟩
  rw [abs_le] at e ⊢
  have : (1 : ℝ) / 2 ^ 40 ≤ 1 := by norm_num
  constructor <;> linarith

theorem onScreen_is {w h : Nat} (hw : w ≤ 2 ^ 20) (hh : h ≤ 2 ^ 20) (hr : h ≤ 1024 * w) {aa : Bool} {shifts : List (Flo × Flo)} {u v : Flo}
    (hs : OnScreen w h aa shifts u v) : ∃ U V, u.Is U ∧ v.Is V ∧ |U| ≤ 2 ^ 11 ∧ |V| ≤ 2 ^ 11 := by
  obtain ⟨p, hx, hy, uv, e, hj⟩ := hs
  obtain ⟨U, V, hU, hV, bU, bV⟩ := indexToCam_is hw hh hr hx hy e
  split at hj
  · obtain ⟨j, ej, rfl, rfl⟩ := hj
    unfold HaltonSeq.generate2 at ej
    obtain ⟨x, ex, ej⟩ := bind_eq_ok.1 ej
    obtain ⟨y, ey, ej⟩ := bind_eq_ok.1 ej
    simp only [pure_ok, Except.ok.injEq] at ej
    subst ej
    have jit : ∀ {b : Nat} {x : Flo}, 2 ≤ b → b ≤ 8 → halton b 0 = .ok x → ∃ w, (frac (x + lit 0)).Is w ∧ |w| ≤ 2 := by
      intro b x h1 h2 ex
      have hn := (halton_first b h1 h2 ex).add (1 / 2 ^ 30) 1 (Ball.flo_zero.near (b := 0) (by norm_num))
      obtain ⟨z, hz, ez⟩ := hn.1
      refine frac_is hz ?_
      have := hn.2
      rw [abs_le] at *
      norm_num at ez this ⊢
      constructor <;> linarith
    have wpos : 1 ≤ w := by omega
    have hpos : 1 ≤ h := by omega
    obtain ⟨ps, hps, bps⟩ : ∃ x, (pixelSize (w : Int) (h : Int) : Flo).Is x ∧ |x| ≤ 2 := by
      have one : ∀ n : Nat, 1 ≤ n → n ≤ 2 ^ 20 → ∃ x, ((lit 1 : Flo) / ofInt (n : Int)).Is x ∧ |x| ≤ 2 := by
        intro n h1 h2
        have hR : (n : ℝ) ≤ 2 ^ 20 := by exact_mod_cast h2
        have hR1 : (1 : ℝ) ≤ n := by exact_mod_cast h1
        have hb : |(1 : ℝ) / n| ≤ 1 := by
          rw [abs_of_nonneg (by positivity), div_le_one (by linarith)]; exact hR1
        have hI := Flo.div_is flo_lit_one (int_is n h2) (by linarith) (hb.trans (by norm_num))
        refine ⟨_, hI, ?_⟩
        have := err_le (E := 1 / 2) (roundBits_err 53 (by norm_num) (1 / (n : ℝ))) hb (by norm_num)
        rw [abs_le] at *
        constructor <;> linarith
      unfold pixelSize
      dsimp only
      split
      · exact one w wpos hw
      · exact one h hpos hh
    have fin : ∀ {a j : Flo} {x y : ℝ}, a.Is x → |x| ≤ 2000 → j.Is y → |y| ≤ 2 → ∃ z, (a + pixelSize (w : Int) (h : Int) * (j - lit (1 / 2))).Is z ∧ |z| ≤ 2 ^ 11 := by
      intro a j x y ha bx hj by'
      have n := (ha.near bx).add 1 2005 ((hps.near bps).mul (1 / 2 ^ 10) 5 ((hj.near by').sub (1 / 2 ^ 20) 2.5 (half_is.near (b := 1 / 2) (by norm_num [abs_of_pos]))))
      obtain ⟨z, hz, ez⟩ := n.1
      refine ⟨z, hz, ?_⟩
      have := n.2
      rw [abs_le] at *
      norm_num
      constructor <;> linarith
    obtain ⟨j1, hj1, bj1⟩ := jit (b := 2) (by norm_num) (by norm_num) ex
    obtain ⟨j2, hj2, bj2⟩ := jit (b := 3) (by norm_num) (by norm_num) ey
    obtain ⟨a, ha, ba⟩ := fin hU bU hj1 bj1
    obtain ⟨b, hb, bb⟩ := fin hV bV hj2 bj2
    exact ⟨a, b, ha, hb, ba, bb⟩
  · obtain ⟨rfl, rfl⟩ := hj
    exact ⟨U, V, hU, hV, bU.trans (by norm_num), bV.trans (by norm_num)⟩

end BR.Turn
