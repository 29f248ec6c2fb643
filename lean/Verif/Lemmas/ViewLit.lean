import Verif.Lemmas.ViewPass
import Verif.Props.C101_LitBox

/-! The thing that is seen along a ray, and its colour, in double precision. -/

namespace BR
set_option linter.unusedSectionVars false

open Flo

variable {S : Type} {r : Ray Flo} {v d : Vec ℝ} {mt : Option (Mat Flo)} {o : Obj Flo (Mat Flo)} {b : Obstacle}

theorem GoesBy.mono {T Y : ℝ} (h : GoesBy o r Y) (hT : T ≤ Y) : GoesBy o r T := by
  obtain ⟨f, e, hk⟩ := h
  refine ⟨f, e, fun hpos => ?_⟩
  obtain ⟨k, hk, hlt⟩ := hk hpos
  exact ⟨k, hk, lt_of_le_of_lt (by exact_mod_cast hT) hlt⟩

/-- The objects of lamps without size are never seen. -/
theorem seen_split (s : Scene Flo) (lamps : List Fitting) (hlights : s.lights = lamps.map Fitting.light) (fld : Field) :
    ∃ rest, s.seen fld = s.objects ++ rest ∧ ∀ o ∈ rest, ∀ (r : Ray Flo) (T : ℝ), GoesBy o r T := by
  have no : ∀ m : Option (Mat Flo), ((⟨lit 0, Vec.zero, Vec.zero, m⟩ : HitRecord Flo (Mat Flo)).t >. lit 0) = false := by
    intro m
    change ((lit 0 : Flo) <. lit 0) = false
    rw [lt_is Ball.flo_zero Ball.flo_zero]
    simp
  cases fld with
  | direct =>
    refine ⟨_, rfl, fun o ho r T => ?_⟩
    rw [hlights, List.map_map] at ho
    obtain ⟨x, -, rfl⟩ := List.mem_map.1 ho
    exact ⟨HitRecord.miss, rfl, fun h => by rw [show (HitRecord.miss.t >. lit 0) = false from no none] at h; cases h⟩
  | indirect =>
    refine ⟨_, rfl, fun o ho r T => ?_⟩
    rw [hlights, List.map_map] at ho
    obtain ⟨x, -, rfl⟩ := List.mem_map.1 ho
    refine ⟨⟨lit 0, Vec.zero, Vec.zero, _⟩, rfl, fun h => by rw [no] at h; cases h⟩

namespace Glance

theorem reach (h : Glance r v d) {X : ℝ} (wQ : Within 63 (along v d X)) : X ≤ 4096 := by
  have far : ∀ {p x : ℝ}, |x + p| ≤ 63 → |x| ≤ 64 → p ^ 2 ≤ 1087 ^ 2 := by
    intro p x h1 h2
    rw [← sq_abs]
    refine pow_le_pow_left₀ (abs_nonneg _) ?_ 2
    rw [abs_le] at *
    constructor <;> linarith
  have h1 := far (p := X * d.x) wQ.1 h.near.1
  have h2 := far (p := X * d.y) wQ.2.1 h.near.2.1
  have h3 := far (p := X * d.z) wQ.2.2 h.near.2.2
  have h4 := mul_le_mul_of_nonneg_left h.long (sq_nonneg X)
  have h5 : X ^ 2 ≤ 4096 ^ 2 := by nlinarith
  exact abs_le_of_sq_le_sq' h5 (by norm_num) |>.2

/-- A thing that is clearly met is reported, at the right distance. -/
theorem met (h : Glance r v d) (hb : b.Built mt o) {X : ℝ} {N : Vec ℝ} (hm : b.MetAt v d X N) (wQ : Within 63 (along v d X)) :
    ∃ hit T, o.intersect r = .ok (hit, r) ∧ hit.mat = mt ∧ hit.t.Is T ∧ 0 < T ∧ |T - X| ≤ 1 / 2 ^ 23 := by
  cases hb with
  | @ball diam center c R hcen hd wc R0 R1 =>
    obtain ⟨hR, hstart, hin, X0, hX, hfirst, -⟩ := hm
    obtain ⟨hit, e, hmat, T, X', hT, T0, X'0, hTX, hX', hfirst'⟩ := C86_seen mt diam center r v d c R (h.look hcen hd wc R0 R1)
      (le_trans (by linarith) (le_abs_self _)) hin
    have hXX : X' = X := by
      rcases lt_trichotomy X' X with hlt | heq | hgt
      · exact absurd hX' (hfirst X' X'0 hlt)
      · exact heq
      · exact absurd hX (hfirst' X X0 hgt)
    subst hXX
    exact ⟨hit, T, e, hmat, hT, T0, hTX⟩
  | @block bb lo hi h1 h2 w1 w2 ho =>
    obtain ⟨X0, i, up, hon, rfl, hd⟩ := hm
    have hlk := h.look_box h1 h2 w1 w2 ho
    obtain ⟨hit, e⟩ := C91_answers mt bb _ v d lo hi hlk
    obtain ⟨T, hT, T0, eT⟩ := box_time mt hlk X0 hon (by
      refine le_of_eq_of_le ?_ hd
      fin_cases i <;> simp [sideNormal, sgnOf, Vec.get]) e
    obtain ⟨-, -, -, -, hmat⟩ := C91_on mt bb _ v d lo hi hlk _ _ e (by
      change (lit 0 <. hit.t) = true
      rw [lt_is Ball.flo_zero hT]
      exact decide_eq_true T0)
    exact ⟨hit, T, e, hmat, hT, T0, eT.trans (by norm_num)⟩
  | @floor K w dp c W D C o q ho =>
    obtain ⟨hoff, X0, hX, hin, hdiag, -⟩ := hm
    obtain ⟨hit, T, e, hmat, hT, eT⟩ := C100_seen_partial K mt q ho (h.look_floor hoff) hoff X0 hX hin hdiag
    have hX1 := h.reach wQ
    have eT' : |T - X| ≤ 1 / 2 ^ 23 := eT.trans (by norm_num; linarith)
    refine ⟨hit, T, e, hmat, hT, ?_, eT'⟩
    rw [abs_le] at eT
    norm_num at eT
    linarith
  | sky => exact hm.elim

/-- The colour of a matte thing that is clearly met. -/
theorem lit (h : Glance r v d) (rng : Rng Flo S) (s : Scene Flo) (lf : LF Flo S) (tex : Tex Flo) (hb : b.Built mt o)
    {before after : List (Obj Flo (Mat Flo))} (hobj : s.objects = before ++ o :: after) {X : ℝ} {N : Vec ℝ} (hm : b.MetAt v d X N)
    (wQ : Within 63 (along v d X)) (lamps : List Fitting) (hlights : s.lights = lamps.map Fitting.light) (hfew : lamps.length ≤ 2 ^ 20)
    (hclear : ∀ x ∈ lamps, b.Spares x.bulb.pos)
    {things : List (Option (Mat Flo) × Obstacle)} (hF : List.Forall₂ (fun o t => t.2.Built t.1 o) (before ++ after) things)
    (hl : ∀ x ∈ lamps, LampFor (along v d X) x.pos x.power x.bulb ∧ Decided things (along v d X) x.bulb x.part)
    {hit : HitRecord Flo (Mat Flo)} (hi : o.intersect r = .ok (hit, r)) {ctx ctx' : Ctx Flo S} {col : Color Flo}
    (he : shadeMatte rng s lf tex r ⟨hit.t, hit.normal.normalized, hit.loc⟩ ctx = .ok (col, ctx')) :
    ∃ (ray : Ray Flo) (ctx1 ctx2 : Ctx Flo S) (around refl : Color Flo), lf .indirect ray ctx1 = .ok (around, ctx2) ∧
      ctx1.depth = ctx.depth ∧ tex hit.loc = .ok refl ∧ RightColor lamps (along v d X) N refl around col := by
  obtain ⟨hit', T, hi', hmat, hT, T0, eT⟩ := h.met hb hm wQ
  rw [hi] at hi'
  cases hi'
  cases hb with
  | @ball diam center c R hcen hd wc R0 R1 =>
    obtain ⟨hR, hstart, hin, X0, hX, hfirst, rfl⟩ := hm
    exact C101_ball rng s lf tex mt diam center before after hobj (h.look hcen hd wc R0 R1) hR hstart hin X0 rfl hX hfirst wQ lamps hlights
      hfew hclear hF hl hi he
  | @block bb lo hi' h1 h2 w1 w2 ho =>
    obtain ⟨X0, i, up, hon, rfl, hd⟩ := hm
    exact C101_box rng s lf tex mt bb before after hobj (h.look_box h1 h2 w1 w2 ho) X0 rfl hon hd wQ lamps hlights hfew hF hl hi he
  | @floor K w dp c W D C o q ho =>
    obtain ⟨hoff, X0, hX, hin, hdiag, rfl⟩ := hm
    have hX1 := h.reach wQ
    refine C101_floor K rng s lf tex mt q ho before after hobj (h.look_floor hoff) X0 rfl hX wQ lamps hlights hfew hclear hF hl hi ?_ ?_ he
    · change (BR.GoFloat.lit 0 <. hit.t) = true
      rw [lt_is Ball.flo_zero hT]
      exact decide_eq_true T0
    · obtain ⟨x, hx, hx1, -⟩ := flo_far
      rw [lt_is hT hx]
      refine decide_eq_true (lt_of_lt_of_le ?_ hx1)
      have h1 := (abs_le.1 eT).2
      have h2 : (8192 : ℝ) ≤ 2 ^ 200 := by norm_num
      norm_num at h1
      linarith
  | sky => exact hm.elim

end Glance

end BR
