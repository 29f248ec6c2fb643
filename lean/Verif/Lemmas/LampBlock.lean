import Verif.Lemmas.LampWay
import Verif.Props.C91_BoxHit
import Verif.Props.C100_Floor
import Mathlib.Topology.Order.IntermediateValue

/-! Balls, boxes and floors on the way to a lamp, in double precision. -/

namespace BR
set_option linter.unusedSectionVars false

open Flo

variable {p : Vec Flo} {P Q L v : Vec ℝ} {pos : Vec Flo} {g : ℝ} {mt : Option (Mat Flo)} {o : Obj Flo (Mat Flo)} {b : Obstacle}

/-- The object lets the ray pass as far as `len`. -/
def LetsPass (o : Obj Flo (Mat Flo)) (r : Ray Flo) (len : Flo) : Prop :=
  ∃ f, o.intersect r = .ok (f, r) ∧ (f.t >. lit 0 && f.t <. len) = false

/-- The object stops the ray before `len`, with material `m`. -/
def Halts (m : Option (Mat Flo)) (o : Obj Flo (Mat Flo)) (r : Ray Flo) (len : Flo) : Prop :=
  ∃ f, o.intersect r = .ok (f, r) ∧ (f.t >. lit 0 && f.t <. len) = true ∧ f.mat = m

theorem gt_of_and {t len : Flo} {g : ℝ} (hlen : len.Is g) (h : (t >. lit 0 && t <. len) = true) {T : ℝ} (hT : t.Is T) : 0 < T ∧ T < g := by
  rw [Bool.and_eq_true] at h
  have h1 : ((lit 0 : Flo) <. t) = true := h.1
  rw [Flo.lt_is Ball.flo_zero hT, decide_eq_true_eq] at h1
  have h2 := h.2
  rw [Flo.lt_is hT hlen, decide_eq_true_eq] at h2
  exact ⟨h1, h2⟩

theorem and_of_lt {t len : Flo} {g T : ℝ} (hlen : len.Is g) (hT : t.Is T) (h0 : 0 < T) (h1 : T < g) : (t >. lit 0 && t <. len) = true := by
  rw [Bool.and_eq_true]
  refine ⟨?_, ?_⟩
  · change ((lit 0 : Flo) <. t) = true
    rw [Flo.lt_is Ball.flo_zero hT, decide_eq_true_eq]; exact h0
  · rw [Flo.lt_is hT hlen, decide_eq_true_eq]; exact h1

theorem off_square {x R : ℝ} (hx : 0 ≤ x) (hR : 0 ≤ R) (h : 1 / 2048 ≤ |x - R|) : 1 / 2 ^ 28 < |x ^ 2 - R ^ 2| := by
  have e : x ^ 2 - R ^ 2 = (x - R) * (x + R) := by ring
  have h2 : |x - R| ≤ x + R := by rw [abs_le]; constructor <;> linarith
  rw [e, abs_mul, abs_of_nonneg (by linarith : 0 ≤ x + R)]
  have := mul_le_mul h (h.trans h2) (by norm_num) (abs_nonneg _)
  norm_num at *
  linarith

/-- The distance of the sky. -/
theorem flo_sky : ∃ x : ℝ, (lit (10 ^ 99) : Flo).Is x ∧ 2 ^ 200 ≤ x ∧ x ≤ 2 ^ 200 * 2 ^ 130 := by
  have e : |((10 ^ 99 : ℚ) : ℝ)| = 10 ^ 99 := by push_cast; exact abs_of_pos (by norm_num)
  have h : (lit (10 ^ 99) : Flo).Is (roundBits 53 ((10 ^ 99 : ℚ) : ℝ)) := by
    change (rnd (lit _)).Is _
    rw [Ext.lit_ext]
    refine rnd_ample _ ?_
    rw [e]; unfold ample; norm_num
  refine ⟨_, h, ?_⟩
  have he := roundBits_err 53 (by norm_num) ((10 ^ 99 : ℚ) : ℝ)
  rw [e] at he
  push_cast at he
  rw [abs_le] at he
  push_cast
  generalize roundBits 53 (10 ^ 99 : ℝ) = y at *
  norm_num at *
  constructor <;> linarith

namespace Way

theorem look (h : Way p pos P Q L v g) {diam : Flo} {center : Vec Flo} {c : Vec ℝ} {R : ℝ} (hc : center.FIs c) (hd : diam.Is (2 * R))
    (wc : Within 64 c) (R0 : 0 ≤ R) (R1 : R ≤ 64) : Looking ⟨p, (pos.sub p).normalized⟩ diam center P v c R := by
  have hu := abs_le.1 h.unit
  exact ⟨h.start, h.dir, hc, hd, h.near, wc, R0, R1, by norm_num at *; linarith, by norm_num at *; linarith⟩

theorem look_box (h : Way p pos P Q L v g) {b : BBox Flo} {lo hi : Vec ℝ} (h1 : b.min.FIs lo) (h2 : b.max.FIs hi) (w1 : Within 1024 lo)
    (w2 : Within 1024 hi) (ho : lo.x ≤ hi.x ∧ lo.y ≤ hi.y ∧ lo.z ≤ hi.z) : LookingAtBox ⟨p, (pos.sub p).normalized⟩ b P v lo hi := by
  have hu := abs_le.1 h.unit
  exact ⟨h.start, h.dir, h1, h2, ⟨h.near.1.trans (by norm_num), h.near.2.1.trans (by norm_num), h.near.2.2.trans (by norm_num)⟩, w1, w2, ho,
    by norm_num at *; linarith, by norm_num at *; linarith⟩

theorem look_floor (h : Way p pos P Q L v g) {y : ℝ} (hy : 1 / 1024 ≤ |Q.y - y|) : LookingFrom ⟨p, (pos.sub p).normalized⟩ P v y := by
  have hu := abs_le.1 h.unit
  refine ⟨h.start, h.dir, ⟨h.near.1.trans (by norm_num), h.near.2.1.trans (by norm_num), h.near.2.2.trans (by norm_num)⟩, ?_,
    by norm_num at *; linarith, by norm_num at *; linarith⟩
  have h1 := (apart_comp P Q).2.1.trans h.close
  have h2 := abs_sub_le Q.y P.y y
  rw [abs_sub_comm] at h1
  norm_num at *
  linarith

/-- Things that are clear of the way do not hide the lamp. -/
theorem passes (h : Way p pos P Q L v g) (hb : b.Built mt o) (hc : b.Clears Q L) :
    LetsPass o ⟨p, (pos.sub p).normalized⟩ (pos.sub p).len := by
  cases hb with
  | @ball diam center c R hcen hd wc R0 R1 =>
    have hlk := h.look hcen hd wc R0 R1
    refine ⟨(Obj.sphereQ mt diam center).hit ⟨p, (pos.sub p).normalized⟩, rfl, ?_⟩
    by_contra hn
    rw [Bool.not_eq_false] at hn
    obtain ⟨T, hT, T0, hx, -⟩ := C86_on mt diam center _ P v c R hlk _ _ rfl (Bool.and_eq_true _ _ ▸ hn).1
    obtain ⟨-, hTg⟩ := gt_of_and h.len hn hT
    obtain ⟨f, f0, f1, hf⟩ := h.on_way T0 hTg
    have ha := hf.apart_le (by positivity)
    have ht := Bounce.apart_tri (along P v T) (onWay Q L f) c
    have hcl := hc f f0 f1
    refine absurd (off_square (apart_nonneg' _ _) R0 ?_) (not_lt.2 hx)
    have h3 := abs_sub_le (apart (onWay Q L f) c) (apart (along P v T) c) R
    rw [abs_sub_comm (apart (onWay Q L f) c) (apart (along P v T) c)] at h3
    norm_num at *
    linarith
  | @block bb lo hi h1 h2 w1 w2 ho =>
    have hlk := h.look_box h1 h2 w1 w2 ho
    obtain ⟨hit, e⟩ := C91_answers mt bb _ P v lo hi hlk
    refine ⟨hit, e, ?_⟩
    by_contra hn
    rw [Bool.not_eq_false] at hn
    obtain ⟨T, hT, T0, hon, -⟩ := C91_on mt bb _ P v lo hi hlk _ _ e (Bool.and_eq_true _ _ ▸ hn).1
    obtain ⟨-, hTg⟩ := gt_of_and h.len hn hT
    obtain ⟨f, f0, f1, ⟨b1, b2, b3⟩⟩ := h.on_way T0 hTg
    refine hc f f0 f1 ?_
    have w : ∀ {a c k : ℝ}, |a - k| ≤ 1 / 2 ^ 38 → |a - c| ≤ 1 / 2 ^ 18 → |c - k| ≤ 1 / 1024 := by
      intro a c k h1 h2
      rw [abs_le] at *
      norm_num at *
      constructor <;> linarith
    obtain ⟨⟨⟨i1, i2⟩, ⟨i3, i4⟩, i5, i6⟩, hor⟩ := hon
    refine ⟨⟨⟨?_, ?_⟩, ⟨?_, ?_⟩, ?_, ?_⟩, ?_⟩
    iterate 6 (rw [abs_le] at *; norm_num at *; linarith)
    · rcases hor with q | q | q | q | q | q
      · exact .inl (w q b1)
      · exact .inr (.inl (w q b1))
      · exact .inr (.inr (.inl (w q b2)))
      · exact .inr (.inr (.inr (.inl (w q b2))))
      · exact .inr (.inr (.inr (.inr (.inl (w q b3)))))
      · exact .inr (.inr (.inr (.inr (.inr (w q b3)))))
  | @floor K w dp c W D C o q ho =>
    obtain ⟨hQ, hc⟩ := hc
    have hlk := h.look_floor hQ
    obtain ⟨bb, O, A, B, E, x0, x1, x2, z0, z1, fp, e⟩ := floor_shape K mt q.width q.depth q.center q.w_ge q.d_ge q.x_le q.y_le q.z_le q.exact
    have e' := e
    rw [ho, Except.ok.injEq] at e'
    obtain ⟨hit, hi⟩ : ∃ hit, o.intersect ⟨p, (pos.sub p).normalized⟩ = .ok (hit, ⟨p, (pos.sub p).normalized⟩) := by
      rw [e']
      simp only [Obj.intersect, Node.intersect, Obj.scan, ok_bind, pure_ok]
      split
      · exact ⟨_, rfl⟩
      · exact ⟨_, rfl⟩
    refine ⟨hit, hi, ?_⟩
    by_contra hn
    rw [Bool.not_eq_false] at hn
    have hpos := (Bool.and_eq_true _ _ ▸ hn).1
    have hlt := (Bool.and_eq_true _ _ ▸ hn).2
    have hnear : (hit.t <. lit (9 * 10 ^ 99)) = true := by
      obtain ⟨x, hx, hx1, -⟩ := flo_far
      obtain ⟨a, b, ha, hb, hab⟩ := (CmpModel.lt_iff _ _).1 hlt
      refine (CmpModel.lt_iff _ _).2 ⟨a, _, ha, hx.key, hab.trans ?_⟩
      rw [h.len.key, Option.some.injEq] at hb
      rw [← hb]
      have hfar := h.far_le
      have hr := (abs_le.1 h.reach).2
      have : g < x := by
        have : (4000 : ℝ) < 2 ^ 200 := by norm_num
        norm_num at *
        linarith
      exact_mod_cast this
    obtain ⟨-, -, T, -, -, -, hT, T0, -, hy, hover, -⟩ := C100_on K mt q ho hlk hi hpos hnear
    obtain ⟨-, hTg⟩ := gt_of_and h.len hn hT
    obtain ⟨f, f0, f1, ⟨b1, b2, b3⟩⟩ := h.on_way T0 hTg
    refine hc f f0 f1 ?_
    obtain ⟨o1, o2⟩ := hover
    refine ⟨?_, ?_, ?_⟩
    · rw [abs_le] at *
      norm_num at *
      constructor <;> linarith
    · have := abs_sub_le (onWay Q L f).x (along P v T).x C.x
      rw [abs_sub_comm] at b1
      norm_num at *
      linarith
    · have := abs_sub_le (onWay Q L f).z (along P v T).z C.z
      rw [abs_sub_comm] at b3
      norm_num at *
      linarith
  | sky =>
    refine ⟨_, rfl, ?_⟩
    obtain ⟨x, hx, hx1, -⟩ := flo_sky
    rw [Bool.and_eq_false_iff]
    right
    change (lit (10 ^ 99) <. _) = false
    rw [Flo.lt_is hx h.len]
    refine decide_eq_false (not_lt.2 ?_)
    have hfar := h.far_le
    have hr := (abs_le.1 h.reach).2
    have : (4000 : ℝ) < 2 ^ 200 := by norm_num
    norm_num at *
    linarith

/-- Balls that are in the way hide the lamp. -/
theorem ball_stops (h : Way p pos P Q L v g) {diam : Flo} {center : Vec Flo} {c : Vec ℝ} {R : ℝ} (hcen : center.FIs c) (hd : diam.Is (2 * R))
    (wc : Within 64 c) (R0 : 0 ≤ R) (R1 : R ≤ 64) (hc : (Obstacle.ball c R).Blocks Q L) :
    Halts mt (Obj.sphere mt diam center) ⟨p, (pos.sub p).normalized⟩ (pos.sub p).len := by
  have hlk := h.look hcen hd wc R0 R1
  obtain ⟨hout, f, f0, f1, hin⟩ := hc
  obtain ⟨T0, T00, T0g, hbes⟩ := h.on_ray f0 f1
  have hQc : apart P c ≤ 230 := by
    have sq' : ∀ {x y : ℝ}, |x| ≤ 64 → |y| ≤ 64 → (x - y) ^ 2 ≤ 128 ^ 2 := by
      intro x y h1 h2
      rw [abs_le] at *
      exact sq_le_sq' (by linarith) (by linarith)
    refine Real.sqrt_le_iff.2 ⟨by norm_num, ?_⟩
    have a1 := sq' h.near.1 wc.1
    have a2 := sq' h.near.2.1 wc.2.1
    have a3 := sq' h.near.2.2 wc.2.2
    norm_num at *
    linarith
  have hPo : R ^ 2 + 1 / 2 ^ 7 ≤ apart P c ^ 2 := by
    have ht := (abs_le.1 ((Bounce.apart_tri P Q c).trans h.close))
    have hq : apart Q c ^ 2 ≤ (apart P c + 1 / 2 ^ 19) ^ 2 := pow_le_pow_left₀ (apart_nonneg' _ _) (by linarith) 2
    norm_num at *
    nlinarith [apart_nonneg' P c]
  have hTi : apart (along P v T0) c ^ 2 ≤ R ^ 2 - 1 / 2 ^ 7 := by
    have ht := (abs_le.1 ((Bounce.apart_tri (along P v T0) (onWay Q L f) c).trans (hbes.apart_le (by positivity))))
    have hq : apart (along P v T0) c ^ 2 ≤ (apart (onWay Q L f) c + 2 * (1 / 2 ^ 18)) ^ 2 := pow_le_pow_left₀ (apart_nonneg' _ _) (by linarith) 2
    have hw : apart (onWay Q L f) c ≤ 64 := (pow_le_pow_iff_left₀ (apart_nonneg' _ _) (by norm_num) two_ne_zero).1 (by
      have := pow_le_pow_left₀ R0 R1 2
      norm_num at *
      linarith)
    norm_num at *
    nlinarith [apart_nonneg' (onWay Q L f) c]
  have e0 : along P v 0 = P := by simp [along]
  have T0p : 0 < T0 := by
    rcases T00.eq_or_lt with e | e
    · rw [← e, e0] at hTi
      norm_num at *
      linarith
    · exact e
  obtain ⟨hit, hi, hm, T, X, hT, Tp, Xp, hTX, hX, hfirst⟩ := C86_seen mt diam center _ P v c R hlk (by
    rw [abs_of_nonneg (by norm_num at *; linarith)]; norm_num at *; linarith) ⟨T0, T0p, by norm_num at *; linarith⟩
  have hvu := abs_le.1 h.unit
  -- how fast the distance changes
  have lip : ∀ a b : ℝ, apart (along P v a) (along P v b) ≤ 2 * |a - b| := by
    intro a b
    refine Real.sqrt_le_iff.2 ⟨by positivity, ?_⟩
    have e : ((along P v a).x - (along P v b).x) ^ 2 + ((along P v a).y - (along P v b).y) ^ 2 + ((along P v a).z - (along P v b).z) ^ 2 =
      (a - b) ^ 2 * (v.x ^ 2 + v.y ^ 2 + v.z ^ 2) := by simp only [along]; ring
    rw [e, mul_pow, sq_abs]
    have := mul_le_mul_of_nonneg_left (show v.x ^ 2 + v.y ^ 2 + v.z ^ 2 ≤ 2 by norm_num at *; linarith) (sq_nonneg (a - b))
    nlinarith [sq_nonneg (a - b)]
  have hXT : X < T0 := by
    by_contra hn
    rw [not_lt] at hn
    have hcont : ContinuousOn (fun T => apart (along P v T) c) (Set.Icc 0 T0) := by
      unfold apart along
      fun_prop
    have hsub := intermediate_value_Icc' T0p.le hcont
    have hm : R ∈ Set.Icc (apart (along P v T0) c) (apart (along P v 0) c) := by
      constructor
      · exact (pow_le_pow_iff_left₀ (apart_nonneg' _ _) R0 two_ne_zero).1 (by norm_num at *; linarith)
      · rw [e0]
        exact (pow_le_pow_iff_left₀ R0 (apart_nonneg' _ _) two_ne_zero).1 (by norm_num at *; linarith)
    obtain ⟨T', ⟨t0, t1⟩, hT'⟩ := hsub hm
    dsimp only at hT'
    have t0' : 0 < T' := by
      rcases t0.eq_or_lt with e | e
      · rw [← e, e0] at hT'
        rw [hT'] at hPo
        norm_num at hPo
      · exact e
    have t1' : T' < T0 := by
      rcases t1.eq_or_lt with e | e
      · rw [e] at hT'
        rw [hT'] at hTi
        norm_num at hTi
      · exact e
    exact hfirst T' t0' (t1'.trans_le hn) hT'
  have hgap : 1 / 2 ^ 16 ≤ T0 - X := by
    have h1 := (abs_le.1 ((Bounce.apart_tri (along P v X) (along P v T0) c).trans (lip X T0))).2
    rw [hX, abs_sub_comm, abs_of_pos (by linarith)] at h1
    have h2 := apart_nonneg' (along P v T0) c
    have h3 : apart (along P v T0) c ≤ R := (pow_le_pow_iff_left₀ (apart_nonneg' _ _) R0 two_ne_zero).1 (by norm_num at *; linarith)
    generalize apart (along P v T0) c = a at *
    have h4 : (R - a) * (R + a) ≤ 2 * (T0 - X) * 128 := mul_le_mul h1 (by linarith) (by linarith) (by linarith)
    have h5 : 1 / 2 ^ 7 ≤ (R - a) * (R + a) := by
      rw [show (R - a) * (R + a) = R ^ 2 - a ^ 2 by ring]
      linarith
    norm_num at *
    linarith
  refine ⟨hit, hi, and_of_lt h.len hT Tp ?_, hm⟩
  rw [abs_le] at hTX
  norm_num at *
  linarith

/-- Boxes that are in the way hide the lamp. -/
theorem box_stops (h : Way p pos P Q L v g) {bb : BBox Flo} {lo hi : Vec ℝ} (h1 : bb.min.FIs lo) (h2 : bb.max.FIs hi) (w1 : Within 1024 lo)
    (w2 : Within 1024 hi) (ho : lo.x ≤ hi.x ∧ lo.y ≤ hi.y ∧ lo.z ≤ hi.z) (hc : (Obstacle.block lo hi).Blocks Q L) :
    Halts mt (Obj.box bb mt) ⟨p, (pos.sub p).normalized⟩ (pos.sub p).len := by
  have hlk := h.look_box h1 h2 w1 w2 ho
  obtain ⟨hout, f, f0, f1, hin⟩ := hc
  obtain ⟨T0, T00, T0g, ⟨b1, b2, b3⟩⟩ := h.on_ray f0 f1
  have hvu := abs_le.1 h.unit
  have hvb : |v.x| ≤ 2 ∧ |v.y| ≤ 2 ∧ |v.z| ≤ 2 := by
    have key : ∀ {a b c : ℝ}, a ^ 2 + b ^ 2 + c ^ 2 ≤ 4 → |a| ≤ 2 := by
      intro a b c hh
      exact abs_le_of_sq_le_sq (by nlinarith [sq_nonneg b, sq_nonneg c]) (by norm_num)
    refine ⟨key (b := v.y) (c := v.z) ?_, key (b := v.x) (c := v.z) ?_, key (b := v.x) (c := v.y) ?_⟩ <;> norm_num at * <;> linarith
  have inside : ∀ T, |T - T0| ≤ 1 / 2 ^ 20 → InBox lo hi (-(1 / 2 ^ 38)) (along P v T) := by
    intro T hT
    have key : ∀ {a w y l u : ℝ}, |w| ≤ 2 → |(a + T0 * w) - y| ≤ 1 / 2 ^ 18 → l + 1 / 1024 ≤ y → y ≤ u - 1 / 1024 →
        l + 1 / 2 ^ 38 ≤ a + T * w ∧ a + T * w ≤ u - 1 / 2 ^ 38 := by
      intro a w y l u hw hy hl hu
      have : |T * w - T0 * w| ≤ 1 / 2 ^ 19 := by
        rw [← sub_mul, abs_mul]
        exact (mul_le_mul hT hw (abs_nonneg _) (by norm_num)).trans (by norm_num)
      rw [abs_le] at *
      norm_num at *
      constructor <;> linarith
    unfold InBox at hin ⊢
    simp only [sub_neg_eq_add, ← sub_eq_add_neg] at hin ⊢
    exact ⟨key hvb.1 b1 hin.1.1 hin.1.2, key hvb.2.1 b2 hin.2.1.1 hin.2.1.2, key hvb.2.2 b3 hin.2.2.1 hin.2.2.2⟩
  have hPout : ¬InBox lo hi (1 / 2 ^ 38) P := by
    intro hi'
    refine hout ?_
    obtain ⟨c1, c2, c3⟩ := beside_of_apart h.close
    obtain ⟨⟨_, _⟩, ⟨_, _⟩, _, _⟩ := hi'
    rw [abs_le] at c1 c2 c3
    refine ⟨⟨?_, ?_⟩, ⟨?_, ?_⟩, ?_, ?_⟩ <;> norm_num at * <;> linarith
  have e0 : along P v 0 = P := by simp [along]
  have T1 : 0 < T0 - 1 / 2 ^ 20 := by
    by_contra hn
    rw [not_lt] at hn
    have := inside 0 (by rw [zero_sub, abs_neg, abs_of_nonneg T00]; linarith)
    rw [e0] at this
    refine hPout ?_
    obtain ⟨⟨_, _⟩, ⟨_, _⟩, _, _⟩ := this
    refine ⟨⟨?_, ?_⟩, ⟨?_, ?_⟩, ?_, ?_⟩ <;> norm_num at * <;> linarith
  have hins := inside (T0 - 1 / 2 ^ 20) (by rw [sub_sub_cancel_left, abs_neg, abs_of_pos (by positivity)])
  obtain ⟨hit, e, hm, T, hT, Tp, -, hbefore, -⟩ := C91_seen mt bb _ P v lo hi hlk (.inl hPout) ⟨_, T1, hins⟩
  refine ⟨hit, e, and_of_lt h.len hT Tp ?_, hm⟩
  have : T ≤ T0 - 1 / 2 ^ 20 := by
    by_contra hn
    rw [not_le] at hn
    exact hbefore hPout _ T1 hn hins
  norm_num at *
  linarith

private theorem crossing {a w T1 : ℝ} (ha : 1 / 2 ^ 11 ≤ a) (hb : a + T1 * w ≤ -(1 / 2 ^ 11)) (h0 : 0 ≤ T1) (hw : |w| ≤ 2) :
    w < 0 ∧ ∀ T, |a + T * w| ≤ 1 / 2 ^ 13 → 0 < T ∧ T ≤ T1 - 1 / 2 ^ 13 := by
  have w0 : w < 0 := by
    by_contra hn
    have := mul_nonneg h0 (not_lt.1 hn)
    norm_num at *
    linarith
  refine ⟨w0, fun T hT => ?_⟩
  rw [abs_le] at hT hw
  constructor
  · by_contra hn
    have := mul_nonneg_of_nonpos_of_nonpos (not_lt.1 hn) w0.le
    norm_num at *
    linarith
  · by_contra hn
    rw [not_le] at hn
    have h1 : (T1 - T) * -w ≤ 1 / 2 ^ 13 * 2 := by
      rcases le_total 0 (T1 - T) with h | h
      · exact mul_le_mul (by linarith) (by linarith) (by linarith) (by norm_num)
      · have := mul_nonneg_of_nonpos_of_nonpos h w0.le
        norm_num at *
        linarith
    norm_num at *
    linarith

/-- Floors that are in the way hide the lamp. -/
theorem floor_stops (h : Way p pos P Q L v g) (K : Sorter (Obj Flo (Mat Flo))) {w dp : Flo} {c : Vec Flo} {W D : ℝ} {C : Vec ℝ}
    (q : LevelRectangle w dp c W D C) (ho : rectangle K mt w dp c = .ok o) (hc : (Obstacle.floor W D C).Blocks Q L) :
    Halts mt o ⟨p, (pos.sub p).normalized⟩ (pos.sub p).len := by
  obtain ⟨hside, hin⟩ := hc
  obtain ⟨T1, T10, T1g, -, bL, -⟩ := h.on_ray (f := 1) (by norm_num) le_rfl
  have eL : (onWay Q L 1).y = L.y := by simp [onWay, along, Vec.sub]
  rw [eL] at bL
  have hcl := (apart_comp P Q).2.1.trans h.close
  have hQy : 1 / 1024 ≤ |Q.y - C.y| := by
    rcases hside with ⟨h1, -⟩ | ⟨h1, -⟩
    · exact h1.trans (le_abs_self _)
    · exact (show 1 / 1024 ≤ -(Q.y - C.y) by linarith).trans (neg_le_abs _)
  have hlk := h.look_floor hQy
  have hvb := (small_comp hlk.short).2.1
  have hrange : v.y ≠ 0 ∧ 0 < (C.y - P.y) / v.y ∧ ∀ T, |(along P v T).y - C.y| ≤ 1 / 2 ^ 13 → 0 < T ∧ T ≤ T1 - 1 / 2 ^ 13 := by
    have e : ∀ T, (along P v T).y = P.y + T * v.y := fun _ => rfl
    rw [e] at bL
    rw [abs_le] at bL hcl
    rcases hside with ⟨h1, h2⟩ | ⟨h1, h2⟩
    · obtain ⟨w0, hk⟩ := crossing (a := P.y - C.y) (w := v.y) (T1 := T1) (by norm_num at *; linarith) (by norm_num at *; linarith) T10 hvb
      refine ⟨w0.ne, div_pos_of_neg_of_neg (by norm_num at *; linarith) w0, fun T hT => hk T ?_⟩
      rwa [e, show P.y + T * v.y - C.y = P.y - C.y + T * v.y by ring] at hT
    · obtain ⟨w0, hk⟩ := crossing (a := -(P.y - C.y)) (w := -v.y) (T1 := T1) (by norm_num at *; linarith) (by norm_num at *; linarith) T10
        (by rw [abs_neg]; exact hvb)
      refine ⟨by linarith, div_pos (by norm_num at *; linarith) (by linarith), fun T hT => hk T ?_⟩
      rwa [e, show P.y + T * v.y - C.y = -(-(P.y - C.y) + T * -v.y) by ring, abs_neg] at hT
  obtain ⟨v0, T0p, hk⟩ := hrange
  have hmeet : (along P v ((C.y - P.y) / v.y)).y = C.y := by
    simp only [along]
    field_simp
    ring
  have hway : ∀ T, |(along P v T).y - C.y| ≤ 1 / 2 ^ 13 → ∃ f, Beside (1 / 2 ^ 18) (along P v T) (onWay Q L f) ∧
      OverFloor W D C (-(1 / 1024)) (onWay Q L f) ∧ 1 / 1024 ≤ |((onWay Q L f).x - C.x) / W + ((onWay Q L f).z - C.z) / D| := by
    intro T hT
    obtain ⟨t0, t1⟩ := hk T hT
    obtain ⟨f, f0, f1, hb⟩ := h.on_way t0 (show T < g by norm_num at *; linarith)
    refine ⟨f, hb, hin f f0 f1 ?_⟩
    have := hb.2.1
    rw [abs_le] at *
    norm_num at *
    constructor <;> linarith
  have hP : 1 / 2 ^ 12 ≤ |P.y - C.y| := by
    have := abs_sub_le Q.y P.y C.y
    rw [abs_sub_comm Q.y P.y] at this
    norm_num at *
    linarith
  obtain ⟨hit, T, hi, hm, hT, eT⟩ := C100_seen_partial K mt q ho hlk hP T0p hmeet (by
    intro T hT
    obtain ⟨f, ⟨b1, -, b3⟩, ⟨o1, o2⟩, -⟩ := hway T hT
    have key : ∀ {a b c l : ℝ}, |a - b| ≤ 1 / 2 ^ 18 → |b - c| ≤ l / 2 + -(1 / 1024) → |a - c| ≤ l / 2 + -(1 / 2 ^ 12) := by
      intro a b c l h1 h2
      rw [abs_le] at *
      norm_num at *
      constructor <;> linarith
    exact ⟨key b1 o1, key b3 o2⟩) (by
    obtain ⟨f, ⟨b1, -, b3⟩, -, hd⟩ := hway _ (by rw [hmeet, sub_self, abs_zero]; positivity)
    have key : ∀ {a b c l : ℝ}, 2 ≤ l → |a - b| ≤ 1 / 2 ^ 18 → |(a - c) / l - (b - c) / l| ≤ 1 / 2 ^ 18 := by
      intro a b c l hl h1
      rw [← sub_div, sub_sub_sub_cancel_right, abs_div, abs_of_pos (show 0 < l by linarith), div_le_iff₀ (by linarith)]
      norm_num at *
      linarith
    have k1 := key (c := C.x) q.w_ge b1
    have k2 := key (c := C.z) q.d_ge b3
    generalize ((along P v ((C.y - P.y) / v.y)).x - C.x) / W = a1 at *
    generalize ((along P v ((C.y - P.y) / v.y)).z - C.z) / D = a2 at *
    generalize ((onWay Q L f).x - C.x) / W = a3 at *
    generalize ((onWay Q L f).z - C.z) / D = a4 at *
    have := abs_add_le (a1 + a2) (-(a1 - a3) + -(a2 - a4))
    have h2 := abs_add_le (-(a1 - a3)) (-(a2 - a4))
    rw [abs_neg, abs_neg] at h2
    rw [show a1 + a2 + (-(a1 - a3) + -(a2 - a4)) = a3 + a4 by ring] at this
    norm_num at *
    linarith)
  obtain ⟨-, t1⟩ := hk _ (by rw [hmeet, sub_self, abs_zero]; positivity)
  have hg := h.far_le
  have hr := abs_le.1 h.reach
  generalize (C.y - P.y) / v.y = T0 at *
  rw [abs_le] at eT
  refine ⟨hit, hi, and_of_lt h.len hT ?_ ?_, hm⟩
  · norm_num at *
    linarith
  · norm_num at *
    linarith

/-- Things that are in the way hide the lamp. -/
theorem stops (h : Way p pos P Q L v g) (hb : b.Built mt o) (hc : b.Blocks Q L) :
    Halts mt o ⟨p, (pos.sub p).normalized⟩ (pos.sub p).len := by
  cases hb with
  | ball hcen hd wc R0 R1 => exact h.ball_stops hcen hd wc R0 R1 hc
  | block h1 h2 w1 w2 ho => exact h.box_stops h1 h2 w1 w2 ho hc
  | @floor K w dp c W D C o q ho => exact h.floor_stops K q ho hc
  | sky => exact hc.elim

end Way

end BR
