import Verif.Props.C100_Floor
import Verif.Lemmas.FloorShadow

/-! C100: floors that are lit, in double precision. -/

namespace BR
set_option linter.unusedSectionVars false

open Flo

variable {M S : Type}

/-- **A floor is not seen where it is not**, in double precision: a ray that does not come closer to the height of the floor
gets no hit short of the distance 9e99 that stands for nothing. -/
theorem C100_away (K : Sorter (Obj Flo M)) (m : Option M) {w dp : Flo} {c : Vec Flo} {W D : ℝ} {C : Vec ℝ}
    (q : LevelRectangle w dp c W D C) {o : Obj Flo M} (ho : rectangle K m w dp c = .ok o) {r : Ray Flo} {s d : Vec ℝ}
    (hl : LookingFrom r s d C.y) (haway : 0 ≤ (s.y - C.y) * d.y) :
    ∃ h, o.intersect r = .ok (h, r) ∧ (h.t >. lit 0 && h.t <. lit (9 * 10 ^ 99)) = false := by
  obtain ⟨bb, O, A, B, E, x0, x1, x2, z0, z1, fp, e⟩ := floor_shape K m q.width q.depth q.center q.w_ge q.d_ge q.x_le q.y_le q.z_le q.exact
  have e' := e
  rw [ho, Except.ok.injEq] at e'
  obtain ⟨h, hi⟩ : ∃ h, o.intersect r = .ok (h, r) := by
    rw [e']
    simp only [Obj.intersect, Node.intersect, Obj.scan, ok_bind, pure_ok]
    split
    · exact ⟨_, rfl⟩
    · exact ⟨_, rfl⟩
  refine ⟨h, hi, ?_⟩
  rw [Bool.eq_false_iff, ne_eq, Bool.and_eq_true]
  rintro ⟨hpos, hnear⟩
  obtain ⟨-, -, T, -, -, -, -, T0, hT, -⟩ := C100_on K m q ho hl hi hpos hnear
  have hn : (C.y - s.y) / d.y ≤ 0 := by
    rcases le_or_gt 0 d.y with hd | hd
    · rcases hd.eq_or_lt with hd | hd
      · rw [← hd, div_zero]
      · have : 0 ≤ s.y - C.y := nonneg_of_mul_nonneg_left haway hd
        exact div_nonpos_of_nonpos_of_nonneg (by linarith) hd.le
    · have : s.y - C.y ≤ 0 := by
        by_contra hc
        rw [not_le] at hc
        have := mul_neg_of_pos_of_neg hc hd
        linarith
      exact div_nonpos_of_nonneg_of_nonpos (by linarith) hd.le
  rw [abs_of_nonpos hn, abs_le] at hT
  norm_num at hT
  linarith

/-- From `(1, 2, 1)`, looking up, the floor of 8 by 8 around the origin is not seen. -/
example (K : Sorter (Obj Flo M)) (m : Option M) : ∃ (o : Obj Flo M) (h : HitRecord Flo M),
    rectangle K m (lit 8) (lit 8) ⟨lit 0, lit 0, lit 0⟩ = .ok o ∧
    o.intersect ⟨⟨lit 1, lit 2, lit 1⟩, ⟨lit 0, lit ((1 : ℤ) : ℚ), lit 0⟩⟩ =
      .ok (h, ⟨⟨lit 1, lit 2, lit 1⟩, ⟨lit 0, lit ((1 : ℤ) : ℚ), lit 0⟩⟩) ∧ (h.t >. lit 0 && h.t <. lit (9 * 10 ^ 99)) = false := by
  obtain ⟨o, ho⟩ := eight_floor_ok K m
  obtain ⟨h, hi, hn⟩ := C100_away K m eight_floor ho (over_eight 1 (.inl rfl)) (by norm_num)
  exact ⟨o, h, ho, hi, hn⟩

/-- The normal that a matte surface uses, which faces the viewer. -/
private theorem flipped {n : Vec Flo} {N : ℝ} (hn : n.FIs ⟨0, N, 0⟩) (hN : |N - 1| ≤ 1 / 2 ^ 25) (δ : Vec Flo) :
    ∃ y σ, (flipTowards n.normalized δ).FIs ⟨0, y, 0⟩ ∧ |y - σ| ≤ 1 / 2 ^ 47 ∧ |σ| = 1 := by
  rw [abs_le] at hN
  obtain ⟨ux, ⟨v, uy, ev⟩, uz⟩ := up_normalized hn.1 hn.2.1 hn.2.2 (by norm_num at *; linarith) (by norm_num at *; linarith)
  unfold flipTowards
  split
  · have m1 : (lit (-1) : Flo).Is (-1) := by simpa using flo_int_is (-1) (by norm_num)
    have mr := m1.rel (b := 1) (Q := 1) (by norm_num)
    have vb : |v| ≤ 2 := by rw [abs_le] at *; norm_num at *; constructor <;> linarith
    obtain ⟨⟨y, hy, ey⟩, -⟩ := (m1.near (b := 1) (by norm_num)).mul (1 / 2 ^ 51) 2 (uy.near vb)
    refine ⟨y, -1, ⟨Is.mul_zero mr ux, hy, Is.mul_zero mr uz⟩, ?_, by norm_num⟩
    rw [abs_le] at *
    norm_num at *
    constructor <;> linarith
  · exact ⟨v, 1, ⟨ux, uy, uz⟩, ev.trans (by norm_num), by norm_num⟩

/-- **A floor casts no shadow on itself**, in double precision and on either side: a matte point of a floor, lit by lamps that
are above or below its height, has the very colour it would have if the floor were left out of the shadow test, whatever the
other objects are. -/
theorem C100_shade (K : Sorter (Obj Flo (Mat Flo))) (rng : Rng Flo S) (s : Scene Flo) (lf : LF Flo S) (tex : Tex Flo) (m : Option (Mat Flo))
    {w dp : Flo} {c : Vec Flo} {W D : ℝ} {C : Vec ℝ} (q : LevelRectangle w dp c W D C) {o : Obj Flo (Mat Flo)}
    (ho : rectangle K m w dp c = .ok o) (before after : List (Obj Flo (Mat Flo))) (hobj : s.objects = before ++ o :: after)
    {r r' : Ray Flo} {v d : Vec ℝ} (hl : LookingFrom r v d C.y)
    (hlamp : ∀ l ∈ s.lights, ∀ target ctx pos col ctx', l.sample rng target ctx = .ok ((pos, col), ctx') → LampOffHeight C.y pos)
    {hit : HitRecord Flo (Mat Flo)} (hi : o.intersect r = .ok (hit, r')) (hpos : (hit.t >. lit 0) = true)
    (hnear : (hit.t <. lit (9 * 10 ^ 99)) = true) (ctx : Ctx Flo S) :
    shadeMatte rng s lf tex r ⟨hit.t, hit.normal.normalized, hit.loc⟩ ctx =
      shadeMatte rng ⟨s.lights, before ++ after, s.media, s.recursionDepth⟩ lf tex r
        ⟨hit.t, hit.normal.normalized, hit.loc⟩ ctx := by
  obtain ⟨-, -, T, N, -, -, hT, T0, -, hheight, hover, hN, eN, -⟩ := C100_on K m q ho hl hi hpos hnear
  have hdb := small_comp hl.short
  obtain ⟨y, σ, hn, hy, hσ⟩ := flipped hN eN r.dir
  obtain ⟨ox, oz⟩ := hover
  obtain ⟨n1, n2, n3⟩ := hl.near
  have xl := q.x_le
  have yl := q.y_le
  have zl := q.z_le
  have inx : |(along v d T).x| ≤ 1001 := by
    have := abs_sub_abs_le_abs_sub (along v d T).x C.x
    norm_num at *; linarith
  have inz : |(along v d T).z| ≤ 1001 := by
    have := abs_sub_abs_le_abs_sub (along v d T).z C.z
    norm_num at *; linarith
  have iny : |(along v d T).y| ≤ 1001 := by
    have := abs_sub_abs_le_abs_sub (along v d T).y C.y
    norm_num at *; linarith
  have T1 : T ≤ 8192 := by
    have far : ∀ {p x : ℝ}, |x + p| ≤ 1001 → |x| ≤ 1024 → p ^ 2 ≤ 2025 ^ 2 := by
      intro p x h1 h2
      rw [← sq_abs]
      refine pow_le_pow_left₀ (abs_nonneg _) ?_ 2
      rw [abs_le] at *
      constructor <;> linarith
    have h1 := far (p := T * d.x) inx n1
    have h2 := far (p := T * d.y) iny n2
    have h3 := far (p := T * d.z) inz n3
    have h4 := mul_le_mul_of_nonneg_left hl.long (sq_nonneg T)
    have h5 : T ^ 2 ≤ 8192 ^ 2 := by nlinarith
    exact abs_le_of_sq_le_sq' h5 (by norm_num) |>.2
  obtain ⟨P, hP, ex, ey, ez⟩ := step_off hl.start hl.dir hl.near hdb hT (by rw [abs_of_pos T0]; exact T1) hn hy hσ
  have σ1 : |σ / (1204 * 1024)| ≤ 1 / 2 ^ 20 := by rw [abs_div, hσ]; norm_num
  have hW : Within 1024 P := by
    refine ⟨?_, ?_, ?_⟩
    · have := abs_sub_abs_le_abs_sub P.x (along v d T).x
      norm_num at *; linarith
    · rw [abs_le] at *
      norm_num at *
      constructor <;> linarith
    · have := abs_sub_abs_le_abs_sub P.z (along v d T).z
      norm_num at *; linarith
  have hPy : |P.y - (C.y + σ / (1204 * 1024))| ≤ 1 / 2 ^ 31 := by
    rw [abs_le] at *
    norm_num at *
    constructor <;> linarith
  unfold shadeMatte
  dsimp only
  generalize flipTowards hit.normal.normalized r.dir = n at *
  have key := fun acc (ctx : Ctx Flo S) => directLoop_pass rng before after o ((r.at hit.t).madd tiny n) n (LampOffHeight C.y) (by
    rintro pos ⟨L, hL, hLw, hLo⟩ hcos
    obtain ⟨l, g, hlook, haway, hg, hgb⟩ := towards_lamp hP hL hW hLw hPy hLo hn hy hσ hcos
    obtain ⟨f, hf, hnot⟩ := C100_away K m q ho hlook haway.le
    refine ⟨f, hf, ?_⟩
    rw [Bool.eq_false_iff, ne_eq, Bool.and_eq_true] at hnot ⊢
    rintro ⟨f0, f1⟩
    refine hnot ⟨f0, ?_⟩
    obtain ⟨x, hx, hx1, -⟩ := flo_far
    obtain ⟨a, b, ha, hb, hab⟩ := (CmpModel.lt_iff _ _).1 f1
    refine (CmpModel.lt_iff _ _).2 ⟨a, _, ha, hx.key, hab.trans ?_⟩
    rw [hg.key, Option.some.injEq] at hb
    rw [← hb]
    have : (2 : ℝ) ^ 100 < 2 ^ 200 := by norm_num
    exact_mod_cast (show g < x by linarith)) s.lights hlamp acc ctx
  have e1 : s.occlude = fun r len orig => occludeLoop (before ++ o :: after) len orig r := by
    funext r len orig
    rw [Scene.occlude, hobj]
  have e2 : (⟨s.lights, before ++ after, s.media, s.recursionDepth⟩ : Scene Flo).occlude =
      fun r len orig => occludeLoop (before ++ after) len orig r := rfl
  rw [e1, e2, key]

/-- Such a scene: the floor of 8 by 8 around the origin, seen from `(1, 2, 1)`, with a lamp at `(0, 5, 0)`. -/
example (K : Sorter (Obj Flo (Mat Flo))) (rng : Rng Flo S) (power : Color Flo) (lf : LF Flo S) (tex : Tex Flo) (m : Option (Mat Flo)) :
    ∃ (o : Obj Flo (Mat Flo)) (hit : HitRecord Flo (Mat Flo)), rectangle K m (lit 8) (lit 8) ⟨lit 0, lit 0, lit 0⟩ = .ok o ∧
      o.intersect ⟨⟨lit 1, lit 2, lit 1⟩, ⟨lit 0, lit ((-1 : ℤ) : ℚ), lit 0⟩⟩ =
        .ok (hit, ⟨⟨lit 1, lit 2, lit 1⟩, ⟨lit 0, lit ((-1 : ℤ) : ℚ), lit 0⟩⟩) ∧ ∀ ctx,
      shadeMatte rng ⟨[Light.point ⟨lit 0, lit 5, lit 0⟩ power], [o], [], 3⟩ lf tex
        ⟨⟨lit 1, lit 2, lit 1⟩, ⟨lit 0, lit ((-1 : ℤ) : ℚ), lit 0⟩⟩ ⟨hit.t, hit.normal.normalized, hit.loc⟩ ctx =
      shadeMatte rng ⟨[Light.point ⟨lit 0, lit 5, lit 0⟩ power], [], [], 3⟩ lf tex
        ⟨⟨lit 1, lit 2, lit 1⟩, ⟨lit 0, lit ((-1 : ℤ) : ℚ), lit 0⟩⟩ ⟨hit.t, hit.normal.normalized, hit.loc⟩ ctx := by
  obtain ⟨o, ho⟩ := eight_floor_ok K m
  have hl := over_eight (-1) (.inr rfl)
  obtain ⟨h, T, hi, hm, hT, eT⟩ := C100_seen_partial K m eight_floor ho hl (by norm_num) (T0 := 2) (by norm_num) (by norm_num [along])
    (by intro T _; norm_num [along, OverFloor]) (by norm_num [along])
  have pos : (h.t >. lit 0) = true := by
    change (lit 0 <. h.t) = true
    rw [lt_is Ball.flo_zero hT]
    rw [abs_le] at eT
    exact decide_eq_true (by norm_num at *; linarith)
  have near : (h.t <. lit (9 * 10 ^ 99)) = true := by
    obtain ⟨x, hx, hx1, -⟩ := flo_far
    rw [lt_is hT hx]
    rw [abs_le] at eT
    exact decide_eq_true (by norm_num at *; linarith)
  refine ⟨o, h, ho, hi, fun ctx => C100_shade K rng ⟨_, [o], _, _⟩ lf tex m eight_floor ho [] [] rfl hl ?_ hi pos near ctx⟩
  intro l hl target ctx p col ctx' e
  obtain rfl := List.mem_singleton.1 hl
  cases e
  have i5 : (lit 5 : Flo).Is 5 := by simpa using flo_int_is 5 (by norm_num)
  exact ⟨⟨0, 5, 0⟩, ⟨Ball.flo_zero, i5, Ball.flo_zero⟩, by norm_num [Within], by norm_num⟩

end BR
