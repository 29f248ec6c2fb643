import Verif.Lemmas.RoomLight
import Verif.Lemmas.ScreenErr

/-! C92: rooms of balls and boxes can be shown in double precision. -/

namespace BR
open Bounce

variable {S : Type}

/-- **C92.** Computing with rounded double precision numbers, light can be followed from every ray into a room, whatever it
meets and however often it is thrown back, refracted or scattered: without a panic, for any random source. The context
is handed back as it was. -/
theorem C92_light (s : Scene Flo) (hs : Room s) (rng : Rng Flo S) (f : Field) (r : Ray Flo) (hr : IntoRoom r)
    (c : Ctx Flo S) (h0 : c.depth = 0) (hc : c.Ready) :
    ∃ col c', s.lightField rng s.recursionDepth.toNat f r c = .ok (col, c') ∧ c'.depth = 0 ∧ c'.Ready ∧ c'.frame = c.frame := by
  obtain ⟨p, d, hp, hd, wp, hu⟩ := hr
  have sane : Sane ((0 : Int) : ℝ) r := ⟨p, hp, wp, .inr ⟨d, hd, by
    rw [show ip d d = d.x ^ 2 + d.y ^ 2 + d.z ^ 2 by unfold ip; ring]
    push_cast
    rw [zero_add]
    exact hu⟩⟩
  obtain ⟨col, c', e, hd', hr, h1, h2, h3, h4⟩ := room_does (rng := rng) (fr := c.frame) hs s.recursionDepth.toNat 0 le_rfl
    (by rw [zero_add]; exact Int.toNat_of_nonneg hs.depth_nonneg) f r sane c ⟨h0, hc, rfl, rfl, rfl, rfl⟩
  refine ⟨col, c', e, hd', hr, ?_⟩
  unfold Ctx.frame at *
  rw [h1, h2, h3, h4, hd', h0]

/-- **C92.** The rays of a camera without a lens that stands in the room go into the room: for every place on an image of up
to a million by a million pixels that is at most 1024 times as high as wide, with or without anti-aliasing, whichever way the
camera has been turned (up to three times) and moved (up to a hundred times). -/
theorem C92_camera (turns moves : Nat) (cam : Cam Flo) (ha : Aimed turns moves cam) (ht : turns ≤ 3) (hm : moves ≤ 100)
    (p : Vec ℝ) (hp : cam.pos.FIs p) (wp : Within 60 p) (w h : Nat) (hw : w ≤ 2 ^ 20) (hh : h ≤ 2 ^ 20) (hr : h ≤ 1024 * w)
    (aa : Bool) (shifts : List (Flo × Flo)) (rng : Rng Flo S) (c : Ctx Flo S) (u v : Flo) (hs : OnScreen w h aa shifts u v) :
    IntoRoom (cam.rayFrom rng c u v).1 := by
  obtain ⟨U, V, hU, hV, bU, bV⟩ := Turn.onScreen_is hw hh hr hs
  exact Turn.aimed_into ha ht hm hp wp rng c hU hV bU bV

/-- **C92.** Computing with rounded double precision numbers, a picture of a room of balls and boxes is taken without a
crash: with any such camera in the room, any such image, any number of passes and workers, any shifts of the sample
sequences and random numbers, however the workers are scheduled. -/
theorem C92_picture (s : Scene Flo) (hs : Room s) (turns moves : Nat) (cam : Cam Flo) (ha : Aimed turns moves cam) (ht : turns ≤ 3)
    (hm : moves ≤ 100) (p : Vec ℝ) (hp : cam.pos.FIs p) (wp : Within 60 p) (w h : Nat) (hw : w ≤ 2 ^ 20) (hh : h ≤ 2 ^ 20)
    (hr : h ≤ 1024 * w) (aa : Bool) (rng : Rng Flo S) (shifts : List (Flo × Flo)) (hshift : w * h ≤ shifts.length) (W : Nat)
    (seeds : Fin W → S) (nPass : Nat) (m0 : Pixel → Cell Flo) (t : SamplerState Flo (Ctx Flo S) W) (k : Nat)
    (hrun : Runs (ctxShader (s.imageFunc rng cam)) w h aa nPass
      (samplerInit w h (fun i => Ctx.new shifts (seeds i)) m0) k t) : t.crashed = false :=
  picture_safe s rng IntoRoom (fun f r c hr => C92_light s hs rng f r hr c) cam w h (hw.trans (by norm_num)) (hh.trans (by norm_num)) aa
    shifts (fun c u v => C92_camera turns moves cam ha ht hm p hp wp w h hw hh hr aa shifts rng c u v) hshift W seeds nPass m0 t k hrun

/-! ## Example -/

/-- A room: a matte floor, a mirroring block and a glass ball on it, under a sky, with a lamp. -/
noncomputable def roomScene : Scene Flo :=
  ⟨[.point ⟨lit 0, lit 5, lit 0⟩ ⟨lit 100, lit 100, lit 100⟩],
   [.box ⟨⟨lit (-8), lit (-1), lit (-8)⟩, ⟨lit 8, lit 0, lit 8⟩⟩ (some (.matte (Color.tex ⟨lit 1, lit 1, lit 1⟩))),
    .box ⟨⟨lit 1, lit 0, lit 1⟩, ⟨lit 2, lit 1, lit 2⟩⟩ (some (.reflectFresnel (lit 2) (.matte (Color.tex ⟨lit 1, lit 0, lit 0⟩)))),
    .sphere (some (.refractive (lit 1) (lit 2))) (lit 2) ⟨lit (-1), lit 1, lit 0⟩,
    .backdrop (some (.flat (Color.tex ⟨lit 0, lit 0, lit 1⟩)))],
   [.expFog (lit 1) ⟨lit 1, lit 1, lit 1⟩ (lit 3)], 6⟩

theorem int_lit (n : ℤ) (h : |n| < 2 ^ 53 := by norm_num) : (lit (n : ℚ) : Flo).Is n := flo_int_is n h

theorem roomScene_room : Room roomScene := by
  have i0 : (lit 0 : Flo).Is 0 := Ball.flo_zero
  have i1 : (lit 1 : Flo).Is 1 := flo_lit_one
  have i2 : (lit 2 : Flo).Is 2 := by exact_mod_cast int_lit 2
  have i5 : (lit 5 : Flo).Is 5 := by exact_mod_cast int_lit 5
  have i8 : (lit 8 : Flo).Is 8 := by exact_mod_cast int_lit 8
  have m1 : (lit (-1) : Flo).Is (-1) := by exact_mod_cast int_lit (-1)
  have m8 : (lit (-8) : Flo).Is (-8) := by exact_mod_cast int_lit (-8)
  have lampAt : LampAt (.point ⟨lit 0, lit 5, lit 0⟩ ⟨lit 100, lit 100, lit 100⟩) ⟨0, 5, 0⟩ :=
    ⟨_, _, rfl, ⟨i0, i5, i0⟩, by norm_num [Within]⟩
  have lamp : ∀ L, (∃ l ∈ roomScene.lights, LampAt l L) → L = ⟨0, 5, 0⟩ := by
    rintro L ⟨l, hl, pos, power, e, h, -⟩
    obtain rfl : l = .point ⟨lit 0, lit 5, lit 0⟩ ⟨lit 100, lit 100, lit 100⟩ := by simpa [roomScene] using hl
    cases e
    exact fis_inj h ⟨i0, i5, i0⟩
  refine ⟨?_, ?_, ?_, by change (0 : Int) ≤ 6; decide, by change (6 : Int) ≤ 2 ^ 20; decide⟩
  · simp only [roomScene, List.forall_mem_cons, List.not_mem_nil, false_implies, implies_true, and_true]
    exact ⟨_, lampAt⟩
  · change ∀ o ∈ [_, _, _, _], _
    simp only [List.forall_mem_cons, List.not_mem_nil, false_implies, implies_true, and_true]
    refine ⟨?_, ?_, ?_, ?_⟩
    · refine .box _ _ ⟨-8, -1, -8⟩ ⟨8, 0, 8⟩ ⟨m8, m1, m8⟩ ⟨i8, i0, i8⟩ (by norm_num [Within]) (by norm_num [Within]) (by norm_num)
        (fun p => ⟨_, rfl⟩) trivial fun L hL => ?_
      rw [lamp L hL]
      rintro ⟨⟨-, ⟨-, h⟩, -⟩, -⟩
      norm_num at h
    · refine .box _ _ ⟨1, 0, 1⟩ ⟨2, 1, 2⟩ ⟨i1, i0, i1⟩ ⟨i2, i1, i2⟩ (by norm_num [Within]) (by norm_num [Within]) (by norm_num)
        (fun p => ⟨_, rfl⟩) trivial fun L hL => ?_
      rw [lamp L hL]
      rintro ⟨⟨-, ⟨-, h⟩, -⟩, -⟩
      norm_num at h
    · refine .ball _ _ _ ⟨-1, 1, 0⟩ 1 ⟨m1, i1, i0⟩ (by norm_num; exact i2) (by norm_num) (by norm_num) (by norm_num) (by norm_num)
        trivial ⟨1, 2, i1, i2, by norm_num, by norm_num, by norm_num, by norm_num⟩ fun L hL => ?_
      rw [lamp L hL]
      have h : (2 : ℝ) ≤ apart ⟨0, 5, 0⟩ ⟨-1, 1, 0⟩ := by
        unfold apart
        exact Real.le_sqrt_of_sq_le (by norm_num)
      rw [abs_of_nonneg (by linarith)]
      linarith
    · exact .plain _ (by rw [Obj.Sturdy]; trivial) (by rw [Obj.Wears]; exact ⟨_, rfl, fun p => ⟨_, rfl⟩, trivial⟩)
  · simp only [roomScene, List.forall_mem_cons, List.not_mem_nil, false_implies, implies_true, and_true]
    exact ⟨_, _, _, rfl⟩

/-- `C92_picture` applies to this room, seen by a camera with a field of view of one radian that has been moved to `(0, 2, 7)`
and then turned to the side. -/
example {S : Type} (cam : Cam Flo) (e : Cam.projective (lit 1 : Flo) = .ok cam) (rng : Rng Flo S)
    (shifts : List (Flo × Flo)) (hshift : 1920 * 1080 ≤ shifts.length) (seeds : Fin 8 → S) (m0 : Pixel → Cell Flo) (t) (k : Nat)
    (hrun : Runs (ctxShader (roomScene.imageFunc rng ((cam.translate ⟨lit 0, lit 2, lit 7⟩).yawPitchRoll (lit 1) (lit 0) (lit 0)))) 1920 1080 true 100
      (samplerInit 1920 1080 (fun i => Ctx.new shifts (seeds i)) m0) k t) : t.crashed = false := by
  have i0 : (lit 0 : Flo).Is 0 := Ball.flo_zero
  have i1 : (lit 1 : Flo).Is 1 := flo_lit_one
  have i2 : (lit 2 : Flo).Is 2 := by exact_mod_cast int_lit 2
  have i7 : (lit 7 : Flo).Is 7 := by exact_mod_cast int_lit 7
  have add : ∀ {a b : Flo} {x y : ℤ}, a.Is x → b.Is y → |x + y| < 2 ^ 20 → (a + b).Is ((x + y : ℤ) : ℝ) := by
    intro a b x y ha hb hxy
    have h1 : |((x + y : ℤ) : ℝ)| ≤ 2 ^ 200 := by
      have : |((x + y : ℤ) : ℝ)| < 2 ^ 20 := by exact_mod_cast hxy
      exact this.le.trans (by norm_num)
    have := Flo.add_is ha hb (by rw [← Int.cast_add]; exact h1)
    rwa [← Int.cast_add, show roundBits 53 (((x + y : ℤ)) : ℝ) = ((x + y : ℤ) : ℝ) by
      have := roundBits_exact 53 (x + y) 0 (hxy.trans (by norm_num)) (by norm_num)
      simpa using this] at this
  have pos : cam.pos = ⟨lit 0, lit 0, lit 0⟩ := by
    unfold Cam.projective Cam.projectiveAperture at e
    obtain ⟨f, -, e⟩ := bind_eq_ok.1 e
    simp only [pure_ok, Except.ok.injEq] at e
    subst e
    rfl
  have ha : Aimed 1 1 ((cam.translate ⟨lit 0, lit 2, lit 7⟩).yawPitchRoll (lit 1) (lit 0) (lit 0)) :=
    .turned 0 1 _ (.moved 0 0 _ (.projective (lit 1) 1 cam i1 (by norm_num) (by norm_num) e) _) _ _ _ 1 0 0 i1 i0 i0
  refine C92_picture roomScene roomScene_room 1 1 _ ha (by norm_num) (by norm_num) ⟨0, 2, 7⟩ ?_ (by norm_num [Within]) 1920 1080 (by norm_num)
    (by norm_num) (by norm_num) true rng shifts hshift 8 seeds 100 m0 t k hrun
  change ((⟨lit 0, lit 0, lit 0⟩ : Vec Flo).add ((⟨lit 0, lit 2, lit 7⟩ : Vec Flo).add cam.pos)).FIs _
  rw [pos]
  have z : (lit 0 : Flo).Is ((0 : ℤ) : ℝ) := by exact_mod_cast i0
  have t2 : (lit 2 : Flo).Is ((2 : ℤ) : ℝ) := by exact_mod_cast i2
  have t7 : (lit 7 : Flo).Is ((7 : ℤ) : ℝ) := by exact_mod_cast i7
  refine ⟨?_, ?_, ?_⟩
  · exact (add z (add z z (by norm_num)) (by norm_num)).of_eq (by norm_num)
  · exact (add z (add t2 z (by norm_num)) (by norm_num)).of_eq (by norm_num)
  · exact (add z (add t7 z (by norm_num)) (by norm_num)).of_eq (by norm_num)

/-- The camera of the example exists. -/
example : ∃ cam, Cam.projective (lit 1 : Flo) = .ok cam := by
  have i0 : (lit 0 : Flo).Is 0 := Ball.flo_zero
  have i1 : (lit 1 : Flo).Is 1 := flo_lit_one
  obtain ⟨p, hp, he⟩ := Turn.pi_near.1
  have h3 : (1 : ℝ) < p := by
    rw [abs_le] at he
    have := Real.pi_gt_three
    norm_num at he
    linarith
  have hf : ∃ f, Cam.fovToFocalLen (lit 1 : Flo) = .ok f := by
    unfold Cam.fovToFocalLen
    rw [if_neg]
    · exact ⟨_, rfl⟩
    · rw [Bool.or_eq_true]
      rintro (h | h)
      · rw [Ball.le_flo i1 i0] at h
        norm_num at h
      · rw [Ball.le_flo hp i1, decide_eq_true_eq] at h
        linarith
  obtain ⟨f, hf⟩ := hf
  unfold Cam.projective Cam.projectiveAperture
  rw [hf]
  exact ⟨_, rfl⟩

/-- A ray into the room. -/
example : IntoRoom ⟨⟨lit 0, lit 1, lit 7⟩, ⟨lit 0, lit 0, lit (-1)⟩⟩ := by
  have i0 : (lit 0 : Flo).Is 0 := Ball.flo_zero
  have i1 : (lit 1 : Flo).Is 1 := flo_lit_one
  have i7 : (lit 7 : Flo).Is 7 := by exact_mod_cast int_lit 7
  have m1 : (lit (-1) : Flo).Is (-1) := by exact_mod_cast int_lit (-1)
  exact ⟨⟨0, 1, 7⟩, ⟨0, 0, -1⟩, ⟨i0, i1, i7⟩, ⟨i0, i0, m1⟩, by norm_num [Within], by norm_num⟩

end BR
