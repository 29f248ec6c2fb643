import Verif.Props.C100_Floor
import Verif.Lemmas.Crack

/-! C100: a floor has cracks, in double precision. -/

namespace BR
set_option linter.unusedSectionVars false

open Flo

variable {M : Type}

/-- The full statement, that a floor is seen wherever the line meets it well inside its edges, is not so: **the two triangles
of a floor leave cracks between them**. Someone at height 1 above the floor of 8 by 8, looking straight down, next to the
middle of the floor and at least 3 from all its edges, gets the distance `9e99` as the answer. (It carries the material of
the floor.) -/
theorem C100_crack_violated (S : Sorter (Obj Flo M)) (m : Option M) :
    ∃ (o : Obj Flo M) (r : Ray Flo) (s d : Vec ℝ) (h : HitRecord Flo M),
      rectangle S m (lit 8) (lit 8) ⟨lit 0, lit 0, lit 0⟩ = .ok o ∧
      r = ⟨⟨lit (5 / 2 ^ 53), lit 1, lit (-5 / 2 ^ 53)⟩, ⟨lit 0, lit (-1), lit 0⟩⟩ ∧ LookingFrom r s d 0 ∧
      along s d 1 = ⟨5 / 2 ^ 53, 0, -5 / 2 ^ 53⟩ ∧ OverFloor 8 8 ⟨0, 0, 0⟩ (-3) (along s d 1) ∧
      o.intersect r = .ok (h, r) ∧ h.t = lit (9 * 10 ^ 99) ∧ h.mat = m := by
  obtain ⟨bb, O, A, B, E, x0, x1, x2, z0, z1, fp, e, pO, pA, pB, pE⟩ := floor_shape_at S m eight_floor.width eight_floor.depth
    eight_floor.center eight_floor.w_ge eight_floor.d_ge eight_floor.x_le eight_floor.y_le eight_floor.z_le eight_floor.exact
  have i8 : (lit 8 : Flo).Is 8 := eight_floor.width
  have i0 : (lit 0 : Flo).Is 0 := Ball.flo_zero
  have i1 : (lit 1 : Flo).Is 1 := flo_lit_one
  have i2 : (lit 2 : Flo).Is 2 := by simpa using flo_int_is 2 (by norm_num)
  have im : (lit (-1) : Flo).Is (-1) := by simpa using flo_int_is (-1) (by norm_num)
  have ix : (lit (5 / 2 ^ 53) : Flo).Is (5 / 2 ^ 53) := by
    have := lit_is (5 / 2 ^ 53) 5 (-53) (by norm_num) (by norm_num) (by norm_num) (by norm_num)
    push_cast at this
    exact this
  have iz : (lit (-5 / 2 ^ 53) : Flo).Is (-5 / 2 ^ 53) := by
    have := lit_is (-5 / 2 ^ 53) (-5) (-53) (by norm_num) (by norm_num) (by norm_num) (by norm_num)
    push_cast at this
    exact this
  have ex : ∀ (k : ℤ), |k| < 2 ^ 53 → roundBits 53 (k : ℝ) = k := by
    intro k hk
    have := roundBits_exact 53 k 0 hk (by norm_num)
    simpa using this
  have e4 : roundBits 53 4 = 4 := by simpa using ex 4 (by norm_num)
  have e4' : roundBits 53 (-4) = -4 := by simpa using ex (-4) (by norm_num)
  have e8 : roundBits 53 8 = 8 := by simpa using ex 8 (by norm_num)
  have e8' : roundBits 53 (-8) = -8 := by simpa using ex (-8) (by norm_num)
  -- the corners
  have half : (lit 8 / lit 2 + lit 0 : Flo).Is 4 := by
    have q := div_is i8 i2 (by norm_num) (by norm_num)
    rw [show (8 : ℝ) / 2 = 4 by norm_num, e4] at q
    have q := add_is q i0 (by norm_num)
    rwa [add_zero, e4] at q
  have half' : (-lit 8 / lit 2 + lit 0 : Flo).Is (-4) := by
    have q := div_is (neg_is i8) i2 (by norm_num) (by norm_num)
    rw [show (-8 : ℝ) / 2 = -4 by norm_num, e4'] at q
    have q := add_is q i0 (by norm_num)
    rwa [add_zero, e4'] at q
  have zero : (lit 0 + lit 0 : Flo).Is 0 := Is.zero_add i0 i0
  have hO : O.pos.FIs ⟨-4, 0, -4⟩ := by rw [pO]; exact ⟨half', zero, half'⟩
  have hA : A.pos.FIs ⟨-4, 0, 4⟩ := by rw [pA]; exact ⟨half', zero, half⟩
  have hB : B.pos.FIs ⟨4, 0, -4⟩ := by rw [pB]; exact ⟨half, zero, half'⟩
  have sb : ∀ {a b : Flo} {x y z : ℝ}, a.Is x → b.Is y → x - y = z → |z| ≤ 100 → roundBits 53 z = z → (a - b).Is z := by
    intro a b x y z ha hb h1 h2 h3
    have q := sub_is ha hb (by rw [h1]; exact h2.trans (by norm_num))
    rwa [h1, h3] at q
  have hE : E.pos.FIs ⟨4, 0, 4⟩ := by
    rw [pE]
    refine ⟨?_, Is.zero_add hA.2.1 (Is.zero_sub hB.2.1 hO.2.1), ?_⟩
    · have q := add_is hA.1 (sb hB.1 hO.1 (z := 8) (by norm_num) (by norm_num) e8) (by norm_num)
      dsimp only at q
      rwa [show (-4 : ℝ) + 8 = 4 by norm_num, e4] at q
    · have q := add_is hA.2.2 (hB.2.2.sub_self hO.2.2) (by norm_num)
      dsimp only at q
      rwa [add_zero, e4] at q
  obtain ⟨r, hr⟩ : ∃ r : Ray Flo, r = ⟨⟨lit (5 / 2 ^ 53), lit 1, lit (-5 / 2 ^ 53)⟩, ⟨lit 0, lit (-1), lit 0⟩⟩ := ⟨_, rfl⟩
  have hs : r.start.FIs ⟨5 / 2 ^ 53, 1, -5 / 2 ^ 53⟩ := by rw [hr]; exact ⟨ix, i1, iz⟩
  have hd : r.dir.FIs ⟨0, -1, 0⟩ := by rw [hr]; exact ⟨i0, im, i0⟩
  have r1 : roundBits 53 1 = 1 := by simpa using ex 1 (by norm_num)
  have exd : ∀ (x : ℝ) (k e : ℤ), x = k * 2 ^ e → |k| < 2 ^ 53 → -149 ≤ e → roundBits 53 x = x := by
    intro x k e h1 h2 h3
    rw [h1]; exact roundBits_exact 53 k e h2 h3
  have isOf : ∀ {a : Flo} {x y : ℝ}, a.Is x → x = y → a.Is y := fun h e => e ▸ h
  -- the first triangle
  have miss1 : (Face.hit O A B r : HitRecord Flo M) = HitRecord.miss := by
    refine beyond_edge (X := 4 + 1 / 2 ^ 50) (Z := 4 - 1 / 2 ^ 51) (α := 8) (Q := -4) (v := -(1 / 2 ^ 47)) ?_ hd ?_ ?_ (.inl rfl)
      ?_ ?_ (by norm_num [abs_le]) (by norm_num [abs_le]) ?_ (by norm_num [abs_le]) ?_ ?_ ?_ (by norm_num) (by norm_num)
    · refine ⟨?_, sb hs.2.1 hO.2.1 (by norm_num) (by norm_num) r1, ?_⟩
      · have q := sub_is hs.1 hO.1 (by norm_num [abs_le])
        dsimp only at q
        rw [roundBits_near 53 (by norm_num) _ (2 ^ 52 + 1) (-50) (by norm_num) (by rw [le_abs]; left; norm_num) (by norm_num [abs_lt])
          (by norm_num [abs_lt])] at q
        exact isOf q (by norm_num)
      · have q := sub_is hs.2.2 hO.2.2 (by norm_num [abs_le])
        dsimp only at q
        rw [roundBits_near 53 (by norm_num) _ (2 ^ 53 - 1) (-51) (by norm_num) (by rw [le_abs]; left; norm_num) (by norm_num [abs_lt])
          (by norm_num [abs_lt])] at q
        exact isOf q (by norm_num)
    · exact ⟨hA.1.sub_self hO.1, hA.2.1.sub_self hO.2.1, sb hA.2.2 hO.2.2 (by norm_num) (by norm_num) e8⟩
    · exact ⟨sb hB.1 hO.1 (by norm_num) (by norm_num) e8, hB.2.1.sub_self hO.2.1, hB.2.2.sub_self hO.2.2⟩
    · exact exd _ (2 ^ 52 + 1) (-50) (by norm_num) (by norm_num) (by norm_num)
    · exact exd _ (2 ^ 53 - 1) (-51) (by norm_num) (by norm_num) (by norm_num)
    · rw [roundBits_tie 53 (by norm_num) _ (-2 ^ 52) (-50) (by norm_num) (by rw [le_abs]; right; norm_num) (by norm_num [abs_lt])
        (by norm_num) (by decide)]
      norm_num
    · exact exd _ (-(2 ^ 52 + 1)) (-47) (by norm_num) (by norm_num) (by norm_num)
    · exact exd _ (-32) 0 (by norm_num) (by norm_num) (by norm_num)
    · rw [show -8 * (4 + 1 / 2 ^ 50) - 8 * -4 = -(1 / 2 ^ 47 : ℝ) by norm_num]
      exact exd _ (-1) (-47) (by norm_num) (by norm_num) (by norm_num)
  have miss2 : (Face.hit E B A r : HitRecord Flo M) = HitRecord.miss := by
    refine beyond_edge (X := -4 + 1 / 2 ^ 51) (Z := -4 - 1 / 2 ^ 50) (α := -8) (Q := 4 - 1 / 2 ^ 50) (v := -(1 / 2 ^ 48)) ?_ hd ?_ ?_ (.inr rfl)
      ?_ ?_ (by norm_num [abs_le]) (by norm_num [abs_le]) ?_ (by norm_num [abs_le]) ?_ ?_ ?_ (by norm_num) (by norm_num)
    · refine ⟨?_, sb hs.2.1 hE.2.1 (by norm_num) (by norm_num) r1, ?_⟩
      · have q := sub_is hs.1 hE.1 (by norm_num [abs_le])
        dsimp only at q
        rw [roundBits_near 53 (by norm_num) _ (-(2 ^ 53 - 1)) (-51) (by norm_num) (by rw [le_abs]; right; norm_num) (by norm_num [abs_lt])
          (by norm_num [abs_lt])] at q
        exact isOf q (by norm_num)
      · have q := sub_is hs.2.2 hE.2.2 (by norm_num [abs_le])
        dsimp only at q
        rw [roundBits_near 53 (by norm_num) _ (-(2 ^ 52 + 1)) (-50) (by norm_num) (by rw [le_abs]; right; norm_num) (by norm_num [abs_lt])
          (by norm_num [abs_lt])] at q
        exact isOf q (by norm_num)
    · exact ⟨hB.1.sub_self hE.1, hB.2.1.sub_self hE.2.1, sb hB.2.2 hE.2.2 (by norm_num) (by norm_num) e8'⟩
    · exact ⟨sb hA.1 hE.1 (by norm_num) (by norm_num) e8', hA.2.1.sub_self hE.2.1, hA.2.2.sub_self hE.2.2⟩
    · exact exd _ (-(2 ^ 53 - 1)) (-51) (by norm_num) (by norm_num) (by norm_num)
    · exact exd _ (-(2 ^ 52 + 1)) (-50) (by norm_num) (by norm_num) (by norm_num)
    · rw [show -4 - 1 / 2 ^ 50 - -8 = (4 - 1 / 2 ^ 50 : ℝ) by norm_num]
      exact exd _ (2 ^ 52 - 1) (-50) (by norm_num) (by norm_num) (by norm_num)
    · exact exd _ (-(2 ^ 53 - 1)) (-48) (by norm_num) (by norm_num) (by norm_num)
    · exact exd _ (-(2 ^ 52 - 1)) (-47) (by norm_num) (by norm_num) (by norm_num)
    · rw [show - -8 * (-4 + 1 / 2 ^ 51) - -8 * (4 - 1 / 2 ^ 50) = -(1 / 2 ^ 48 : ℝ) by norm_num]
      exact exd _ (-1) (-48) (by norm_num) (by norm_num) (by norm_num)
  -- the box
  have box : (bb.toF.intersect r <=. lit 0) = false := by
    obtain ⟨bx0, bx1, bx2, bz0, bz1, -⟩ := fp.corners.bounds
    have bxm : |max x1 x2| ≤ 1001 := by
      rcases max_choice x1 x2 with h | h <;> rw [h] <;> assumption
    have exm : |max x1 x2 - (0 + 8 / 2)| ≤ 1 / 2 ^ 40 := by
      rcases max_choice x1 x2 with h | h <;> rw [h]
      · exact fp.corners.right
      · exact fp.corners.right'
    obtain ⟨fy, -⟩ := toF32_is fp.lo.2.1 (by norm_num)
    obtain ⟨fy', -⟩ := toF32_is fp.hi.2.1 (by norm_num)
    obtain ⟨fx, ex⟩ := toF32_is fp.lo.1 (bx0.trans (by norm_num))
    obtain ⟨fz, ez⟩ := toF32_is fp.lo.2.2 (bz0.trans (by norm_num))
    obtain ⟨fx', ex'⟩ := toF32_is fp.hi.1 (bxm.trans (by norm_num))
    obtain ⟨fz', ez'⟩ := toF32_is fp.hi.2.2 (bz1.trans (by norm_num))
    have el := fp.corners.left
    have ef := fp.corners.front
    have eb := fp.corners.back
    dsimp only at fy fy' fx fz fx' fz' ex ez ex' ez' el ef eb
    rw [roundBits_zero] at fy fy'
    have lo : bb.toF.min.FIs ⟨roundBits 24 x0, 0, roundBits 24 z0⟩ := ⟨fx, fy, fz⟩
    have hi : bb.toF.max.FIs ⟨roundBits 24 (max x1 x2), 0, roundBits 24 z1⟩ := ⟨fx', fy', fz'⟩
    generalize roundBits 24 x0 = X0 at *
    generalize roundBits 24 z0 = Z0 at *
    generalize roundBits 24 (max x1 x2) = X1 at *
    generalize roundBits 24 z1 = Z1 at *
    generalize max x1 x2 = xm at *
    have near : ∀ {a b c : ℝ}, |b - c| ≤ 1 / 2 ^ 40 → |b| ≤ 1001 → |a - b| ≤ |b| / 2 ^ 24 + 1 / 2 ^ 100 → |a - c| ≤ 1 := by
      intro a b c h1 h2 h3
      rw [show a - c = (a - b) + (b - c) by ring]
      refine (abs_add_le _ _).trans ?_
      norm_num at *; linarith
    have nX0 := abs_le.1 (near el bx0 ex)
    have nX1 := abs_le.1 (near exm bxm ex')
    have nZ0 := abs_le.1 (near ef bz0 ez)
    have nZ1 := abs_le.1 (near eb bz1 ez')
    refine flat_box lo hi hs hd ?_ ?_ ?_ ?_ (by norm_num [abs_le]) (by norm_num [abs_le]) (by norm_num) (by norm_num) (by norm_num)
      (by norm_num) (by norm_num) (by norm_num) (by norm_num) (by norm_num) ?_
    · rw [abs_le]; norm_num at *; constructor <;> linarith
    · rw [abs_le]; norm_num at *; constructor <;> linarith
    · rw [abs_le]; norm_num at *; constructor <;> linarith
    · rw [abs_le]; norm_num at *; constructor <;> linarith
    · intro T _
      norm_num at *
      refine ⟨?_, ?_, ?_, ?_⟩ <;> linarith
  refine ⟨_, r, ⟨5 / 2 ^ 53, 1, -5 / 2 ^ 53⟩, ⟨0, -1, 0⟩, { (noHit : HitRecord Flo M) with mat := m }, e, hr, ⟨hs, hd, ?_, ?_, ?_, ?_⟩, ?_, ?_, ?_, rfl, rfl⟩
  · norm_num [Within, abs_le]
  · norm_num
  · norm_num
  · norm_num
  · norm_num [along]
  · norm_num [along, OverFloor, abs_le]
  · have zz : ((HitRecord.miss : HitRecord Flo M).t >. lit 0) = false := by
      change ((lit 0 : Flo) <. lit 0) = false
      rw [lt_is i0 i0]; simp
    simp only [Obj.intersect, Node.intersect, Obj.scan, ok_bind, pure_ok, Node.bb, box, Bool.false_eq_true, if_false, miss1, miss2, zz,
      Bool.false_and]

end BR
