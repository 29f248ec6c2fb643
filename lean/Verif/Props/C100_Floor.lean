import Verif.Lemmas.FloorExample

/-! C100: floors are seen where they are, in double precision. -/

namespace BR
set_option linter.unusedSectionVars false

open Flo

variable {M : Type}

/-- **What a floor reports is there**, in double precision: a hit (short of the distance 9e99 that stands for nothing) is at
the height of the floor but for `2^-32`, on it or at most `2^-16` off its edges, carries the material of the floor and a normal
that points straight up with a length within `2^-25` of one, and texture coordinates that say where on the floor it is. -/
theorem C100_on (S : Sorter (Obj Flo M)) (m : Option M) {w dp : Flo} {c : Vec Flo} {W D : ℝ} {C : Vec ℝ}
    (q : LevelRectangle w dp c W D C) {o : Obj Flo M} (ho : rectangle S m w dp c = .ok o) {r r' : Ray Flo} {s d : Vec ℝ}
    (hl : LookingFrom r s d C.y) {h : HitRecord Flo M} (hi : o.intersect r = .ok (h, r')) (hpos : (h.t >. lit 0) = true)
    (hnear : (h.t <. lit (9 * 10 ^ 99)) = true) :
    r' = r ∧ h.mat = m ∧ ∃ T N U V, h.t.Is T ∧ 0 < T ∧ |T - (C.y - s.y) / d.y| ≤ 1 / 2 ^ 44 * |(C.y - s.y) / d.y| ∧
      |(along s d T).y - C.y| ≤ 1 / 2 ^ 32 ∧ OverFloor W D C (1 / 2 ^ 16) (along s d T) ∧
      h.normal.FIs ⟨0, N, 0⟩ ∧ |N - 1| ≤ 1 / 2 ^ 25 ∧ h.loc.FIs ⟨U, V, 0⟩ ∧
      |U - (floorPlace W D C (along s d T)).1| ≤ 1 / 2 ^ 24 ∧ |V - (floorPlace W D C (along s d T)).2| ≤ 1 / 2 ^ 24 := by
  obtain ⟨bb, O, A, B, E, x0, x1, x2, z0, z1, fp, e⟩ := floor_shape S m q.width q.depth q.center q.w_ge q.d_ge q.x_le q.y_le q.z_le q.exact
  rw [e, Except.ok.injEq] at ho
  subst ho
  obtain ⟨bx0, bx1, bx2, bz0, bz1, l1, l2, l3, hW, hD⟩ := fp.corners.bounds
  have height : ∀ {T : ℝ}, 1 / 2 ^ 120 ≤ |d.y| → |T - (C.y - s.y) / d.y| ≤ 1 / 2 ^ 44 * |(C.y - s.y) / d.y| → |(along s d T).y - C.y| ≤ 1 / 2 ^ 32 := by
    intro T h0 h1
    have d0 : d.y ≠ 0 := by rw [← abs_pos]; exact lt_of_lt_of_le (by positivity) h0
    have e : (along s d T).y - C.y = (T - (C.y - s.y) / d.y) * d.y := by rw [along]; field_simp; ring
    rw [e, abs_mul]
    refine (mul_le_mul_of_nonneg_right h1 (abs_nonneg _)).trans ?_
    rw [mul_assoc, ← abs_mul, div_mul_cancel₀ _ d0]
    have h2 := abs_sub C.y s.y
    have h3 := q.y_le
    have h4 := hl.near.2.1
    norm_num at *; linarith
  have zero : (lit 0 : Flo).Rel 0 (1 / 2 ^ 48) 1 1 := (Ball.flo_zero.rel_zero (Q := 1)).weaken zero_le_one
  have one : (lit 1 : Flo).Rel 1 (1 / 2 ^ 48) 1 1 := (flo_lit_one.rel (b := 1) (Q := 1) (by simp)).weaken zero_le_one
  obtain ⟨hr, hc⟩ := floor_answer _ _ _ _ _ _ _ _ _ _ _ hi
  rcases hc with rfl | rfl | ⟨hp, hn, rfl⟩ | ⟨hp, rfl⟩
  · have : ((lit 0 : Flo) <. lit 0) = true := hpos
    rw [lt_is Ball.flo_zero Ball.flo_zero] at this
    simp at this
  · obtain ⟨x, hx, -⟩ := flo_far
    have : ((lit (9 * 10 ^ 99) : Flo) <. lit (9 * 10 ^ 99)) = true := hnear
    rw [lt_is hx hx] at this
    simp at this
  · have ff := fp.corners.face1 fp.o fp.a fp.b
    have sg : FlatFace.Sighted r s d ⟨x0, C.y, z0⟩ := LookingFrom.sighted (O := ⟨x0, C.y, z0⟩) hl bx0 q.y_le bz0
    obtain ⟨T, X, Z, et, hT, T0, T1, dy0, hTe, hX, hZ, X0, Z0, XZ⟩ := ff.hit_sound sg hp hn
    dsimp only at hTe hX hZ
    have X1 : X ≤ 1 + 1 / 2 ^ 27 := by norm_num at *; linarith
    have Z1 : Z ≤ 1 + 1 / 2 ^ 27 := by norm_num at *; linarith
    have X0' : -(1 / 2 ^ 27) ≤ X := by norm_num at *; linarith
    have Z0' : -(1 / 2 ^ 27) ≤ Z := by norm_num at *; linarith
    have hσ : 1 + |X| + |Z| ≤ 4 := by
      have : |X| ≤ 3 / 2 := by rw [abs_le]; norm_num at *; constructor <;> linarith
      have : |Z| ≤ 3 / 2 := by rw [abs_le]; norm_num at *; constructor <;> linarith
      linarith
    obtain ⟨px, ex⟩ := between_sides fp.corners.left fp.corners.right q.w_ge hW hX X0' X1
    obtain ⟨pz, ez⟩ := between_sides fp.corners.front fp.corners.back q.d_ge hD hZ Z0' Z1
    obtain ⟨n, l, N, U, V, er, hN, eN, hUV, eU, eV⟩ := ff.hit_record (M := M) sg hp fp.no fp.na fp.nb (a0 := 0) (a1 := 1) (a2 := 0)
      (b0 := 0) (b1 := 0) (b2 := 1) (by rw [fp.uo.1]; exact zero) (by rw [fp.ua.1]; exact one) (by rw [fp.ub.1]; exact zero)
      (by rw [fp.uo.2]; exact zero) (by rw [fp.ua.2]; exact zero) (by rw [fp.ub.2]; exact one) hT T0 T1 hX hZ hσ
    rw [er]
    refine ⟨hr, rfl, T, N, U, V, hT, T0, hTe, height dy0 hTe, ⟨px, pz⟩, hN, eN, hUV, ?_, ?_⟩
    · have := abs_add_le (U - (0 * (1 - X - Z) + 1 * Z + 0 * X)) (Z - (s.z + T * d.z - (C.z - D / 2)) / D)
      rw [show U - (0 * (1 - X - Z) + 1 * Z + 0 * X) + (Z - (s.z + T * d.z - (C.z - D / 2)) / D) =
        U - (s.z + T * d.z - (C.z - D / 2)) / D by ring] at this
      unfold floorPlace along
      norm_num at *; linarith
    · have := abs_add_le (V - (0 * (1 - X - Z) + 0 * Z + 1 * X)) (X - (s.x + T * d.x - (C.x - W / 2)) / W)
      rw [show V - (0 * (1 - X - Z) + 0 * Z + 1 * X) + (X - (s.x + T * d.x - (C.x - W / 2)) / W) =
        V - (s.x + T * d.x - (C.x - W / 2)) / W by ring] at this
      unfold floorPlace along
      norm_num at *; linarith
  · have ff := fp.corners.face2 fp.e fp.b fp.a
    have sg : FlatFace.Sighted r s d ⟨x2, C.y, z1⟩ := LookingFrom.sighted (O := ⟨x2, C.y, z1⟩) hl bx2 q.y_le bz1
    obtain ⟨T, X, Z, et, hT, T0, T1, dy0, hTe, hX, hZ, X0, Z0, XZ⟩ := ff.hit_sound sg hp hnear
    dsimp only at hTe hX hZ
    have X1 : 1 - X ≤ 1 + 1 / 2 ^ 27 := by norm_num at *; linarith
    have Z1 : 1 - Z ≤ 1 + 1 / 2 ^ 27 := by norm_num at *; linarith
    have X0' : -(1 / 2 ^ 27) ≤ 1 - X := by norm_num at *; linarith
    have Z0' : -(1 / 2 ^ 27) ≤ 1 - Z := by norm_num at *; linarith
    have hσ : 1 + |X| + |Z| ≤ 4 := by
      have : |X| ≤ 3 / 2 := by rw [abs_le]; norm_num at *; constructor <;> linarith
      have : |Z| ≤ 3 / 2 := by rw [abs_le]; norm_num at *; constructor <;> linarith
      linarith
    obtain ⟨px, ex⟩ := between_sides (P := 1 - X) (p := s.x + T * d.x) fp.corners.left fp.corners.right' q.w_ge hW (by linear_combination hX) X0' X1
    obtain ⟨pz, ez⟩ := between_sides (P := 1 - Z) (p := s.z + T * d.z) fp.corners.front fp.corners.back q.d_ge hD (by linear_combination hZ) Z0' Z1
    obtain ⟨n, l, N, U, V, er, hN, eN, hUV, eU, eV⟩ := ff.hit_record (M := M) sg hp fp.ne fp.nb fp.na (a0 := 1) (a1 := 0) (a2 := 1)
      (b0 := 1) (b1 := 1) (b2 := 0) (by rw [fp.ue.1]; exact one) (by rw [fp.ub.1]; exact zero) (by rw [fp.ua.1]; exact one)
      (by rw [fp.ue.2]; exact one) (by rw [fp.ub.2]; exact one) (by rw [fp.ua.2]; exact zero) hT T0 T1 hX hZ hσ
    rw [er]
    refine ⟨hr, rfl, T, N, U, V, hT, T0, hTe, height dy0 hTe, ⟨px, pz⟩, hN, eN, hUV, ?_, ?_⟩
    · have := abs_add_le (U - (1 * (1 - X - Z) + 0 * Z + 1 * X)) (1 - Z - (s.z + T * d.z - (C.z - D / 2)) / D)
      rw [show U - (1 * (1 - X - Z) + 0 * Z + 1 * X) + (1 - Z - (s.z + T * d.z - (C.z - D / 2)) / D) =
        U - (s.z + T * d.z - (C.z - D / 2)) / D by ring] at this
      unfold floorPlace along
      norm_num at *; linarith
    · have := abs_add_le (V - (1 * (1 - X - Z) + 1 * Z + 0 * X)) (1 - X - (s.x + T * d.x - (C.x - W / 2)) / W)
      rw [show V - (1 * (1 - X - Z) + 1 * Z + 0 * X) + (1 - X - (s.x + T * d.x - (C.x - W / 2)) / W) =
        V - (s.x + T * d.x - (C.x - W / 2)) / W by ring] at this
      unfold floorPlace along
      norm_num at *; linarith

set_option maxHeartbeats 1000000 in
/-- **A floor that is there is seen**, in double precision: if the line from the start, at least `2^-12` above or below the
floor, stays at least `2^-12` inside its edges while it is within `2^-13` of its height, and meets it at least `2^-24` off the
diagonal where its two triangles join (as a part of its size), the floor is hit, at the right distance but for `2^-44` of it. -/
theorem C100_seen_partial (S : Sorter (Obj Flo M)) (m : Option M) {w dp : Flo} {c : Vec Flo} {W D : ℝ} {C : Vec ℝ}
    (q : LevelRectangle w dp c W D C) {o : Obj Flo M} (ho : rectangle S m w dp c = .ok o) {r : Ray Flo} {s d : Vec ℝ}
    (hl : LookingFrom r s d C.y) (hoff : 1 / 2 ^ 12 ≤ |s.y - C.y|) {T0 : ℝ} (hT0 : 0 < T0) (hmeet : (along s d T0).y = C.y)
    (hin : ∀ T, |(along s d T).y - C.y| ≤ 1 / 2 ^ 13 → OverFloor W D C (-(1 / 2 ^ 12)) (along s d T))
    (hdiag : 1 / 2 ^ 24 ≤ |((along s d T0).x - C.x) / W + ((along s d T0).z - C.z) / D|) :
    ∃ h T, o.intersect r = .ok (h, r) ∧ h.mat = m ∧ h.t.Is T ∧ |T - T0| ≤ 1 / 2 ^ 44 * T0 := by
  obtain ⟨bb, O, A, B, E, x0, x1, x2, z0, z1, fp, e⟩ := floor_shape S m q.width q.depth q.center q.w_ge q.d_ge q.x_le q.y_le q.z_le q.exact
  have e' := e
  rw [ho, Except.ok.injEq] at e'
  obtain ⟨bx0, bx1, bx2, bz0, bz1, l1, l2, l3, hW, hD⟩ := fp.corners.bounds
  obtain ⟨dx, dy, dz⟩ := small_comp hl.short
  obtain ⟨n1, n2, n3⟩ := hl.near
  have W2 := q.w_ge
  have D2 := q.d_ge
  have yl := q.y_le
  -- the distance
  have hm : s.y + T0 * d.y = C.y := hmeet
  have d0 : d.y ≠ 0 := by
    intro h
    rw [h, mul_zero, add_zero] at hm
    rw [hm, sub_self, abs_zero] at hoff
    norm_num at hoff
  have hT : (C.y - s.y) / d.y = T0 := by rw [div_eq_iff d0]; linarith
  have at0 : OverFloor W D C (-(1 / 2 ^ 12)) (along s d T0) := hin T0 (by rw [hmeet, sub_self, abs_zero]; positivity)
  have far : ∀ {p c L s : ℝ}, |p - c| ≤ L / 2 + -(1 / 2 ^ 12) → |c| + L / 2 ≤ 1000 → |s| ≤ 1024 → (p - s) ^ 2 ≤ 2024 ^ 2 := by
    intro p c L s h1 h2 h3
    rw [← sq_abs]
    have h4 : |p - s| ≤ 2024 := by
      rw [show p - s = (p - c) + (c - s) by ring]
      have := abs_add_le (p - c) (c - s)
      have := abs_sub c s
      norm_num at *; linarith
    exact pow_le_pow_left₀ (abs_nonneg _) h4 2
  have qx := far at0.1 q.x_le n1
  have qz := far at0.2 q.z_le n3
  have qy : (T0 * d.y) ^ 2 ≤ 2024 ^ 2 := by
    rw [← sq_abs, show T0 * d.y = C.y - s.y by linarith]
    have h4 : |C.y - s.y| ≤ 2024 := by
      have := abs_sub C.y s.y
      linarith
    exact pow_le_pow_left₀ (abs_nonneg _) h4 2
  have T1 : T0 ≤ 5000 := by
    change (s.x + T0 * d.x - s.x) ^ 2 ≤ 2024 ^ 2 at qx
    change (s.z + T0 * d.z - s.z) ^ 2 ≤ 2024 ^ 2 at qz
    rw [add_sub_cancel_left] at qx qz
    have h1 := mul_le_mul_of_nonneg_left hl.long (sq_nonneg T0)
    have h2 : T0 ^ 2 ≤ 5000 ^ 2 := by nlinarith
    exact abs_le_of_sq_le_sq' h2 (by norm_num) |>.2
  have hdy : T0 * |d.y| = |s.y - C.y| := by
    rw [abs_sub_comm, show C.y - s.y = T0 * d.y by linarith, abs_mul, abs_of_pos hT0]
  have dy0 : 1 / 2 ^ 25 ≤ |d.y| := by
    by_contra hlt
    rw [not_le] at hlt
    have := mul_lt_mul_of_pos_left hlt hT0
    norm_num at *; linarith
  have dy0' : 1 / 2 ^ 120 ≤ |d.y| := le_trans (by norm_num) dy0
  -- the box
  obtain ⟨fy, ey⟩ := toF32_is fp.lo.2.1 (yl.trans (by norm_num))
  obtain ⟨fy', -⟩ := toF32_is fp.hi.2.1 (yl.trans (by norm_num))
  obtain ⟨fx, ex⟩ := toF32_is fp.lo.1 (bx0.trans (by norm_num))
  obtain ⟨fz, ez⟩ := toF32_is fp.lo.2.2 (bz0.trans (by norm_num))
  have bxm : |max x1 x2| ≤ 1001 := by
    rcases max_choice x1 x2 with h | h <;> rw [h] <;> assumption
  have exm : |max x1 x2 - (C.x + W / 2)| ≤ 1 / 2 ^ 40 := by
    rcases max_choice x1 x2 with h | h <;> rw [h]
    · exact fp.corners.right
    · exact fp.corners.right'
  obtain ⟨fx', ex'⟩ := toF32_is fp.hi.1 (bxm.trans (by norm_num))
  obtain ⟨fz', ez'⟩ := toF32_is fp.hi.2.2 (bz1.trans (by norm_num))
  dsimp only at fy fy' fx fz fx' fz' ey ex ez ex' ez'
  have el := fp.corners.left
  have ef := fp.corners.front
  have eb := fp.corners.back
  have box : (bb.toF.intersect r <=. lit 0) = false := by
    have eF : |roundBits 24 C.y - C.y| ≤ 1 / 2 ^ 14 := ey.trans (by norm_num at *; linarith)
    have eX : |roundBits 24 x0 - x0| ≤ 1 / 2 ^ 14 := ex.trans (by norm_num at *; linarith)
    have eZ : |roundBits 24 z0 - z0| ≤ 1 / 2 ^ 14 := ez.trans (by norm_num at *; linarith)
    have eX' : |roundBits 24 (max x1 x2) - max x1 x2| ≤ 1 / 2 ^ 14 := ex'.trans (by norm_num at *; linarith)
    have eZ' : |roundBits 24 z1 - z1| ≤ 1 / 2 ^ 14 := ez'.trans (by norm_num at *; linarith)
    clear ey ex ez ex' ez'
    have lo : bb.toF.min.FIs ⟨roundBits 24 x0, roundBits 24 C.y, roundBits 24 z0⟩ := ⟨fx, fy, fz⟩
    have hi : bb.toF.max.FIs ⟨roundBits 24 (max x1 x2), roundBits 24 C.y, roundBits 24 z1⟩ := ⟨fx', fy', fz'⟩
    generalize roundBits 24 C.y = F at *
    generalize roundBits 24 x0 = X0 at *
    generalize roundBits 24 z0 = Z0 at *
    generalize roundBits 24 (max x1 x2) = X1 at *
    generalize roundBits 24 z1 = Z1 at *
    generalize max x1 x2 = xm at *
    have small : ∀ {a b : ℝ}, |a - b| ≤ 1 / 2 ^ 14 → |b| ≤ 1001 → |a| ≤ 2 ^ 10 := by
      intro a b h1 h2
      have := abs_sub_abs_le_abs_sub a b
      norm_num at *; linarith
    have ratio : |(F - s.y) / d.y - T0| ≤ 1 / 4 * T0 := by
      rw [← hT, ← sub_div, abs_div, show F - s.y - (C.y - s.y) = F - C.y by ring, hT, div_le_iff₀ (abs_pos.2 d0), mul_assoc, hdy]
      norm_num at *; linarith
    have rr := abs_le.1 ratio
    have hF : |F - s.y - (C.y - s.y)| ≤ 1 / 2 ^ 14 := by rwa [show F - s.y - (C.y - s.y) = F - C.y by ring]
    refine flat_box lo hi hl.start hl.dir (small eX bx0) (small eX' bxm) (small eZ bz0) (small eZ' bz1)
      (n1.trans (by norm_num)) (n3.trans (by norm_num)) dx dy dz ?_ ?_ (le_trans (by norm_num) dy0) (by linarith) (by norm_num; linarith) ?_
    · have := abs_sub_abs_le_abs_sub (C.y - s.y) (F - s.y)
      rw [abs_sub_comm (C.y - s.y) (F - s.y), abs_sub_comm C.y s.y] at this
      norm_num at *; linarith
    · have := abs_sub_abs_le_abs_sub (F - s.y) (C.y - s.y)
      have := abs_sub C.y s.y
      norm_num at *; linarith
    · intro T hTF
      have hy : |(along s d T).y - C.y| ≤ 1 / 2 ^ 13 := by
        have := abs_add_le (s.y + T * d.y - F) (F - C.y)
        rw [show s.y + T * d.y - F + (F - C.y) = s.y + T * d.y - C.y by ring] at this
        change |s.y + T * d.y - C.y| ≤ _
        norm_num at *; linarith
      obtain ⟨hx, hz⟩ := hin T hy
      change |s.x + T * d.x - C.x| ≤ _ at hx
      change |s.z + T * d.z - C.z| ≤ _ at hz
      rw [abs_le] at hx hz eX eX' eZ eZ' el exm ef eb
      norm_num at hx hz eX eX' eZ eZ' el exm ef eb ⊢
      refine ⟨?_, ?_, ?_, ?_⟩ <;> linarith
  -- the triangles
  have close : ∀ {T : ℝ}, |T - (C.y - s.y) / d.y| ≤ 1 / 2 ^ 44 * |(C.y - s.y) / d.y| →
      OverFloor W D C (-(1 / 2 ^ 12)) (along s d T) ∧
      |((s.x + T * d.x - C.x) / W + (s.z + T * d.z - C.z) / D) -
        (((along s d T0).x - C.x) / W + ((along s d T0).z - C.z) / D)| ≤ 1 / 2 ^ 29 := by
    intro T h1
    rw [hT, abs_of_pos hT0] at h1
    constructor
    · refine hin T ?_
      have e : (along s d T).y - C.y = (T - T0) * d.y := by rw [← hm]; simp only [along]; ring
      rw [e, abs_mul]
      refine (mul_le_mul_of_nonneg_right h1 (abs_nonneg _)).trans ?_
      rw [mul_assoc, hdy]
      have := abs_sub s.y C.y
      norm_num at *; linarith
    · have e : ((s.x + T * d.x - C.x) / W + (s.z + T * d.z - C.z) / D) -
        (((along s d T0).x - C.x) / W + ((along s d T0).z - C.z) / D) = (T - T0) * (d.x / W + d.z / D) := by simp only [along]; ring
      rw [e, abs_mul]
      have g1 : |d.x / W| ≤ 1 := by
        rw [abs_div, abs_of_pos (show 0 < W by linarith), div_le_one (by linarith)]; linarith
      have g2 : |d.z / D| ≤ 1 := by
        rw [abs_div, abs_of_pos (show 0 < D by linarith), div_le_one (by linarith)]; linarith
      have g3 : |d.x / W + d.z / D| ≤ 2 := (abs_add_le _ _).trans (by linarith)
      refine (mul_le_mul h1 g3 (abs_nonneg _) (by positivity)).trans ?_
      norm_num at *; linarith
  generalize hu : ((along s d T0).x - C.x) / W + ((along s d T0).z - C.z) / D = u at *
  have found : (((Face.hit O A B r : HitRecord Flo M).t >. lit 0) = true ∧ ((Face.hit O A B r : HitRecord Flo M).t <. lit (9 * 10 ^ 99)) = true) ∨
      (((Face.hit E B A r : HitRecord Flo M).t >. lit 0) = true ∧ ((Face.hit E B A r : HitRecord Flo M).t <. lit (9 * 10 ^ 99)) = true) := by
    have far' : |(C.y - s.y) / d.y| ≤ 2 ^ 100 := by rw [hT, abs_of_pos hT0]; norm_num; linarith
    have pos' : 0 < (C.y - s.y) / d.y := by rw [hT]; exact hT0
    have far'' : (C.y - s.y) / d.y ≤ 2 ^ 200 := by rw [hT]; norm_num; linarith
    rcases le_abs.1 hdiag with hu' | hu'
    · right
      have ff := fp.corners.face2 fp.e fp.b fp.a
      have sg : FlatFace.Sighted r s d ⟨x2, C.y, z1⟩ := LookingFrom.sighted (O := ⟨x2, C.y, z1⟩) hl bx2 q.y_le bz1
      have hp := ff.hit_complete (M := M) sg dy0' pos' far'' (by
        intro T X Z h1 hX hZ
        dsimp only at h1 hX hZ
        obtain ⟨⟨hx, hz⟩, hd⟩ := close h1
        obtain ⟨i1, i2, i3⟩ := inside_sides (P := 1 - X) (p := s.x + T * d.x) el fp.corners.right' W2 hW (by linear_combination hX) hx
        obtain ⟨j1, j2, j3⟩ := inside_sides (P := 1 - Z) (p := s.z + T * d.z) ef eb D2 hD (by linear_combination hZ) hz
        rw [abs_le] at i3 j3 hd
        norm_num at *
        refine ⟨?_, ?_, ?_⟩ <;> linarith)
      exact ⟨hp, ff.hit_near sg dy0' far' hp⟩
    · left
      have ff := fp.corners.face1 fp.o fp.a fp.b
      have sg : FlatFace.Sighted r s d ⟨x0, C.y, z0⟩ := LookingFrom.sighted (O := ⟨x0, C.y, z0⟩) hl bx0 q.y_le bz0
      have hp := ff.hit_complete (M := M) sg dy0' pos' far'' (by
        intro T X Z h1 hX hZ
        dsimp only at h1 hX hZ
        obtain ⟨⟨hx, hz⟩, hd⟩ := close h1
        obtain ⟨i1, i2, i3⟩ := inside_sides (P := X) (p := s.x + T * d.x) el fp.corners.right W2 hW hX hx
        obtain ⟨j1, j2, j3⟩ := inside_sides (P := Z) (p := s.z + T * d.z) ef eb D2 hD hZ hz
        rw [abs_le] at i3 j3 hd
        norm_num at *
        refine ⟨?_, ?_, ?_⟩ <;> linarith)
      exact ⟨hp, ff.hit_near sg dy0' far' hp⟩
  obtain ⟨h, hi, hpos, hnear⟩ := floor_finds m bb.toF O A B E B A r box found
  rw [← e'] at hi
  obtain ⟨-, hmat, T, -, -, -, hTi, -, hTe, -⟩ := C100_on S m q ho hl hi hpos hnear
  refine ⟨h, T, hi, hmat, hTi, ?_⟩
  rwa [hT, abs_of_pos hT0] at hTe

/-- The floor of 8 by 8 around the origin is seen from `(1, 2, 1)`, at distance 2; and that is where it is. -/
example (S : Sorter (Obj Flo M)) (m : Option M) : ∃ (o : Obj Flo M) (h : HitRecord Flo M) (T : ℝ),
    rectangle S m (lit 8) (lit 8) ⟨lit 0, lit 0, lit 0⟩ = .ok o ∧
    o.intersect ⟨⟨lit 1, lit 2, lit 1⟩, ⟨lit 0, lit ((-1 : ℤ) : ℚ), lit 0⟩⟩ =
      .ok (h, ⟨⟨lit 1, lit 2, lit 1⟩, ⟨lit 0, lit ((-1 : ℤ) : ℚ), lit 0⟩⟩) ∧ h.mat = m ∧ h.t.Is T ∧ |T - 2| ≤ 1 / 2 ^ 43 ∧
    ∃ U V, h.loc.FIs ⟨U, V, 0⟩ ∧ |U - 5 / 8| ≤ 1 / 2 ^ 24 ∧ |V - 5 / 8| ≤ 1 / 2 ^ 24 := by
  obtain ⟨o, ho⟩ := eight_floor_ok S m
  have hl := over_eight (-1) (.inr rfl)
  obtain ⟨h, T, hi, hm, hT, eT⟩ := C100_seen_partial S m eight_floor ho hl (by norm_num) (T0 := 2) (by norm_num) (by norm_num [along])
    (by intro T _; norm_num [along, OverFloor]) (by norm_num [along])
  have pos : (h.t >. lit 0) = true := by
    change (lit 0 <. h.t) = true
    rw [lt_is Ball.flo_zero hT]
    rw [abs_le] at eT
    exact decide_eq_true (by norm_num at *; linarith)
  have near : (h.t <. lit (9 * 10 ^ 99)) = true := by
    obtain ⟨x, hx, hx1, -⟩ := flo_far
    rw [lt_is hT hx]
    rw [abs_le] at eT
    exact decide_eq_true (by norm_num at *; linarith)
  obtain ⟨-, -, T', N, U, V, -, -, -, -, -, -, -, hUV, eU, eV⟩ := C100_on S m eight_floor ho hl hi pos near
  refine ⟨o, h, T, ho, hi, hm, hT, eT.trans (by norm_num), U, V, hUV, ?_, ?_⟩
  · norm_num [floorPlace, along] at eU ⊢; exact eU
  · norm_num [floorPlace, along] at eV ⊢; exact eV

end BR
