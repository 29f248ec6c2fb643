import Verif.Spec.ViewDouble
import Verif.Lemmas.LampBlock
import Verif.Lemmas.Cmp
import Verif.Lemmas.RoomShade

/-! Which of several things is seen along a ray, in double precision. -/

namespace BR
set_option linter.unusedSectionVars false

open Flo

variable {r : Ray Flo} {v d : Vec ℝ} {mt : Option (Mat Flo)} {o : Obj Flo (Mat Flo)} {b : Obstacle}

/-- What the object reports for the ray is not ahead, or farther than `T`. -/
def GoesBy (o : Obj Flo (Mat Flo)) (r : Ray Flo) (T : ℝ) : Prop :=
  ∃ f, o.intersect r = .ok (f, r) ∧ ((f.t >. lit 0) = true → ∃ k : EReal, CmpModel.key f.t = some k ∧ (T : EReal) < k)

/-- The far distance is beyond the sky. -/
theorem sky_far : ∃ x y : ℝ, (lit (10 ^ 99) : Flo).Is x ∧ (lit (9 * 10 ^ 99) : Flo).Is y ∧ 0 < x ∧ x < y := by
  have is : ∀ {q : ℚ} {b : ℝ}, (q : ℝ) = b → 0 ≤ b → b ≤ 9 * 10 ^ 99 → ∃ x : ℝ, (lit q : Flo).Is x ∧ |x - b| ≤ b / 2 ^ 53 + 1 / 2 ^ 200 := by
    rintro q b rfl b0 b1
    refine ⟨roundBits 53 (q : ℝ), ?_, ?_⟩
    · change (rnd (lit _)).Is _
      rw [Ext.lit_ext]
      refine rnd_ample _ ?_
      rw [abs_of_nonneg b0]
      refine b1.trans ?_
      unfold ample
      norm_num
    · have h1 := roundBits_err 53 (by norm_num) (q : ℝ)
      rw [abs_of_nonneg b0] at h1
      exact h1
  obtain ⟨x, hx, ex⟩ := is (q := 10 ^ 99) (b := 10 ^ 99) (by push_cast; rfl) (by norm_num) (by norm_num)
  obtain ⟨y, hy, ey⟩ := is (q := 9 * 10 ^ 99) (b := 9 * 10 ^ 99) (by push_cast; rfl) (by norm_num) le_rfl
  rw [abs_le] at ex ey
  refine ⟨x, y, hx, hy, ?_, ?_⟩ <;> norm_num at ex ey ⊢ <;> linarith

namespace Glance

theorem look (h : Glance r v d) {diam : Flo} {center : Vec Flo} {c : Vec ℝ} {R : ℝ} (hc : center.FIs c) (hd : diam.Is (2 * R))
    (wc : Within 64 c) (R0 : 0 ≤ R) (R1 : R ≤ 64) : Looking r diam center v d c R :=
  ⟨h.start, h.dir, hc, hd, h.near, wc, R0, R1, h.long, h.short⟩

theorem look_box (h : Glance r v d) {b : BBox Flo} {lo hi : Vec ℝ} (h1 : b.min.FIs lo) (h2 : b.max.FIs hi) (w1 : Within 1024 lo)
    (w2 : Within 1024 hi) (ho : lo.x ≤ hi.x ∧ lo.y ≤ hi.y ∧ lo.z ≤ hi.z) : LookingAtBox r b v d lo hi :=
  ⟨h.start, h.dir, h1, h2, ⟨h.near.1.trans (by norm_num), h.near.2.1.trans (by norm_num), h.near.2.2.trans (by norm_num)⟩, w1, w2, ho,
    h.long, h.short⟩

theorem look_floor (h : Glance r v d) {y : ℝ} (hy : 1 / 2 ^ 12 ≤ |v.y - y|) : LookingFrom r v d y :=
  ⟨h.start, h.dir, ⟨h.near.1.trans (by norm_num), h.near.2.1.trans (by norm_num), h.near.2.2.trans (by norm_num)⟩,
    le_trans (by norm_num) hy, h.long, h.short⟩

theorem on_line {Y T : ℝ} (Y0 : 0 < Y) : onWay v (along v d Y) (T / Y) = along v d T := by
  have : Y ≠ 0 := Y0.ne'
  simp only [onWay, along, Vec.sub]
  congr 1 <;> field_simp <;> ring

/-- Things that are clear of the line as far as `Y` are not reported nearer, unless `Y` is beyond the sky. -/
theorem goes_by' (h : Glance r v d) (hb : b.Built mt o) {Y : ℝ} (Y0 : 0 < Y) (Y1 : ∀ x, (lit (9 * 10 ^ 99) : Flo).Is x → Y < x)
    (Y2 : b = .sky → Y < 2 ^ 200) (hc : b.Clears v (along v d Y)) : GoesBy o r Y := by
  have at' : ∀ {T : ℝ}, 0 < T → T ≤ Y → 0 ≤ T / Y ∧ T / Y ≤ 1 ∧ onWay v (along v d Y) (T / Y) = along v d T := by
    intro T T0 TY
    exact ⟨by positivity, (div_le_one Y0).2 TY, on_line Y0⟩
  have fin : ∀ {f : HitRecord Flo (Mat Flo)} {T : ℝ}, f.t.Is T → ¬T ≤ Y → ∃ k : EReal, CmpModel.key f.t = some k ∧ (Y : EReal) < k := by
    intro f T hT hn
    exact ⟨_, hT.key, by exact_mod_cast not_le.1 hn⟩
  cases hb with
  | @ball diam center c R hcen hd wc R0 R1 =>
    have hlk := h.look hcen hd wc R0 R1
    refine ⟨(Obj.sphereQ mt diam center).hit r, rfl, fun hpos => ?_⟩
    obtain ⟨T, hT, T0, hx, -⟩ := C86_on mt diam center r v d c R hlk _ _ rfl hpos
    refine fin hT fun hTY => ?_
    obtain ⟨f0, f1, e⟩ := at' T0 hTY
    have hcl := hc _ f0 f1
    rw [e] at hcl
    exact absurd (off_square (apart_nonneg' _ _) R0 (le_trans (by norm_num) hcl)) (not_lt.2 hx)
  | @block bb lo hi h1 h2 w1 w2 ho =>
    have hlk := h.look_box h1 h2 w1 w2 ho
    obtain ⟨hit, e⟩ := C91_answers mt bb _ v d lo hi hlk
    refine ⟨hit, e, fun hpos => ?_⟩
    obtain ⟨T, hT, T0, hon, -⟩ := C91_on mt bb _ v d lo hi hlk _ _ e hpos
    refine fin hT fun hTY => ?_
    obtain ⟨f0, f1, e⟩ := at' T0 hTY
    refine hc _ f0 f1 ?_
    rw [e]
    have w : ∀ {a k : ℝ}, |a - k| ≤ 1 / 2 ^ 38 → |a - k| ≤ 1 / 1024 := fun h => h.trans (by norm_num)
    obtain ⟨⟨⟨i1, i2⟩, ⟨i3, i4⟩, i5, i6⟩, hor⟩ := hon
    refine ⟨⟨⟨?_, ?_⟩, ⟨?_, ?_⟩, ?_, ?_⟩, ?_⟩
    iterate 6 (norm_num at *; linarith)
    · rcases hor with q | q | q | q | q | q
      · exact .inl (w q)
      · exact .inr (.inl (w q))
      · exact .inr (.inr (.inl (w q)))
      · exact .inr (.inr (.inr (.inl (w q))))
      · exact .inr (.inr (.inr (.inr (.inl (w q)))))
      · exact .inr (.inr (.inr (.inr (.inr (w q)))))
  | @floor K w dp c W D C o q ho =>
    obtain ⟨hQ, hc⟩ := hc
    have hlk := h.look_floor (le_trans (by norm_num) hQ)
    obtain ⟨bb, O, A, B, E, x0, x1, x2, z0, z1, fp, e⟩ := floor_shape K mt q.width q.depth q.center q.w_ge q.d_ge q.x_le q.y_le q.z_le q.exact
    have e' := e
    rw [ho, Except.ok.injEq] at e'
    obtain ⟨hit, hi⟩ : ∃ hit, o.intersect r = .ok (hit, r) := by
      rw [e']
      simp only [Obj.intersect, Node.intersect, Obj.scan, ok_bind, pure_ok]
      split
      · exact ⟨_, rfl⟩
      · exact ⟨_, rfl⟩
    refine ⟨hit, hi, fun hpos => ?_⟩
    by_cases hnear : (hit.t <. lit (9 * 10 ^ 99)) = true
    · obtain ⟨-, -, T, -, -, -, hT, T0, -, hy, ⟨o1, o2⟩, -⟩ := C100_on K mt q ho hlk hi hpos hnear
      refine fin hT fun hTY => ?_
      obtain ⟨f0, f1, e⟩ := at' T0 hTY
      refine hc _ f0 f1 ?_
      rw [e]
      exact ⟨hy.trans (by norm_num), o1.trans (by norm_num), o2.trans (by norm_num)⟩
    · obtain ⟨a, k, ha, hk, hak⟩ := (CmpModel.lt_iff _ _).1 hpos
      refine ⟨k, hk, ?_⟩
      obtain ⟨x, hx, -⟩ := flo_far
      by_contra hn
      refine hnear ((CmpModel.lt_iff _ _).2 ⟨k, _, hk, hx.key, lt_of_le_of_lt (not_lt.1 hn) ?_⟩)
      exact_mod_cast Y1 x hx
  | sky =>
    refine ⟨_, rfl, fun _ => ?_⟩
    obtain ⟨x, hx, hx1, -⟩ := flo_sky
    exact fin (f := ⟨lit (10 ^ 99), r.dir, r.dir, mt⟩) hx (not_le.2 ((Y2 rfl).trans_le hx1))

/-- Things that are clear of the line as far as `Y` are not reported nearer. -/
theorem goes_by (h : Glance r v d) (hb : b.Built mt o) {Y : ℝ} (Y0 : 0 < Y) (Y1 : Y ≤ 2 ^ 100) (hc : b.Clears v (along v d Y)) : GoesBy o r Y := by
  have far : (2 : ℝ) ^ 100 < 2 ^ 200 := by norm_num
  refine h.goes_by' hb Y0 (fun x hx => ?_) (fun _ => by linarith) hc
  obtain ⟨x', hx', hx1, -⟩ := flo_far
  rw [Bounce.is_inj hx hx']
  linarith

end Glance

theorem loop_before {os : List (Obj Flo (Mat Flo))} {T : ℝ} (hos : ∀ o ∈ os, GoesBy o r T) (rest : List (Obj Flo (Mat Flo))) {front : HitRecord Flo (Mat Flo)}
    (hf : ∃ k : EReal, CmpModel.key front.t = some k ∧ (T : EReal) < k) :
    ∃ front' : HitRecord Flo (Mat Flo), intersectLoop (os ++ rest) front r = intersectLoop rest front' r ∧
      ∃ k : EReal, CmpModel.key front'.t = some k ∧ (T : EReal) < k := by
  induction os generalizing front with
  | nil => exact ⟨front, rfl, hf⟩
  | cons o os ih =>
    obtain ⟨f, e, hk⟩ := hos o (by simp)
    rw [List.cons_append, intersectLoop, e, ok_bind]
    refine ih (fun o ho => hos o (by simp [ho])) ?_
    split
    next hc =>
      rw [Bool.and_eq_true] at hc
      exact hk hc.1
    next => exact hf

theorem loop_after {os : List (Obj Flo (Mat Flo))} {T : ℝ} (hos : ∀ o ∈ os, GoesBy o r T) {front : HitRecord Flo (Mat Flo)} (hf : front.t.Is T) :
    intersectLoop os front r = .ok (front, r) := by
  induction os with
  | nil => rfl
  | cons o os ih =>
    obtain ⟨f, e, hk⟩ := hos o (by simp)
    rw [intersectLoop, e, ok_bind]
    have : (f.t >. lit 0 && f.t <=. front.t) = false := by
      rw [Bool.eq_false_iff, ne_eq, Bool.and_eq_true]
      rintro ⟨h1, h2⟩
      obtain ⟨k, hk, hlt⟩ := hk h1
      rw [le_key hk hf.key, decide_eq_true_eq] at h2
      exact absurd h2 (not_le.2 hlt)
    dsimp only
    rw [this]
    exact ih (fun o ho => hos o (by simp [ho]))

/-- **The thing that is nearest is the one that is seen.** -/
theorem frontmost_is {before after : List (Obj Flo (Mat Flo))} {T : ℝ} {hit : HitRecord Flo (Mat Flo)} (ho : o.intersect r = .ok (hit, r))
    (hT : hit.t.Is T) (T0 : 0 < T) (hb : ∀ o ∈ before, GoesBy o r T) (ha : ∀ o ∈ after, GoesBy o r T) :
    intersectFrontmost (before ++ o :: after) r = .ok (hit, r) := by
  obtain ⟨front, e, k, hk, hlt⟩ := loop_before hb (o :: after) (front := frontDefault r) ⟨⊤, InfModel.key_inf, EReal.coe_lt_top T⟩
  rw [intersectFrontmost, e, intersectLoop, ho, ok_bind]
  have : (hit.t >. lit 0 && hit.t <=. front.t) = true := by
    rw [Bool.and_eq_true]
    refine ⟨?_, ?_⟩
    · change (lit 0 <. hit.t) = true
      rw [lt_is Ball.flo_zero hT]
      exact decide_eq_true T0
    · rw [le_key hT.key hk]
      exact decide_eq_true hlt.le
  dsimp only
  rw [this]
  exact loop_after ha hT

end BR
