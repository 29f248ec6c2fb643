import Verif.Lemmas.BallPatch
import Verif.Lemmas.FloorShadow
import Verif.Lemmas.RoomShade

/-! The point of a box that is seen, its normal, and the shadow of a box on itself, in double precision. -/

namespace BR
set_option linter.unusedSectionVars false

open Flo

/-- One for an upper side, minus one for a lower one. -/
noncomputable def sgnOf (up : Bool) : ℝ := if up then 1 else -1

theorem inBox_get {lo hi p : Vec ℝ} {e : ℝ} : InBox lo hi e p ↔ ∀ i, lo.get i - e ≤ p.get i ∧ p.get i ≤ hi.get i + e :=
  ⟨fun ⟨a, b, c⟩ i => by fin_cases i; exacts [a, b, c], fun h => ⟨h 0, h 1, h 2⟩⟩

theorem along_get (s d : Vec ℝ) (T : ℝ) (i : Fin 3) : (along s d T).get i = s.get i + T * d.get i := by
  fin_cases i <;> rfl

theorem faceNormal_get {lo hi p n : Vec ℝ} {e : ℝ} (h : FaceNormal lo hi e p n) : ∃ i up, n = sideNormal i up ∧ |outside lo hi i up p| ≤ e := by
  rcases h with ⟨rfl, h⟩ | ⟨rfl, h⟩ | ⟨rfl, h⟩ | ⟨rfl, h⟩ | ⟨rfl, h⟩ | ⟨rfl, h⟩
  · exact ⟨0, false, by simp [sideNormal], by rw [abs_sub_comm] at h; simpa [outside, Vec.get] using h⟩
  · exact ⟨0, true, by simp [sideNormal], by simpa [outside, Vec.get] using h⟩
  · exact ⟨1, false, by simp [sideNormal], by rw [abs_sub_comm] at h; simpa [outside, Vec.get] using h⟩
  · exact ⟨1, true, by simp [sideNormal], by simpa [outside, Vec.get] using h⟩
  · exact ⟨2, false, by simp [sideNormal], by rw [abs_sub_comm] at h; simpa [outside, Vec.get] using h⟩
  · exact ⟨2, true, by simp [sideNormal], by simpa [outside, Vec.get] using h⟩

theorem outside_off {lo hi : Vec ℝ} (i : Fin 3) (up : Bool) (p q : Vec ℝ) :
    outside lo hi i up p = outside lo hi i up q + sgnOf up * (p.get i - q.get i) := by
  unfold outside sgnOf
  cases up <;> simp <;> ring

/-- When a side of a box is seen. -/
theorem box_time (m : Option (Mat Flo)) {b : BBox Flo} {r r' : Ray Flo} {s d lo hi : Vec ℝ} (h : LookingAtBox r b s d lo hi) {i : Fin 3} {up : Bool}
    {X : ℝ} (X0 : 1 / 1024 ≤ X) (hQ : OnSide lo hi i up (along s d X)) (hd : sgnOf up * d.get i ≤ -(1 / 2 ^ 13))
    {hit : HitRecord Flo (Mat Flo)} (he : (Obj.box b m).intersect r = .ok (hit, r')) :
    ∃ T, hit.t.Is T ∧ 0 < T ∧ |T - X| ≤ 1 / 2 ^ 24 := by
  have hdb : ∀ j, |d.get j| ≤ 2 := fun j => (h.axis j).2.2.2.2.2.2.2.2
  have hout : ¬InBox lo hi (1 / 2 ^ 38) s := by
    intro hin
    have h1 := inBox_get.1 hin i
    have h2 := outside_off (lo := lo) (hi := hi) i up s (along s d X)
    rw [hQ.flush, along_get] at h2
    have h3 := mul_le_mul_of_nonneg_right hd (show 0 ≤ X by linarith)
    have h4 : outside lo hi i up s ≤ 1 / 2 ^ 38 := by
      unfold outside
      cases up <;> simp only [if_true, Bool.false_eq_true, if_false] <;> linarith
    have h5 : sgnOf up * (s.get i - (s.get i + X * d.get i)) = -(sgnOf up * d.get i * X) := by ring
    rw [h5] at h2
    norm_num at *
    linarith
  have hins : InBox lo hi (-(1 / 2 ^ 38)) (along s d (X + 1 / 2 ^ 24)) := by
    rw [inBox_get]
    intro j
    have e : (along s d (X + 1 / 2 ^ 24)).get j = (along s d X).get j + 1 / 2 ^ 24 * d.get j := by
      rw [along_get, along_get]; ring
    rw [e]
    have hb := abs_le.1 (hdb j)
    by_cases hj : j = i
    · subst hj
      have h1 := hQ.flush
      have h2 := hQ.thick
      unfold outside at h1
      unfold sgnOf at hd
      cases up <;> simp only [if_true, Bool.false_eq_true, if_false] at h1 hd <;> norm_num at * <;> constructor <;> linarith
    · obtain ⟨h1, h2⟩ := hQ.amid j hj
      norm_num at *
      constructor <;> linarith
  obtain ⟨hit', e', -, T, hT, T0, hon, hbefore, -⟩ := C91_seen m b r s d lo hi h (.inl hout) ⟨_, by positivity, hins⟩
  rw [e'] at he
  cases he
  refine ⟨T, hT, T0, ?_⟩
  have h1 : T ≤ X + 1 / 2 ^ 24 := by
    by_contra hn
    rw [not_le] at hn
    exact hbefore hout _ (by positivity) hn hins
  have h2 : X - 1 / 2 ^ 24 ≤ T := by
    have hb := inBox_get.1 hon.1 i
    have h2 := outside_off (lo := lo) (hi := hi) i up (along s d T) (along s d X)
    rw [hQ.flush, along_get s d T, along_get s d X] at h2
    have h4 : outside lo hi i up (along s d T) ≤ 1 / 2 ^ 38 := by
      unfold outside
      cases up <;> simp only [if_true, Bool.false_eq_true, if_false] <;> linarith
    by_contra hn
    rw [not_le] at hn
    have h5 : sgnOf up * (s.get i + T * d.get i - (s.get i + X * d.get i)) = -(sgnOf up * d.get i * (X - T)) := by ring
    rw [h5] at h2
    have h3 := mul_le_mul_of_nonneg_right hd (show 0 ≤ X - T by norm_num at *; linarith)
    norm_num at *
    linarith
  rw [abs_le]
  constructor <;> linarith

/-- The normal of the side that is seen. -/
theorem box_side {lo hi A Q : Vec ℝ} {i : Fin 3} {up : Bool} (hQ : OnSide lo hi i up Q) {n : Vec ℝ} (hf : FaceNormal lo hi (1 / 2 ^ 26) A n)
    (hA : ∀ j, |A.get j - Q.get j| ≤ 1 / 2 ^ 22) : n = sideNormal i up := by
  obtain ⟨j, u, rfl, hj⟩ := faceNormal_get hf
  have h1 := outside_off (lo := lo) (hi := hi) j u A Q
  have h2 := abs_le.1 (hA j)
  rw [abs_le] at hj
  have h3 : -(1 / 2 ^ 21) ≤ outside lo hi j u Q := by
    unfold sgnOf at h1
    cases u <;> simp only [if_true, Bool.false_eq_true, if_false] at h1 <;> norm_num at * <;> linarith
  by_cases e : j = i
  · subst e
    have h4 := hQ.flush
    have h5 := hQ.thick
    unfold outside at h3 h4
    cases u <;> cases up <;> simp only [if_true, Bool.false_eq_true, if_false] at h3 h4 <;> first | rfl | (exfalso; norm_num at *; linarith)
  · obtain ⟨h4, h5⟩ := hQ.amid j e
    unfold outside at h3
    exfalso
    cases u <;> simp only [if_true, Bool.false_eq_true, if_false] at h3 <;> norm_num at * <;> linarith

theorem round_sign (x : ℝ) (h : x = 0 ∨ x = 1 ∨ x = -1) : roundBits 53 x = x := by
  rcases h with rfl | rfl | rfl
  · exact roundBits_zero 53
  · have := roundBits_exact 53 1 0 (by norm_num) (by norm_num); simpa using this
  · have := roundBits_exact 53 (-1) 0 (by norm_num) (by norm_num); simpa using this

theorem sideNormal_comp (i : Fin 3) (up : Bool) : let n := sideNormal i up
    (n.x = 0 ∨ n.x = 1 ∨ n.x = -1) ∧ (n.y = 0 ∨ n.y = 1 ∨ n.y = -1) ∧ (n.z = 0 ∨ n.z = 1 ∨ n.z = -1) ∧ n.x ^ 2 + n.y ^ 2 + n.z ^ 2 = 1 := by
  fin_cases i <;> cases up <;> simp [sideNormal]

private theorem axis_len {a b c : Flo} {x y z : ℝ} (ha : a.Is x) (hb : b.Is y) (hc : c.Is z) (cx : x = 0 ∨ x = 1 ∨ x = -1)
    (cy : y = 0 ∨ y = 1 ∨ y = -1) (cz : z = 0 ∨ z = 1 ∨ z = -1) (cs : x ^ 2 + y ^ 2 + z ^ 2 = 1) :
    (lit 1 / GoFloat.sqrt (a * a + b * b + c * c)).Is 1 := by
  have sq : ∀ {x : ℝ}, x = 0 ∨ x = 1 ∨ x = -1 → x * x = 0 ∨ x * x = 1 := by
    rintro x (rfl | rfl | rfl) <;> norm_num
  have keep : ∀ {x : ℝ}, x = 0 ∨ x = 1 → roundBits 53 x = x ∧ |x| ≤ 2 ^ 200 := by
    rintro x (rfl | rfl)
    · exact ⟨round_sign 0 (.inl rfl), by norm_num⟩
    · exact ⟨round_sign 1 (.inr (.inl rfl)), by norm_num⟩
  have sm : ∀ {a : Flo} {x : ℝ}, a.Is x → x = 0 ∨ x = 1 ∨ x = -1 → (a * a).Is (x * x) := by
    intro a x ha hc
    obtain ⟨k1, k2⟩ := keep (sq hc)
    have := mul_is ha ha k2
    rwa [k1] at this
  have zo : ∀ {x y z : ℝ}, x = 0 ∨ x = 1 → y = 0 ∨ y = 1 → z = 0 ∨ z = 1 → x + y + z = 1 → x + y = 0 ∨ x + y = 1 := by
    rintro x y z (rfl | rfl) (rfl | rfl) (rfl | rfl) h <;> norm_num at *
  have hs : x * x + y * y + z * z = 1 := by linarith
  obtain ⟨k1, k2⟩ := keep (zo (sq cx) (sq cy) (sq cz) hs)
  have s1 := add_is (sm ha cx) (sm hb cy) k2
  rw [k1] at s1
  obtain ⟨k3, k4⟩ := keep (x := x * x + y * y + z * z) (.inr hs)
  have s2 := add_is s1 (sm hc cz) k4
  rw [k3, hs] at s2
  obtain ⟨k5, k6⟩ := keep (x := 1) (.inr rfl)
  have s3 := sqrt_is s2 (by norm_num) (by norm_num)
  rw [Real.sqrt_one, k5] at s3
  have s4 := div_is flo_lit_one s3 (by norm_num) (by norm_num)
  rwa [div_one, k5] at s4

/-- Unit vectors along an axis are not changed when their length is made one. -/
theorem normalized_axis {v : Vec Flo} {i : Fin 3} {up : Bool} (h : v.FIs (sideNormal i up)) : v.normalized.FIs (sideNormal i up) := by
  obtain ⟨cx, cy, cz, cs⟩ := sideNormal_comp i up
  obtain ⟨hx, hy, hz⟩ := h
  have s4 := axis_len hx hy hz cx cy cz cs
  have fin : ∀ {a : Flo} {x : ℝ}, a.Is x → x = 0 ∨ x = 1 ∨ x = -1 →
      (a * (lit 1 / GoFloat.sqrt (v.x * v.x + v.y * v.y + v.z * v.z))).Is x := by
    intro a x ha hc
    have := mul_is ha s4 (by rw [mul_one]; rcases hc with rfl | rfl | rfl <;> norm_num)
    rwa [mul_one, round_sign _ hc] at this
  exact ⟨fin hx cx, fin hy cy, fin hz cz⟩

private theorem three_dot {a1 a2 a3 b1 b2 b3 : Flo} {x1 x2 x3 y1 y2 y3 w : ℝ} (h1 : a1.Is x1) (h2 : a2.Is x2) (h3 : a3.Is x3) (k1 : b1.Is y1)
    (k2 : b2.Is y2) (k3 : b3.Is y3) (hw : |w| ≤ 4)
    (h : (x1 * y1 = w ∧ x2 * y2 = 0 ∧ x3 * y3 = 0) ∨ (x1 * y1 = 0 ∧ x2 * y2 = w ∧ x3 * y3 = 0) ∨ (x1 * y1 = 0 ∧ x2 * y2 = 0 ∧ x3 * y3 = w)) :
    (a1 * b1 + a2 * b2 + a3 * b3).Is (roundBits 53 w) := by
  have hw' : |w| ≤ 2 ^ 200 := hw.trans (by norm_num)
  have r1 := roundBits_err 53 (by norm_num) w
  have b1 : |roundBits 53 w| ≤ 2 ^ 200 := by
    have r2 := r1.trans (add_le_add (div_le_div_of_nonneg_right hw (by norm_num)) le_rfl)
    have : |roundBits 53 w| ≤ 5 := by
      rw [abs_le] at hw r2 ⊢
      norm_num at hw r2 ⊢
      constructor <;> linarith
    exact this.trans (by norm_num)
  have z : |(0 : ℝ)| ≤ 2 ^ 200 := by norm_num
  have ag : roundBits 53 (roundBits 53 w) = roundBits 53 w := roundBits_again 53 (by norm_num) w
  rcases h with ⟨e1, e2, e3⟩ | ⟨e1, e2, e3⟩ | ⟨e1, e2, e3⟩
  · have m1 := mul_is h1 k1 (by rw [e1]; exact hw')
    have m2 := mul_is h2 k2 (by rw [e2]; exact z)
    have m3 := mul_is h3 k3 (by rw [e3]; exact z)
    rw [e1] at m1
    rw [e2, roundBits_zero] at m2
    rw [e3, roundBits_zero] at m3
    have a1 := add_is m1 m2 (by rw [add_zero]; exact b1)
    rw [add_zero, ag] at a1
    have a2 := add_is a1 m3 (by rw [add_zero]; exact b1)
    rwa [add_zero, ag] at a2
  · have m1 := mul_is h1 k1 (by rw [e1]; exact z)
    have m2 := mul_is h2 k2 (by rw [e2]; exact hw')
    have m3 := mul_is h3 k3 (by rw [e3]; exact z)
    rw [e1, roundBits_zero] at m1
    rw [e2] at m2
    rw [e3, roundBits_zero] at m3
    have a1 := add_is m1 m2 (by rw [zero_add]; exact b1)
    rw [zero_add, ag] at a1
    have a2 := add_is a1 m3 (by rw [add_zero]; exact b1)
    rwa [add_zero, ag] at a2
  · have m1 := mul_is h1 k1 (by rw [e1]; exact z)
    have m2 := mul_is h2 k2 (by rw [e2]; exact z)
    have m3 := mul_is h3 k3 (by rw [e3]; exact hw')
    rw [e1, roundBits_zero] at m1
    rw [e2, roundBits_zero] at m2
    rw [e3] at m3
    have a1 := add_is m1 m2 (by rw [zero_add]; exact z)
    rw [zero_add, roundBits_zero] at a1
    have a2 := add_is a1 m3 (by rw [zero_add]; exact b1)
    rwa [zero_add, ag] at a2

theorem sgn_mul_abs (up : Bool) (x : ℝ) : |sgnOf up * x| = |x| := by
  cases up <;> simp [sgnOf]

/-- The product of a direction and the normal of a side. -/
theorem axis_dot {n δ : Vec Flo} {i : Fin 3} {up : Bool} {d : Vec ℝ} (hn : n.FIs (sideNormal i up)) (hδ : δ.FIs d) (hd : ∀ j, |d.get j| ≤ 2) :
    (n.dot δ).Is (roundBits 53 (sgnOf up * d.get i)) ∧ (δ.dot n).Is (roundBits 53 (sgnOf up * d.get i)) := by
  have hw : |sgnOf up * d.get i| ≤ 4 := by rw [sgn_mul_abs]; linarith [hd i]
  constructor
  · refine three_dot hn.1 hn.2.1 hn.2.2 hδ.1 hδ.2.1 hδ.2.2 hw ?_
    fin_cases i <;> simp [sideNormal, sgnOf, Vec.get]
  · refine three_dot hδ.1 hδ.2.1 hδ.2.2 hn.1 hn.2.1 hn.2.2 hw ?_
    fin_cases i <;> simp [sideNormal, sgnOf, Vec.get, mul_comm]

theorem sideNormal_get (i : Fin 3) (up : Bool) : (sideNormal i up).get i = sgnOf up := by
  fin_cases i <;> simp [sideNormal, sgnOf, Vec.get]

theorem within_get {e : ℝ} {v : Vec ℝ} : Within e v ↔ ∀ i, |v.get i| ≤ e :=
  ⟨fun ⟨a, b, c⟩ i => by fin_cases i; exacts [a, b, c], fun h => ⟨h 0, h 1, h 2⟩⟩

/-- Where the rays to the lamps start. -/
theorem step_axis {r : Ray Flo} {s d : Vec ℝ} (hs : r.start.FIs s) (hd : r.dir.FIs d) (hn : Within 1024 s)
    (hdb : |d.x| ≤ 2 ∧ |d.y| ≤ 2 ∧ |d.z| ≤ 2) {t : Flo} {T : ℝ} (ht : t.Is T) (hT : |T| ≤ 8192) {n : Vec Flo} {i : Fin 3} {up : Bool}
    (hnn : n.FIs (sideNormal i up)) :
    ∃ P : Vec ℝ, ((r.at t).madd tiny n).FIs P ∧ Within (1 / 2 ^ 35) (P.sub (along (along s d T) (sideNormal i up) (1 / (1204 * 1024)))) := by
  have mv : ∀ {a δ b : Flo} {x u v : ℝ}, a.Is x → |x| ≤ 1024 → δ.Is u → |u| ≤ 2 → b.Is v → |v| ≤ 1.01 →
      ∃ w, (a + t * δ + tiny * b).Is w ∧ |w - (x + T * u + 1 / (1204 * 1024) * v)| ≤ 1 / 2 ^ 36 := by
    intro a δ b x u v ha hx hδ hu hb hv
    have h1 := (ht.near hT).mul (1 / 2 ^ 38) 16384 (hδ.near hu)
    have h2 := (ha.near hx).add (1 / 2 ^ 37) 17408 h1
    exact (h2.add (1 / 2 ^ 36) 17410 (Ball.tiny_near.mul (3 / 2 ^ 53) 1.01 (hb.near hv))).1
  have ab : ∀ {x : ℝ}, x = 0 ∨ x = 1 ∨ x = -1 → |x| ≤ 1.01 := by
    rintro x (rfl | rfl | rfl) <;> norm_num
  obtain ⟨cx, cy, cz, -⟩ := sideNormal_comp i up
  obtain ⟨px, ix, ex⟩ := mv hs.1 hn.1 hd.1 hdb.1 hnn.1 (ab cx)
  obtain ⟨py, iy, ey⟩ := mv hs.2.1 hn.2.1 hd.2.1 hdb.2.1 hnn.2.1 (ab cy)
  obtain ⟨pz, iz, ez⟩ := mv hs.2.2 hn.2.2 hd.2.2 hdb.2.2 hnn.2.2 (ab cz)
  exact ⟨⟨px, py, pz⟩, ⟨ix, iy, iz⟩, ex.trans (by norm_num), ey.trans (by norm_num), ez.trans (by norm_num)⟩

/-- **The patch of a side of a box that is seen.** -/
theorem box_patch (m : Option (Mat Flo)) {b : BBox Flo} {r r' : Ray Flo} {s d lo hi : Vec ℝ} (h : LookingAtBox r b s d lo hi) {i : Fin 3} {up : Bool}
    {X : ℝ} (X0 : 1 / 1024 ≤ X) (hQ : OnSide lo hi i up (along s d X)) (hd : sgnOf up * d.get i ≤ -(1 / 2 ^ 13)) (wQ : Within 63 (along s d X))
    {hit : HitRecord Flo (Mat Flo)} (he : (Obj.box b m).intersect r = .ok (hit, r')) :
    (hit.t >. lit 0) = true ∧ flipTowards hit.normal.normalized r.dir = hit.normal.normalized ∧
    ∃ P, Patch ((r.at hit.t).madd tiny hit.normal.normalized) hit.normal.normalized P (sideNormal i up) (along s d X) (sideNormal i up) ∧
      Within 64 P ∧ 1 / 2 ^ 21 ≤ outside lo hi i up P := by
  have hdb : ∀ j, |d.get j| ≤ 2 := fun j => (h.axis j).2.2.2.2.2.2.2.2
  obtain ⟨T, hT, T0, eT⟩ := box_time m h X0 hQ hd he
  have hpos : (hit.t >. lit 0) = true := by
    change (lit 0 <. hit.t) = true
    rw [lt_is Ball.flo_zero hT]
    exact decide_eq_true T0
  obtain ⟨T', n, -, hT', hn, -, hface, -⟩ := C91_normal m b r s d lo hi h hit r' he hpos
  obtain rfl := Bounce.is_inj hT' hT
  have hA : ∀ j, |(along s d T').get j - (along s d X).get j| ≤ 1 / 2 ^ 22 := by
    intro j
    rw [along_get, along_get, show s.get j + T' * d.get j - (s.get j + X * d.get j) = (T' - X) * d.get j by ring, abs_mul]
    exact (mul_le_mul eT (hdb j) (abs_nonneg _) (by norm_num)).trans (by norm_num)
  obtain rfl := box_side hQ hface hA
  have hnn := normalized_axis hn
  have hX1 : X ≤ 4096 := by
    have far : ∀ {p x : ℝ}, |x + p| ≤ 63 → |x| ≤ 1024 → p ^ 2 ≤ 1087 ^ 2 := by
      intro p x h1 h2
      rw [← sq_abs]
      refine pow_le_pow_left₀ (abs_nonneg _) ?_ 2
      rw [abs_le] at *
      constructor <;> linarith
    have h1 := far (p := X * d.x) wQ.1 h.start_le.1
    have h2 := far (p := X * d.y) wQ.2.1 h.start_le.2.1
    have h3 := far (p := X * d.z) wQ.2.2 h.start_le.2.2
    have h4 := mul_le_mul_of_nonneg_left h.long (sq_nonneg X)
    have h5 : X ^ 2 ≤ 4096 ^ 2 := by nlinarith
    exact abs_le_of_sq_le_sq' h5 (by norm_num) |>.2
  have hTb : |T'| ≤ 8192 := by
    rw [abs_of_pos T0]
    have := (abs_le.1 eT).2
    norm_num at *
    linarith
  obtain ⟨P, hP, eP⟩ := step_axis h.start h.dir h.start_le ⟨hdb 0, hdb 1, hdb 2⟩ hT hTb hnn
  refine ⟨hpos, ?_, P, ?_⟩
  · unfold flipTowards
    have hdot := (axis_dot hnn h.dir hdb).1
    have hneg := roundBits_mono 53 (by norm_num) (show sgnOf up * d.get i ≤ 0 by norm_num at *; linarith)
    rw [roundBits_zero] at hneg
    have : (hit.normal.normalized.dot r.dir >. lit 0) = false := by
      change (lit 0 <. hit.normal.normalized.dot r.dir) = false
      rw [lt_is Ball.flo_zero hdot]
      exact decide_eq_false (not_lt.2 hneg)
    rw [this]
    rfl
  obtain ⟨cx, cy, cz, cs⟩ := sideNormal_comp i up
  have hcl : apart P (along s d X) ≤ 1 / 2 ^ 19 := by
    refine step_close (A := along s d T') (n := sideNormal i up) (u := sideNormal i up) eP ?_ cs ?_
    · norm_num [Within, Vec.sub]
    · exact along_apart (s := s) h.short (eT.trans (by norm_num))
  have wP : Within 64 P := by
    have hb := beside_of_apart hcl
    obtain ⟨w1, w2, w3⟩ := wQ
    obtain ⟨b1, b2, b3⟩ := hb
    have key : ∀ {a q : ℝ}, |q| ≤ 63 → |a - q| ≤ 1 / 2 ^ 19 → |a| ≤ 64 := by
      intro a q h1 h2
      rw [abs_le] at *
      norm_num at *
      constructor <;> linarith
    exact ⟨key w1 b1, key w2 b2, key w3 b3⟩
  refine ⟨⟨hP, hnn, ⟨wP.1.trans (by norm_num), wP.2.1.trans (by norm_num), wP.2.2.trans (by norm_num)⟩, hcl, cs, by norm_num, by norm_num, by norm_num⟩,
    wP, ?_⟩
  have h1 := outside_off (lo := lo) (hi := hi) i up P (along s d X)
  rw [hQ.flush] at h1
  have h2 := abs_le.1 (within_get.1 eP i)
  have e2 : (P.sub (along (along s d T') (sideNormal i up) (1 / (1204 * 1024)))).get i =
      P.get i - ((along s d T').get i + 1 / (1204 * 1024) * sgnOf up) := by
    rw [← sideNormal_get i up]
    fin_cases i <;> rfl
  rw [e2] at h2
  have h3 := abs_le.1 (hA i)
  obtain ⟨j, u, ej, hj⟩ := faceNormal_get hface
  have hju : |outside lo hi i up (along s d T')| ≤ 1 / 2 ^ 26 := by
    have : j = i ∧ u = up := by
      rcases i with ⟨_ | _ | _ | i, hi⟩ <;> rcases j with ⟨_ | _ | _ | j, hj⟩ <;> cases u <;> cases up <;> simp [sideNormal] at ej ⊢ <;> first | omega | (norm_num at ej)
    rw [← this.1, ← this.2]
    exact hj
  have h4 := outside_off (lo := lo) (hi := hi) i up P (along s d T')
  have h5 := abs_le.1 hju
  rw [h4]
  unfold sgnOf at h2 ⊢
  cases up <;> simp only [if_true, Bool.false_eq_true, if_false] at h2 ⊢ <;> norm_num at * <;> linarith

/-- **A box does not shade the side that is seen from the lamps.** -/
theorem box_passes (m : Option (Mat Flo)) {b : BBox Flo} {p n pos : Vec Flo} {P Q L v lo hi : Vec ℝ} {g : ℝ} (hw : Way p pos P Q L v g)
    (h : LookingAtBox ⟨p, (pos.sub p).normalized⟩ b P v lo hi) {i : Fin 3} {up : Bool} (hn : n.FIs (sideNormal i up))
    (hout : 1 / 2 ^ 21 ≤ outside lo hi i up P) (hcos : ((pos.sub p).normalized.dot n <=. lit 0) = false) :
    (Obj.box b m).intersect ⟨p, (pos.sub p).normalized⟩ = .ok (HitRecord.miss, ⟨p, (pos.sub p).normalized⟩) := by
  have hvb : ∀ j, |v.get j| ≤ 2 := fun j => (h.axis j).2.2.2.2.2.2.2.2
  have hdot := (axis_dot hn hw.dir hvb).2
  have hv : 0 < sgnOf up * v.get i := by
    by_contra hc
    have hneg := roundBits_mono 53 (by norm_num) (not_lt.1 hc)
    rw [roundBits_zero] at hneg
    have := Ball.le_flo (a := (pos.sub p).normalized.dot n) hdot Ball.flo_zero
    rw [hcos] at this
    have hpos : 0 < roundBits 53 (sgnOf up * v.get i) := by simpa using this.symm
    linarith
  refine C91_missed m b _ P v lo hi h ?_
  rintro T T0 ⟨hin, -⟩
  have h1 := inBox_get.1 hin i
  have h2 := outside_off (lo := lo) (hi := hi) i up (along P v T) P
  rw [along_get, show P.get i + T * v.get i - P.get i = T * v.get i by ring] at h2
  have h3 := mul_pos T0 hv
  have h4 : outside lo hi i up (along P v T) ≤ 1 / 2 ^ 38 := by
    unfold outside
    cases up <;> simp only [if_true, Bool.false_eq_true, if_false] <;> linarith
  have h5 : sgnOf up * (T * v.get i) = T * (sgnOf up * v.get i) := by ring
  rw [h5] at h2
  norm_num at *
  linarith

end BR
