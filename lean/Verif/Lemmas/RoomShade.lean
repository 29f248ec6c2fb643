import Verif.Lemmas.RoomRay

/-! In double precision: what objects in a room answer, and where light goes on from there. -/

namespace BR.Bounce

theorem is_inj {a : Flo} {x y : ℝ} (hx : a.Is x) (hy : a.Is y) : x = y := by
  have := hx.key.symm.trans hy.key
  rw [Option.some.injEq, EReal.coe_eq_coe_iff] at this
  exact this

theorem fis_inj {a : Vec Flo} {x y : Vec ℝ} (hx : a.FIs x) (hy : a.FIs y) : x = y := by
  have h1 := is_inj hx.1 hy.1
  have h2 := is_inj hx.2.1 hy.2.1
  have h3 := is_inj hx.2.2 hy.2.2
  cases x; cases y; simp_all

theorem not_lost {a : Vec Flo} {x : Vec ℝ} (hx : a.FIs x) (h : LostDir a) : False := by
  have := hx.1.key
  rw [lost_key h.1] at this
  cases this

/-- The landing of a ray on a box. -/
theorem box_answer {lamp : Vec ℝ → Prop} {m : Mat Flo} {b : BBox Flo} {lo hi : Vec ℝ} (hlo : b.min.FIs lo) (hhi : b.max.FIs hi)
    (blo : Within 60 lo) (bhi : Within 60 hi) (ord : lo.x ≤ hi.x ∧ lo.y ≤ hi.y ∧ lo.z ≤ hi.z) (ht : m.Total) (hm : m.Tame)
    (off : ∀ L, lamp L → ¬OnBox lo hi (1 / 1024) L) {r : Ray Flo} (hr : Fair r) :
    ∃ h, (Obj.box b (some m)).intersect r = .ok (h, r) ∧ ((h.t >. lit 0) = true → Answer lamp r h) := by
  obtain ⟨s, hs, ws, hl | ⟨d, hd', h1, h2⟩⟩ := hr
  · refine ⟨HitRecord.miss, by rw [Obj.intersect, box_lost hl]; rfl, fun h => ?_⟩
    rw [miss_t] at h; cases h
  have up : ∀ {v : Vec ℝ} {B : ℝ}, B ≤ 1024 → Within B v → Within 1024 v := fun h hv =>
    ⟨hv.1.trans h, hv.2.1.trans h, hv.2.2.trans h⟩
  have eip : ip d d = d.x ^ 2 + d.y ^ 2 + d.z ^ 2 := by unfold ip; ring
  have hlook : LookingAtBox r b s d lo hi := ⟨hs, hd', hlo, hhi, up (by norm_num) ws, up (by norm_num) blo, up (by norm_num) bhi, ord,
    by rw [← eip]; exact h1, by rw [← eip]; exact h2⟩
  obtain ⟨hit, e⟩ := C91_answers (some m) b r s d lo hi hlook
  refine ⟨hit, e, fun hpos => ?_⟩
  obtain ⟨T, hT, hT0, hon, hmat⟩ := C91_on (some m) b r s d lo hi hlook hit r e hpos
  obtain ⟨T', n, loc, hT', hn, -, hface, -⟩ := C91_normal (some m) b r s d lo hi hlook hit r e hpos
  cases is_inj hT hT'
  have unit : ip n n = 1 := by
    unfold FaceNormal at hface
    rcases hface with h | h | h | h | h | h <;> rw [h.1] <;> norm_num [ip]
  obtain ⟨n', hn', un'⟩ := normalized_ip hn (by rw [unit]; norm_num) (by rw [unit]; norm_num)
  obtain ⟨⟨⟨x1, x2⟩, ⟨y1, y2⟩, ⟨z1, z2⟩⟩, hf⟩ := hon
  have here : Within 60.01 (along s d T) := by
    have key : ∀ {l u p : ℝ}, |l| ≤ 60 → |u| ≤ 60 → l - 1 / 2 ^ 38 ≤ p → p ≤ u + 1 / 2 ^ 38 → |p| ≤ 60.01 := by
      intro l u p h1 h2 h3 h4
      rw [abs_le] at *
      norm_num at h3 h4 ⊢
      constructor <;> linarith [h1.1, h2.2]
    exact ⟨key blo.1 bhi.1 x1 x2, key blo.2.1 bhi.2.1 y1 y2, key blo.2.2 bhi.2.2 z1 z2⟩
  refine ⟨m, hmat, ht, .inr ⟨hm, s, d, T, n', hs, hd', ws, h1, h2, hT, hT0, ?_, hn', un'.trans (by norm_num), here, ?_⟩⟩
  · have key : ∀ {a δ : ℝ}, |a| ≤ 62 → |a + T * δ| ≤ 60.01 → T ^ 2 * (δ * δ) ≤ 123 ^ 2 := by
      intro a δ h1 h2
      have h3 : |T * δ| ≤ 123 := by
        rw [abs_le] at *
        norm_num at h2
        constructor <;> linarith [h1.1, h1.2, h2.1, h2.2]
      have := sq_le_sq' (abs_le.1 h3).1 (abs_le.1 h3).2
      linarith [this, (by ring : (T * δ) ^ 2 = T ^ 2 * (δ * δ))]
    have a1 := key ws.1 here.1
    have a2 := key ws.2.1 here.2.1
    have a3 := key ws.2.2 here.2.2
    have a4 : T ^ 2 * ip d d ≤ 3 * 123 ^ 2 := by unfold ip; linarith
    have a5 : T ^ 2 * (1 / 2) ≤ T ^ 2 * ip d d := mul_le_mul_of_nonneg_left h1 (sq_nonneg T)
    refine le_trans (le_abs_self T) (abs_le_of_sq_le_sq ?_ (by norm_num))
    exact (by linarith : T ^ 2 ≤ 6 * 123 ^ 2).trans (by norm_num)
  · intro L hL
    by_contra hlt
    rw [not_le] at hlt
    refine off L hL ?_
    have hsq : (L.x - (along s d T).x) ^ 2 + (L.y - (along s d T).y) ^ 2 + (L.z - (along s d T).z) ^ 2 ≤ (1 / 1100) ^ 2 := by
      have h0 := Real.sqrt_nonneg ((L.x - (along s d T).x) ^ 2 + (L.y - (along s d T).y) ^ 2 + (L.z - (along s d T).z) ^ 2)
      have := pow_le_pow_left₀ h0 hlt.le 2
      rwa [Real.sq_sqrt (by positivity)] at this
    generalize along s d T = p at *
    have comp : |L.x - p.x| ≤ 1 / 1100 ∧ |L.y - p.y| ≤ 1 / 1100 ∧ |L.z - p.z| ≤ 1 / 1100 := by
      refine ⟨?_, ?_, ?_⟩ <;> refine abs_le_of_sq_le_sq ?_ (by norm_num) <;>
        nlinarith [sq_nonneg (L.x - p.x), sq_nonneg (L.y - p.y), sq_nonneg (L.z - p.z)]
    obtain ⟨cx, cy, cz⟩ := comp
    have near : ∀ {a p c : ℝ}, |a - p| ≤ 1 / 1100 → |p - c| ≤ 1 / 2 ^ 38 → |a - c| ≤ 1 / 1024 := by
      intro a p c h1 h2
      have := abs_sub_le a p c
      norm_num at h1 h2 ⊢
      linarith
    refine ⟨?_, ?_⟩
    · rw [abs_le] at cx cy cz
      norm_num at x1 x2 y1 y2 z1 z2 cx cy cz
      unfold InBox
      norm_num
      refine ⟨⟨?_, ?_⟩, ⟨?_, ?_⟩, ⟨?_, ?_⟩⟩ <;> linarith
    · rcases hf with h | h | h | h | h | h
      · exact .inl (near cx h)
      · exact .inr (.inl (near cx h))
      · exact .inr (.inr (.inl (near cy h)))
      · exact .inr (.inr (.inr (.inl (near cy h))))
      · exact .inr (.inr (.inr (.inr (.inl (near cz h)))))
      · exact .inr (.inr (.inr (.inr (.inr (near cz h)))))

/-- An object gives an answer to all fair rays. -/
def Polite (lamp : Vec ℝ → Prop) (o : Obj Flo (Mat Flo)) : Prop :=
  ∀ r, Fair r → ∃ h, o.intersect r = .ok (h, r) ∧ ((h.t >. lit 0) = true → Answer lamp r h)

theorem _root_.BR.InRoom.polite {lamp : Vec ℝ → Prop} {o : Obj Flo (Mat Flo)} (h : InRoom lamp o) : Polite lamp o := by
  intro r hr
  cases h with
  | ball m diam center c R hc hd hR hx hy hz ht hm off =>
    refine ⟨(Obj.sphereQ (some m) diam center).hit r, by rw [Obj.sphere, Obj.intersect], fun hp => ?_⟩
    rcases ball_answer hc hd hR hx hy hz ht hm off hr with e | e
    · rw [e, miss_t] at hp; cases hp
    · exact e
  | box m b lo hi hlo hhi blo bhi ord ht hm off => exact box_answer hlo hhi blo bhi ord ht hm off hr
  | plain o hs hw =>
    obtain ⟨h, r', e⟩ := Obj.Sturdy.answers o hs r
    cases Obj.intersect_keeps o r h r' e
    refine ⟨h, e, fun hp => ?_⟩
    obtain ⟨m, em, hm⟩ := Obj.Wears.dressed o hw _ _ _ e hp
    exact ⟨m, em, hm.1, .inl hm.2⟩

theorem Polite.black {lamp : Vec ℝ → Prop} {o : Obj Flo (Mat Flo)} (h : Polite lamp o) :
    Polite lamp (.withMaterial (some .black) o) := by
  intro r hr
  obtain ⟨h', e, -⟩ := h r hr
  refine ⟨{ h' with mat := some .black }, ?_, fun _ => ⟨_, rfl, trivial, .inl trivial⟩⟩
  rw [Obj.intersect, e]
  rfl

theorem lamp_polite {lamp : Vec ℝ → Prop} {l : Light Flo} {L : Vec ℝ} (h : LampAt l L) : Polite lamp l.object := by
  obtain ⟨pos, power, rfl, -⟩ := h
  intro r _
  refine ⟨HitRecord.miss, by rw [Light.object, Obj.intersect]; rfl, fun h => ?_⟩
  rw [miss_t] at h; cases h

/-- Where a ray ends. -/
theorem intersectLoop_room {lamp : Vec ℝ → Prop} {os : List (Obj Flo (Mat Flo))} (hos : ∀ o ∈ os, Polite lamp o)
    (front : HitRecord Flo (Mat Flo)) {r : Ray Flo} (hr : Fair r) (hf : Answer lamp r front) :
    ∃ h, intersectLoop os front r = .ok (h, r) ∧ Answer lamp r h := by
  induction os generalizing front with
  | nil => exact ⟨_, rfl, hf⟩
  | cons o os ih =>
    obtain ⟨h, e, ha⟩ := hos o (by simp) r hr
    rw [intersectLoop, e, ok_bind]
    refine ih (fun o ho => hos o (by simp [ho])) _ ?_
    split
    next hc =>
      simp only [Bool.and_eq_true] at hc
      exact ha hc.1
    next => exact hf

/-- What is in the way can be found out. -/
theorem occludeLoop_room {lamp : Vec ℝ → Prop} {os : List (Obj Flo (Mat Flo))} (hos : ∀ o ∈ os, Polite lamp o) (len : Flo)
    (c : Color Flo) {r : Ray Flo} (hr : Fair r) : ∃ c', occludeLoop os len c r = .ok (c', r) := by
  induction os generalizing c with
  | nil => exact ⟨_, rfl⟩
  | cons o os ih =>
    obtain ⟨h, e, ha⟩ := hos o (by simp) r hr
    rw [occludeLoop, e, ok_bind]
    dsimp only
    have ih' := fun c => ih (fun o ho => hos o (by simp [ho])) c
    split
    next hc =>
      simp only [Bool.and_eq_true] at hc
      obtain ⟨m, em, hm, -⟩ := ha hc.1
      rw [em]
      cases m with
      | transparent tex b =>
        obtain ⟨k, ek⟩ := hm h.loc
        simp only [Mat.filter?, ek, ok_bind, pure_ok]
        exact ih' _
      | _ => exact ⟨_, rfl⟩
    next => exact ih' _

/-! ## Where light goes on -/

/-- A ray after `k` reflections. -/
def Sane (k : ℝ) (r : Ray Flo) : Prop := ∃ s, r.start.FIs s ∧ Within 61 s ∧
  (LostDir r.dir ∨ ∃ d, r.dir.FIs d ∧ |ip d d - 1| ≤ (k + 1) / 2 ^ 29)

theorem Sane.fair {k : ℝ} (hk : k ≤ 2 ^ 20) {r : Ray Flo} (h : Sane k r) : Fair r := by
  obtain ⟨s, hs, ws, hd⟩ := h
  have up : ∀ {x : ℝ}, |x| ≤ 61 → |x| ≤ 62 := fun h => h.trans (by norm_num)
  refine ⟨s, hs, ⟨up ws.1, up ws.2.1, up ws.2.2⟩, hd.imp id ?_⟩
  rintro ⟨d, hd, e⟩
  refine ⟨d, hd, ?_⟩
  rw [abs_le] at e
  norm_num at e hk
  constructor <;> linarith [e.1, e.2]

/-- A ray that has landed. -/
structure Landed (lamp : Vec ℝ → Prop) (k : ℝ) (r : Ray Flo) (h : HitCoords Flo) (s d : Vec ℝ) (T : ℝ) (n : Vec ℝ) : Prop where
  nonneg : 0 ≤ k
  few : k ≤ 2 ^ 20
  start : r.start.FIs s
  dir : r.dir.FIs d
  near : Within 61 s
  unit : |ip d d - 1| ≤ (k + 1) / 2 ^ 29
  land : Landing lamp s d h.t h.normal T n

namespace Landed

variable {lamp : Vec ℝ → Prop} {k T : ℝ} {r : Ray Flo} {h : HitCoords Flo} {s d n : Vec ℝ}

theorem small (hl : Landed lamp k r h s d T n) : (k + 1) / 2 ^ 29 ≤ 1 / 4 := by
  have := hl.few
  norm_num at this ⊢
  linarith

theorem wd (hl : Landed lamp k r h s d T n) : Within 1.3 d := within_unit hl.unit hl.small

theorem wn (hl : Landed lamp k r h s d T n) : Within 1.3 n := within_unit hl.land.unit (by norm_num)

/-- Points of the ray near where it lands. -/
theorem near_point (hl : Landed lamp k r h s d T n) {t : Flo} {τ : ℝ} (ht : t.Is τ) (hτ : |τ - T| ≤ 1 / 2 ^ 19) :
    ∃ p, (r.at t).FIs p ∧ Within (1 / 2 ^ 18) (p.sub (along s d T)) ∧ Within 60.02 p := by
  have hT := hl.land.le
  have hT0 := hl.land.pos
  have up : ∀ {x : ℝ}, |x| ≤ 61 → |x| ≤ 62 := fun h => h.trans (by norm_num)
  have up' : ∀ {x : ℝ}, |x| ≤ 1.3 → |x| ≤ 1.5 := fun h => h.trans (by norm_num)
  obtain ⟨p, hp, ep⟩ := at_is hl.start hl.dir ⟨up hl.near.1, up hl.near.2.1, up hl.near.2.2⟩
    ⟨up' hl.wd.1, up' hl.wd.2.1, up' hl.wd.2.2⟩ ht (by
      rw [abs_le] at hτ ⊢
      norm_num at hτ hT ⊢
      constructor <;> linarith [hτ.1, hτ.2])
  have near : Within (1 / 2 ^ 18) (p.sub (along s d T)) := by
    have key : ∀ {x y z : ℝ}, |x - (y + τ * z)| ≤ 1 / 2 ^ 35 → |z| ≤ 1.3 → |x - (y + T * z)| ≤ 1 / 2 ^ 18 := by
      intro x y z h1 h2
      have h3 : |(τ - T) * z| ≤ 1 / 2 ^ 19 * 1.3 := by
        rw [abs_mul]; exact mul_le_mul hτ h2 (abs_nonneg _) (by norm_num)
      have : x - (y + T * z) = (x - (y + τ * z)) + (τ - T) * z := by ring
      rw [this]
      refine (abs_add_le _ _).trans ?_
      exact (add_le_add h1 h3).trans (by norm_num)
    exact ⟨key ep.1 hl.wd.1, key ep.2.1 hl.wd.2.1, key ep.2.2 hl.wd.2.2⟩
  refine ⟨p, hp, near, ?_⟩
  have hw := within_add near hl.land.here
  have up : ∀ {x : ℝ}, |x| ≤ 1 / 2 ^ 18 + 60.01 → |x| ≤ 60.02 := fun h => h.trans (by norm_num)
  exact ⟨up hw.1, up hw.2.1, up hw.2.2⟩

theorem forth (hl : Landed lamp k r h s d T n) : ∃ τ, (h.t + tiny).Is τ ∧ |τ - T| ≤ 1 / 2 ^ 19 := by
  have hb : |T| ≤ 2 ^ 14 := by rw [abs_of_pos hl.land.pos]; exact hl.land.le
  obtain ⟨τ, hτ, e⟩ := ((hl.land.t.near hb).add (1 / 2 ^ 38) (2 ^ 15) Ball.tiny_near).1
  refine ⟨τ, hτ, ?_⟩
  rw [abs_le] at e ⊢
  norm_num at e ⊢
  constructor <;> linarith [e.1, e.2]

theorem back (hl : Landed lamp k r h s d T n) : ∃ τ, (h.t - tiny).Is τ ∧ |τ - T| ≤ 1 / 2 ^ 19 := by
  have hb : |T| ≤ 2 ^ 14 := by rw [abs_of_pos hl.land.pos]; exact hl.land.le
  obtain ⟨τ, hτ, e⟩ := ((hl.land.t.near hb).sub (1 / 2 ^ 38) (2 ^ 15) Ball.tiny_near).1
  refine ⟨τ, hτ, ?_⟩
  rw [abs_le] at e ⊢
  norm_num at e ⊢
  constructor <;> linarith [e.1, e.2]

theorem near61 {p : Vec ℝ} (h : Within 60.02 p) : Within 61 p := by
  have up : ∀ {x : ℝ}, |x| ≤ 60.02 → |x| ≤ 61 := fun h => h.trans (by norm_num)
  exact ⟨up h.1, up h.2.1, up h.2.2⟩

/-- A ray that goes on in a new direction. -/
theorem sane_at (hl : Landed lamp k r h s d T n) {t : Flo} {τ : ℝ} (ht : t.Is τ) (hτ : |τ - T| ≤ 1 / 2 ^ 19) {w' : Vec Flo}
    {w : Vec ℝ} (hw : w'.FIs w) (uw : |ip w w - 1| ≤ (k + 1) / 2 ^ 29 + 1 / 2 ^ 30) : Sane (k + 1) ⟨r.at t, w'⟩ := by
  obtain ⟨p, hp, -, wp⟩ := hl.near_point ht hτ
  refine ⟨p, hp, near61 wp, .inr ⟨w, hw, uw.trans ?_⟩⟩
  norm_num
  linarith

theorem through (hl : Landed lamp k r h s d T n) : Sane (k + 1) ⟨r.at (h.t + tiny), r.dir⟩ := by
  obtain ⟨τ, hτ, e⟩ := hl.forth
  exact hl.sane_at hτ e hl.dir (hl.unit.trans (by norm_num))

theorem mirrored (hl : Landed lamp k r h s d T n) : Sane (k + 1) ⟨r.at (h.t - tiny), reflect r.dir h.normal⟩ := by
  obtain ⟨τ, hτ, e⟩ := hl.back
  obtain ⟨w, hw, uw⟩ := reflect_is hl.dir hl.land.normal hl.unit hl.small (hl.land.unit.trans (by norm_num))
  exact hl.sane_at hτ e hw (uw.trans (by norm_num))

/-- The normal on the side of the viewer. -/
theorem facing (hl : Landed lamp k r h s d T n) : ∃ m, (flipTowards h.normal r.dir).FIs m ∧ |ip m m - 1| ≤ 1 / 2 ^ 40 := by
  unfold flipTowards
  split
  · obtain ⟨m, hm, um⟩ := turned_is hl.land.normal hl.land.unit (by norm_num)
    exact ⟨m, hm, um.trans (by norm_num)⟩
  · exact ⟨n, hl.land.normal, hl.land.unit.trans (by norm_num)⟩

/-- A point just off the surface. -/
theorem off_surface (hl : Landed lamp k r h s d T n) :
    ∃ p, ((r.at h.t).madd tiny (flipTowards h.normal r.dir)).FIs p ∧ Within (1 / 2 ^ 17) (p.sub (along s d T)) ∧ Within 60.03 p := by
  obtain ⟨m, hm, um⟩ := hl.facing
  obtain ⟨q, hq, eq, wq⟩ := hl.near_point hl.land.t (by norm_num)
  have up : ∀ {x : ℝ}, |x| ≤ 60.02 → |x| ≤ 62 := fun h => h.trans (by norm_num)
  obtain ⟨p, hp, ep⟩ := step_is hq hm ⟨up wq.1, up wq.2.1, up wq.2.2⟩ (within_unit um (by norm_num))
  have near : Within (1 / 2 ^ 17) (p.sub (along s d T)) := by
    have key : ∀ {x y z : ℝ}, |x - y| ≤ 1 / 2 ^ 19 → |y - z| ≤ 1 / 2 ^ 18 → |x - z| ≤ 1 / 2 ^ 17 := fun h1 h2 =>
      (abs_sub_le _ _ _).trans ((add_le_add h1 h2).trans (by norm_num))
    exact ⟨key ep.1 eq.1, key ep.2.1 eq.2.1, key ep.2.2 eq.2.2⟩
  refine ⟨p, hp, near, ?_⟩
  have hw := within_add near hl.land.here
  have up : ∀ {x : ℝ}, |x| ≤ 1 / 2 ^ 17 + 60.01 → |x| ≤ 60.03 := fun h => h.trans (by norm_num)
  exact ⟨up hw.1, up hw.2.1, up hw.2.2⟩

theorem bounced (hl : Landed lamp k r h s d T n) (u v : Flo) :
    Sane (k + 1) ⟨((r.at h.t).madd tiny (flipTowards h.normal r.dir)).madd tiny (flipTowards h.normal r.dir),
      cosineSphere u v (flipTowards h.normal r.dir)⟩ := by
  obtain ⟨m, hm, um⟩ := hl.facing
  obtain ⟨q, hq, -, wq⟩ := hl.off_surface
  have up : ∀ {x : ℝ}, |x| ≤ 60.03 → |x| ≤ 62 := fun h => h.trans (by norm_num)
  obtain ⟨p, hp, ep⟩ := step_is hq hm ⟨up wq.1, up wq.2.1, up wq.2.2⟩ (within_unit um (by norm_num))
  have hw := within_add ep wq
  have up : ∀ {x : ℝ}, |x| ≤ 1 / 2 ^ 19 + 60.03 → |x| ≤ 61 := fun h => h.trans (by norm_num)
  refine ⟨p, hp, ⟨up hw.1, up hw.2.1, up hw.2.2⟩, ?_⟩
  rcases bounce_dir hm um u v with hL | ⟨w, hw, uw⟩
  · exact .inl hL
  · refine .inr ⟨w, hw, uw.trans ?_⟩
    have := hl.nonneg
    norm_num
    linarith

/-- The ray to a lamp. -/
theorem towards (hl : Landed lamp k r h s d T n) {pos : Vec Flo} {L : Vec ℝ} (hpos : pos.FIs L) (wL : Within 1024 L) (hL : lamp L) :
    Fair ⟨(r.at h.t).madd tiny (flipTowards h.normal r.dir),
      (pos.sub ((r.at h.t).madd tiny (flipTowards h.normal r.dir))).normalized⟩ := by
  obtain ⟨p, hp, ep, wp⟩ := hl.off_surface
  have hfar := hl.land.off L hL
  have hclose : apart p (along s d T) ≤ 1 / 2 ^ 16 := by
    unfold apart
    refine Real.sqrt_le_iff.2 ⟨by norm_num, ?_⟩
    have sqb : ∀ {x : ℝ}, |x| ≤ 1 / 2 ^ 17 → x ^ 2 ≤ (1 / 2 ^ 17) ^ 2 := fun h => sq_le_sq' (abs_le.1 h).1 (abs_le.1 h).2
    have h1 := sqb ep.1
    have h2 := sqb ep.2.1
    have h3 := sqb ep.2.2
    simp only [Vec.sub] at h1 h2 h3
    norm_num at h1 h2 h3 ⊢
    linarith
  have hd : 1 / 1200 ≤ apart L p := by
    have h1 := apart_tri L (along s d T) p
    have sym : apart (along s d T) p = apart p (along s d T) := by unfold apart; congr 1; ring
    have h2 := apart_tri (along s d T) p L
    have s1 : apart (along s d T) L = apart L (along s d T) := by unfold apart; congr 1; ring
    have s2 : apart p L = apart L p := by unfold apart; congr 1; ring
    rw [s1, s2, sym, abs_le] at h2
    norm_num at hclose hfar ⊢
    linarith [h2.1, h2.2]
  have hbig : 1 / 2 ^ 23 ≤ (L.x - p.x) ^ 2 + (L.y - p.y) ^ 2 + (L.z - p.z) ^ 2 := by
    have := pow_le_pow_left₀ (by norm_num) hd 2
    unfold apart at this
    rw [Real.sq_sqrt (by positivity)] at this
    exact le_trans (by norm_num) this
  have up : ∀ {x : ℝ}, |x| ≤ 60.03 → |x| ≤ 130 := fun h => h.trans (by norm_num)
  obtain ⟨w, hw, w1, w2⟩ := Ball.delta_is hpos hp wL ⟨up wp.1, up wp.2.1, up wp.2.2⟩ hbig
  obtain ⟨l, hl', ul⟩ := normalized_ip hw (by unfold ip; norm_num at w1 ⊢; linarith) (by unfold ip; norm_num at w2 ⊢; linarith)
  have up : ∀ {x : ℝ}, |x| ≤ 60.03 → |x| ≤ 62 := fun h => h.trans (by norm_num)
  refine ⟨p, hp, ⟨up wp.1, up wp.2.1, up wp.2.2⟩, .inr ⟨l, hl', ?_⟩⟩
  rw [abs_le] at ul
  norm_num at ul
  constructor <;> linarith [ul.1, ul.2]

/-- Light that is refracted. -/
theorem refracted (hl : Landed lamp k r h s d T n) {n1 n2 : Flo} (hn : (Mat.refractive n1 n2).Tame) {m i : Vec Flo}
    {m1 m2 cosi sin2t : Flo} (eg : refractGeom n1 n2 r.dir h.normal = (m, i, m1, m2, cosi, sin2t)) (hs : (sin2t >. lit 1) = false) :
    Sane (k + 1) ⟨r.at (h.t + tiny), refractDir (m1 / m2) cosi sin2t i m⟩ ∧ Sane (k + 1) ⟨r.at (h.t - tiny), reflect i m⟩ := by
  obtain ⟨x, y, hx, hy, x1, x2, y1, y2⟩ := hn
  have hsm := hl.small
  have hsm' := hl.nonneg
  obtain ⟨j, hj, uj⟩ := normalized_ip hl.dir (by
    have := (abs_le.1 hl.unit).1; norm_num at this hsm ⊢; linarith) (by have := (abs_le.1 hl.unit).2; norm_num at this hsm ⊢; linarith)
  obtain ⟨q, hq, uq⟩ := normalized_ip hl.land.normal (by
    have := (abs_le.1 hl.land.unit).1; norm_num at this ⊢; linarith) (by have := (abs_le.1 hl.land.unit).2; norm_num at this ⊢; linarith)
  obtain ⟨τ, hτ, eτ⟩ := hl.forth
  obtain ⟨σ, hσ, eσ⟩ := hl.back
  have fin : ∀ {m' : Vec Flo} {μ : Vec ℝ} {a b : Flo} {x y : ℝ}, m'.FIs μ → |ip μ μ - 1| ≤ 1 / 2 ^ 43 → a.Is x → b.Is y → 1 / 4 ≤ x → x ≤ 4 →
      1 / 4 ≤ y → y ≤ 4 → m = m' → i = r.dir.normalized → m1 = a → m2 = b → cosi = -i.dot m →
      sin2t = m1 / m2 * (m1 / m2) * (lit 1 - cosi * cosi) →
      Sane (k + 1) ⟨r.at (h.t + tiny), refractDir (m1 / m2) cosi sin2t i m⟩ ∧ Sane (k + 1) ⟨r.at (h.t - tiny), reflect i m⟩ := by
    intro m' μ a b x y hμ uμ ha hb x1 x2 y1 y2 e1 e2 e3 e4 e5 e6
    subst e1 e2 e3 e4
    obtain ⟨w, hw, uw⟩ := refract_is hj hμ (uj.trans (by norm_num)) uμ ha hb ⟨x1, x2⟩ ⟨y1, y2⟩ e5 e6 hs
    obtain ⟨v, hv, uv⟩ := reflect_is hj hμ uj (by norm_num) (uμ.trans (by norm_num))
    exact ⟨hl.sane_at hτ eτ hw (uw.trans (by norm_num; linarith)), hl.sane_at hσ eσ hv (uv.trans (by norm_num; linarith))⟩
  unfold refractGeom at eg
  dsimp only at eg
  split at eg
  · obtain ⟨μ, hμ, uμ⟩ := turned_is hq uq (by norm_num)
    simp only [Prod.mk.injEq] at eg
    obtain ⟨e1, e2, e3, e4, e5, e6⟩ := eg
    refine fin hμ (uμ.trans (by norm_num)) hy hx y1 y2 x1 x2 e1.symm e2.symm e3.symm e4.symm ?_ ?_
    · rw [← e1, ← e2, ← e5]
    · rw [← e3, ← e4, ← e5, ← e6]
  · simp only [Prod.mk.injEq] at eg
    obtain ⟨e1, e2, e3, e4, e5, e6⟩ := eg
    refine fin hq (uq.trans (by norm_num)) hx hy x1 x2 y1 y2 e1.symm e2.symm e3.symm e4.symm ?_ ?_
    · rw [← e1, ← e2, ← e5]
    · rw [← e3, ← e4, ← e5, ← e6]

end Landed

end BR.Bounce
