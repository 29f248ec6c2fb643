import Verif.Lemmas.LampShape
import Verif.Props.C96_Floor
import Verif.Props.C99_Lamps

/-! C99: lamps are seen, and light up rooms. -/

namespace BR

set_option linter.unusedSectionVars false

private theorem z0 : (lit 0 : Ext).Is 0 := by simpa using Ext.Is.lit 0
private theorem zt : (tiny : Ext).Is gap := by
  have := Ext.Is.lit (1 / (1204 * 1024))
  simpa [tiny, gap] using this
private theorem big9 : Ext.Is (lit (9 * 10 ^ 99)) (9 * 10 ^ 99) := ⟨false, by rw [Ext.lit_ext]; push_cast; rfl⟩

private theorem miss_none : ((lit 0 : Ext) <. (HitRecord.miss : HitRecord Ext (Mat Ext)).t) = false := by
  simp [HitRecord.miss]

/-- A record that is not before `9e99` and before infinity is at a distance. -/
private theorem ghost_num {t : Ext} (h1 : (lit 0 <. t) = true) (h2 : (t <. GoFloat.inf) = true)
    (h : (lit 0 <. t) = false ∨ (t <. (lit (9 * 10 ^ 99) : Ext)) = false) : ∃ X, t.Is X ∧ 9 * 10 ^ 99 ≤ X := by
  rcases h with h | h
  · rw [h] at h1; cases h1
  · rcases t with _ | s | ⟨x, s⟩
    · simp at h1
    · cases s <;> simp at h1 h2
    · refine ⟨x, ⟨s, rfl⟩, ?_⟩
      have e : (Ext.num x s).Is x := ⟨s, rfl⟩
      rw [e.lt big9, decide_eq_false_iff_not, not_lt] at h
      exact h

/-- **C99, all of space.** -/
theorem present_allSpace {g : Prop} {R : Ray ℝ} {o : Obj Ext (Mat Ext)} {bodies : List Body} (h : PresentsAll g R o bodies) :
    PresentsAll g R (.restrict o .allSpace) bodies := by
  intro r hr
  obtain ⟨hit, e, h⟩ := h r hr
  rw [Obj.intersect, march, e, ok_bind]
  dsimp only
  by_cases hc : (hit.t >. lit 0 && (100 : Nat) != 0 && hit.t <. GoFloat.inf) = true
  · rw [marchLoop, if_pos hc]
    refine ⟨{ hit with t := hit.t + lit 0 }, rfl, ?_⟩
    rcases h with ⟨T, b, hb, h1, h2, h3, h4, h5⟩ | ⟨h1, h2⟩
    · refine .inl ⟨T, b, hb, ?_, h2, h3, h4, h5⟩
      have := h1.add z0
      rwa [add_zero] at this
    · refine .inr ⟨h1, ?_⟩
      simp only [Bool.and_eq_true] at hc
      rcases h2 with h2 | ⟨hg, h2⟩
      · have := hc.1.1
        rw [h2] at this
        cases this
      · obtain ⟨X, hX, hle⟩ := ghost_num hc.1.1 hc.2 (.inr h2)
        refine .inr ⟨hg, ?_⟩
        dsimp only
        rw [(hX.add z0).lt big9, decide_eq_false_iff_not, not_lt, add_zero]
        exact hle
  · rw [marchLoop, if_neg hc]
    refine ⟨HitRecord.miss, rfl, ?_⟩
    rcases h with ⟨T, b, hb, ⟨s, h1⟩, h2, -⟩ | ⟨h1, -⟩
    · refine absurd ?_ hc
      rw [h1]
      simp [h2]
    · exact .inr ⟨h1, .inl miss_none⟩

/-- A disk: the part of a rectangle. -/
private theorem cylinder_all {d : Ext} {D : ℝ} (hd : d.Is D) (hD : 0 ≤ D) {c p : Vec Ext} {C P : Vec ℝ} (hc : c.Is C) (hp : p.Is P) :
    (Obj.cylinder (none : Option (Mat Ext)) d GoFloat.inf c).inside p =
      .ok (decide ((P.x - C.x) ^ 2 + (P.z - C.z) ^ 2 < (D / 2) ^ 2)) := by
  have two : (lit 2 : Ext).Is 2 := by simpa using Ext.Is.lit 2
  have zero : (lit 0 : Ext).Is 0 := by simpa using Ext.Is.lit 0
  have one : (lit 1 : Ext).Is 1 := by simpa using Ext.Is.lit 1
  have hr := hd.div two two_ne_zero
  have hq : ((Obj.cylinderQ (none : Option (Mat Ext)) d GoFloat.inf c).a.mul3 (p.sub c)).dot (p.sub c) |>.Is
      (1 * (P.x - C.x) * (P.x - C.x) + 0 * (P.y - C.y) * (P.y - C.y) + 1 * (P.z - C.z) * (P.z - C.z)) :=
    (((one.mul (hp.1.sub hc.1)).mul (hp.1.sub hc.1)).add ((zero.mul (hp.2.1.sub hc.2.1)).mul (hp.2.1.sub hc.2.1))).add
      ((one.mul (hp.2.2.sub hc.2.2)).mul (hp.2.2.sub hc.2.2))
  simp only [Obj.cylinder, Obj.inside, Quadric.inside]
  have hb : (Obj.cylinderQ (none : Option (Mat Ext)) d GoFloat.inf c).bounds.inside p = decide (|P.x - C.x| < D / 2 + gap ∧
      |P.z - C.z| < D / 2 + gap) := by
    simp only [Obj.cylinderQ, BBox.withMargin, BBox.translated, BBox.inside, Vec.add]
    have t := zt
    have y1 : ((-GoFloat.inf / lit 2 + c.y + -tiny : Ext) <. p.y) = true := by
      obtain ⟨s1, e1⟩ := hc.2.1
      obtain ⟨s2, e2⟩ := hp.2.1
      obtain ⟨s3, e3⟩ := t.neg
      obtain ⟨s4, e4⟩ := two
      rw [e1, e2, e3, e4]
      simp [Ext.sgn]
    have y2 : (p.y <. (GoFloat.inf / lit 2 + c.y + tiny : Ext)) = true := by
      obtain ⟨s1, e1⟩ := hc.2.1
      obtain ⟨s2, e2⟩ := hp.2.1
      obtain ⟨s3, e3⟩ := t
      obtain ⟨s4, e4⟩ := two
      rw [e1, e2, e3, e4]
      simp [Ext.sgn]
    rw [(((hr.neg).add hc.1).add t.neg).lt hp.1, hp.1.lt ((hr.add hc.1).add t), y1, y2,
      (((hr.neg).add hc.2.2).add t.neg).lt hp.2.2, hp.2.2.lt ((hr.add hc.2.2).add t), Bool.eq_iff_iff]
    simp only [Bool.and_eq_true, decide_eq_true_eq, abs_lt]
    constructor
    · rintro ⟨⟨⟨⟨⟨h1, h2⟩, -⟩, -⟩, h5⟩, h6⟩
      refine ⟨⟨?_, ?_⟩, ?_, ?_⟩ <;> linarith
    · rintro ⟨⟨h1, h2⟩, h5, h6⟩
      refine ⟨⟨⟨⟨⟨?_, ?_⟩, trivial⟩, trivial⟩, ?_⟩, ?_⟩ <;> linarith
  have hv : (((Obj.cylinderQ (none : Option (Mat Ext)) d GoFloat.inf c).a.mul3
      (p.sub (Obj.cylinderQ (none : Option (Mat Ext)) d GoFloat.inf c).origin)).dot
      (p.sub (Obj.cylinderQ (none : Option (Mat Ext)) d GoFloat.inf c).origin) <.
      (Obj.cylinderQ (none : Option (Mat Ext)) d GoFloat.inf c).b) =
      decide ((P.x - C.x) ^ 2 + (P.z - C.z) ^ 2 < (D / 2) ^ 2) := by
    have e : (Obj.cylinderQ (none : Option (Mat Ext)) d GoFloat.inf c).origin = c := rfl
    have eb : (Obj.cylinderQ (none : Option (Mat Ext)) d GoFloat.inf c).b = d / lit 2 * (d / lit 2) := rfl
    rw [e, eb, hq.lt (hr.mul hr), Bool.eq_iff_iff, decide_eq_true_eq, decide_eq_true_eq]
    constructor <;> intro h <;> nlinarith
  rw [hb, hv]
  congr 1
  have key : ∀ u : ℝ, u ^ 2 < (D / 2) ^ 2 → |u| < D / 2 := fun u hu => abs_lt_of_sq_lt_sq hu (by positivity)
  by_cases h1 : (P.x - C.x) ^ 2 + (P.z - C.z) ^ 2 < (D / 2) ^ 2
  · have hx := key (P.x - C.x) (by nlinarith [sq_nonneg (P.z - C.z)])
    have hz := key (P.z - C.z) (by nlinarith [sq_nonneg (P.x - C.x)])
    have t0 : (0 : ℝ) < gap := by unfold gap; norm_num
    rw [decide_eq_true (p := _ ∧ _) ⟨by linarith, by linarith⟩]
    simp [h1]
  · simp [h1]

/-- Beyond a rectangle, its restriction to a cylinder reports a miss or something far away. -/
private theorem march_none {o : Obj Ext (Mat Ext)} {on : Vec ℝ → Prop} {inside : Vec Ext → GoM Bool}
    (hin : ∀ p P, p.Is P → ∃ i, inside p = .ok i)
    (hnone : ∀ (R : Ray ℝ), (∀ T > 0, ¬ on (R.at T)) → ∀ r : Ray Ext, r.Is R →
      ∃ hit, o.intersect r = .ok (hit, r) ∧ ((lit 0 <. hit.t) = false ∨ (hit.t <. (lit (9 * 10 ^ 99) : Ext)) = false))
    (start : Vec Ext) (ttl : Nat) : ∀ (tOff : Ext) (X : ℝ), tOff.Is X → 0 ≤ X → ∀ (R : Ray ℝ) (r : Ray Ext), r.Is R →
      (∀ T > 0, ¬ on (R.at T)) → ∀ hit : HitRecord Ext (Mat Ext),
      ((lit 0 <. hit.t) = false ∨ (hit.t <. (lit (9 * 10 ^ 99) : Ext)) = false) →
      ∃ hit', marchLoop o.intersect inside true GoFloat.inf start ttl tOff hit r = .ok (hit', ⟨start, r.dir⟩) ∧
        ((lit 0 <. hit'.t) = false ∨ (hit'.t <. (lit (9 * 10 ^ 99) : Ext)) = false) := by
  induction ttl with
  | zero =>
    intro tOff X _ _ R r _ _ hit _
    rw [marchLoop, if_neg (by simp)]
    exact ⟨HitRecord.miss, rfl, .inl miss_none⟩
  | succ ttl ih =>
    intro tOff X hX h0 R r hr hno hit hh
    by_cases hc : (hit.t >. lit 0 && (ttl + 1) != 0 && hit.t <. GoFloat.inf) = true
    · rw [marchLoop, if_pos hc]
      simp only [Bool.and_eq_true] at hc
      obtain ⟨Y, hY, hle⟩ := ghost_num hc.1.1 hc.2 hh
      obtain ⟨i, hi⟩ := hin _ _ (hr.at hY)
      rw [hi, ok_bind]
      have pos : (0 : ℝ) < 9 * 10 ^ 99 := by norm_num
      have t0 : (0 : ℝ) < gap := by unfold gap; norm_num
      cases i with
      | true =>
        refine ⟨{ hit with t := hit.t + tOff }, rfl, .inr ?_⟩
        dsimp only
        rw [(hY.add hX).lt big9, decide_eq_false_iff_not, not_lt]
        linarith
      | false =>
        have hδ : (hit.t + tiny).Is (Y + gap) := hY.add zt
        have hr' : ({ r with start := r.at (hit.t + tiny) } : Ray Ext).Is ⟨R.at (Y + gap), R.dir⟩ := ⟨hr.at hδ, hr.2⟩
        have hno' : ∀ T > 0, ¬ on ((⟨R.at (Y + gap), R.dir⟩ : Ray ℝ).at T) := by
          intro T hT h
          refine hno (Y + gap + T) (by linarith) ?_
          have : (⟨R.at (Y + gap), R.dir⟩ : Ray ℝ).at T = R.at (Y + gap + T) := by
            simp only [Ray.at, geo]
            refine ⟨?_, ?_, ?_⟩ <;> ring
          rwa [this] at h
        obtain ⟨hit', e', hh'⟩ := hnone _ hno' _ hr'
        simp only [Bool.false_beq, Bool.not_true, Bool.false_eq_true, if_false]
        rw [e', ok_bind]
        exact ih (tOff + (hit.t + tiny)) _ (hX.add hδ) (by linarith) _ _ hr' hno' hit' hh'
    · rw [marchLoop, if_neg hc]
      exact ⟨HitRecord.miss, rfl, .inl miss_none⟩

/-- A horizontal disk of diameter `D` around `C`. -/
noncomputable def diskBody (D : ℝ) (C : Vec ℝ) (look : Vec ℝ → Surface) : Body :=
  (rectBody D D C look).part fun p => (p.x - C.x) ^ 2 + (p.z - C.z) ^ 2 < (D / 2) ^ 2

theorem present_disk (St : Sorter (Obj Ext (Mat Ext))) (m : Mat Ext) (look : Vec ℝ → Surface)
    (hm : ∀ p P, p.Is P → m.Appears p (look P)) (d : Ext) (D : ℝ) (hd : d.Is D) (hD : 0 < D)
    (c : Vec Ext) (C : Vec ℝ) (hc : c.Is C) (o : Obj Ext (Mat Ext)) (eo : rectangle St (some m) d d c = .ok o) (R : Ray ℝ)
    (hR : R.dir ≠ ⟨0, 0, 0⟩) (hclear : ClearOfRect D D C R)
    (hfar : ∀ T, (rectBody D D C look).on (R.at T) → T < 9 * 10 ^ 99) :
    PresentsAll True R (.restrict o (Obj.cylinder none d GoFloat.inf c)) [diskBody D C look] := by
  obtain ⟨o', eo', hrect⟩ := C96_rectangle St m look hm d d D D hd hd hD hD c C hc
  rw [eo] at eo'
  cases eo'
  have hnone := rectangle_none St m look d d D D hd hd hD hD c C hc o eo
  have hin : ∀ p P, p.Is P → ∃ i, (Obj.cylinder (none : Option (Mat Ext)) d GoFloat.inf c).inside p = .ok i :=
    fun p P h => ⟨_, cylinder_all hd hD.le hc h⟩
  intro r hr
  obtain ⟨hit, e, h⟩ := hrect R hR hclear hfar r hr
  rw [Obj.intersect, march, e, ok_bind]
  dsimp only
  have t0 : (0 : ℝ) < gap := by unfold gap; norm_num
  rcases h with ⟨T, b, hb, h1, h2, h3, h4, h5⟩ | ⟨h1, h2⟩
  · rw [List.mem_singleton] at hb
    subst hb
    have hcond : (hit.t >. lit 0 && (100 : Nat) != 0 && hit.t <. GoFloat.inf) = true := by
      obtain ⟨s, hs⟩ := h1
      rw [hs]
      simp [h2]
    rw [marchLoop, if_pos hcond, cylinder_all hd hD.le hc (hr.at h1), ok_bind]
    have hdy : R.dir.y ≠ 0 := by
      intro h0
      have := h3.1
      simp only [Ray.at, Vec.madd, h0] at this
      exact hclear.1 (by linarith)
    have once : ∀ T', (rectBody D D C look).on (R.at T') → T' = T := by
      intro T' h
      have y := h.1
      have y' := h3.1
      simp only [Ray.at, Vec.madd] at y y'
      have : (T' - T) * R.dir.y = 0 := by linarith
      rcases mul_eq_zero.1 this with h | h
      · linarith
      · exact absurd h hdy
    by_cases hr2 : ((R.at T).x - C.x) ^ 2 + ((R.at T).z - C.z) ^ 2 < (D / 2) ^ 2
    · rw [decide_eq_true hr2]
      have h10 := h1.add z0
      rw [add_zero] at h10
      refine ⟨{ hit with t := hit.t + lit 0 }, rfl, .inl ⟨T, _, List.mem_singleton_self _, h10, h2, ⟨h3, hr2⟩, h4, ?_⟩⟩
      intro other ho T' _ h
      rw [List.mem_singleton] at ho
      subst ho
      exact (once T' h.1).ge
    · rw [decide_eq_false hr2]
      have hδ : (hit.t + tiny).Is (T + gap) := h1.add zt
      have hr' : ({ r with start := r.at (hit.t + tiny) } : Ray Ext).Is ⟨R.at (T + gap), R.dir⟩ := ⟨hr.at hδ, hr.2⟩
      have hno' : ∀ T' > 0, ¬ (rectBody D D C look).on ((⟨R.at (T + gap), R.dir⟩ : Ray ℝ).at T') := by
        intro T' hT' h
        have : (⟨R.at (T + gap), R.dir⟩ : Ray ℝ).at T' = R.at (T + gap + T') := by
          simp only [Ray.at, geo]
          refine ⟨?_, ?_, ?_⟩ <;> ring
        rw [this] at h
        have := once _ h
        linarith
      obtain ⟨hit', e', hh'⟩ := hnone _ hno' _ hr'
      simp only [Bool.false_beq, Bool.not_true, Bool.false_eq_true, if_false]
      rw [e', ok_bind]
      obtain ⟨hit'', e'', hh''⟩ := march_none hin hnone r.start 99 (lit 0 + (hit.t + tiny)) _ (z0.add hδ) (by linarith) _ _ hr' hno'
        hit' hh'
      refine ⟨hit'', e'', .inr ⟨?_, hh''.imp id fun h => ⟨trivial, h⟩⟩⟩
      intro b hb T' _ h
      rw [List.mem_singleton] at hb
      subst hb
      have := once T' h.1
      subst this
      exact hr2 h.2
  · obtain ⟨hit', e', hh'⟩ := march_none hin hnone r.start 100 (lit 0) 0 z0 le_rfl R r hr
      (fun T hT => h1 _ (List.mem_singleton_self _) T hT) hit (h2.imp id And.right)
    refine ⟨hit', e', .inr ⟨?_, hh'.imp id fun h => ⟨trivial, h⟩⟩⟩
    intro b hb T hT h
    rw [List.mem_singleton] at hb
    subst hb
    exact h1 _ (List.mem_singleton_self _) T hT h.1


/-! ## Lamps are seen -/

/-- How a lamp looks: bright from below and black from above. -/
def lampLook (B : Color ℝ) : Vec ℝ → Surface := fun _ => .sides (.glow B) (.glow ⟨0, 0, 0⟩)

/-- The size and the centre of a horizontal rectangle. -/
structure Outline where
  w : ℝ
  d : ℝ
  c : Vec ℝ

/-- The light of the program is this lamp, which looks like these bodies and fits in this horizontal rectangle: a point light has
no size; a rectangle light and a disk light do. -/
inductive Shines : Light Ext → Emitter → List Body → Option Outline → Prop
  | point {l : Light Ext} {L : Bulb} : IsBulb l L → Shines l (bulbLamp L) [] none
  | rectangle {Srt : Sorter (Obj Ext (Mat Ext))} {l : Light Ext} {b : Color Ext} {w h : Ext} {c : Vec Ext} {B : Color ℝ} {W H : ℝ}
      {C : Vec ℝ} : Light.rectangleLight Srt b w h c = .ok l → b.Is B → w.Is W → h.Is H → c.Is C → 0 < W → 0 < H →
      Shines l (rectLamp B W H C) [rectBody W H C (lampLook B)] (some ⟨W, H, C⟩)
  | disk {Srt : Sorter (Obj Ext (Mat Ext))} {l : Light Ext} {b : Color Ext} {d : Ext} {c : Vec Ext} {B : Color ℝ} {D : ℝ}
      {C : Vec ℝ} : Light.diskLight Srt b d c = .ok l → b.Is B → d.Is D → c.Is C → 0 < D →
      Shines l (diskLamp B D C) [diskBody D C (lampLook B)] (some ⟨D, D, C⟩)

/-- **C99.** Lamps shine as specified. -/
theorem C99_emits {l : Light Ext} {E : Emitter} {th : List Body} {f : Option Outline} (h : Shines l E th f) : Emits l E := by
  cases h with
  | point h => exact C99_bulb _ _ h
  | rectangle h hb hw hh hc _ _ => exact C99_rectangle _ _ _ _ _ _ h _ _ _ _ hb hw hh hc
  | disk h hb hd hc _ => exact C99_disk _ _ _ _ _ h _ _ _ hb hd hc

private theorem lamp_appears {b : Color Ext} {B : Color ℝ} (hb : b.Is B) (p : Vec Ext) (P : Vec ℝ) :
    Mat.Appears p (.twoSided (.flat b.tex) (.flat (⟨lit 0, lit 0, lit 0⟩ : Color Ext).tex)) (lampLook B P) :=
  .twoSided (.flat rfl hb) (.flat rfl ⟨z0, z0, z0⟩)

/-- **C99.** Lamps are seen: the object of the light presents the lamp along rays on which it is nearer than `9e99`, that do not
start in its plane nor run in a vertical plane through an edge of its frame, or else lead away from its plane. -/
theorem C99_seen {l : Light Ext} {E : Emitter} {th : List Body} {f : Option Outline} (h : Shines l E th f) (R : Ray ℝ)
    (hR : R.dir ≠ ⟨0, 0, 0⟩)
    (hf : ∀ F, f = some F → ClearOfRect F.w F.d F.c R ∧ ∀ T, (rectBody F.w F.d F.c fun _ => .glow ⟨0, 0, 0⟩).on (R.at T) → T < 9 * 10 ^ 99) :
    PresentsAll True R l.object th := by
  cases h with
  | point h =>
    obtain ⟨pos, power, rfl, -⟩ := h
    intro r hr
    exact ⟨HitRecord.miss, rfl, .inr ⟨fun b hb => absurd hb List.not_mem_nil, .inl miss_none⟩⟩
  | rectangle h hb hw hh hc hW hH =>
    obtain ⟨rect, e, h⟩ := bind_eq_ok.1 h
    cases h
    obtain ⟨o, eo, hrect⟩ := C96_rectangle _ _ _ (fun p P _ => lamp_appears hb p P) _ _ _ _ hw hh hW hH _ _ hc
    rw [e] at eo
    cases eo
    obtain ⟨h1, h2⟩ := hf _ rfl
    exact present_allSpace (hrect R hR h1 h2)
  | disk h hb hd hc hD =>
    obtain ⟨rect, e, h⟩ := bind_eq_ok.1 h
    cases h
    obtain ⟨h1, h2⟩ := hf _ rfl
    exact present_disk _ _ _ (fun p P _ => lamp_appears hb p P) _ _ hd hD _ _ hc _ e R hR h1 h2

/-- Bodies of lamps lie in the frame and are bright from below and black from above. -/
theorem lamp_body {l : Light Ext} {E : Emitter} {th : List Body} {f : Option Outline} (h : Shines l E th f) :
    ∀ b ∈ th, (∀ p, ∃ A B, b.look p = .sides (.glow A) (.glow B)) ∧
      ∃ F, f = some F ∧ ∀ p, b.on p → (rectBody F.w F.d F.c fun _ => .glow ⟨0, 0, 0⟩).on p := by
  cases h with
  | point h => intro b hb; cases hb
  | rectangle h hb hw hh hc hW hH =>
    intro b hb
    rw [List.mem_singleton] at hb
    subst hb
    exact ⟨fun p => ⟨_, _, rfl⟩, _, rfl, fun p h => h⟩
  | disk h hb hd hc hD =>
    intro b hb
    rw [List.mem_singleton] at hb
    subst hb
    exact ⟨fun p => ⟨_, _, rfl⟩, _, rfl, fun p h => h.1⟩

/-! ## Scenes with lamps -/

/-- The point is not farther than `2e98` from the origin in any coordinate. -/
private def Near (p : Vec ℝ) : Prop := |p.x| ≤ 2 * 10 ^ 98 ∧ |p.y| ≤ 2 * 10 ^ 98 ∧ |p.z| ≤ 2 * 10 ^ 98

private theorem coord_le' {v : Vec ℝ} {k : ℝ} (hk : 0 ≤ k) (h : v.dot v ≤ k ^ 2) : |v.x| ≤ k ∧ |v.y| ≤ k ∧ |v.z| ≤ k := by
  simp only [Vec.dot] at h
  refine ⟨abs_le_of_sq_le_sq ?_ hk, abs_le_of_sq_le_sq ?_ hk, abs_le_of_sq_le_sq ?_ hk⟩ <;> nlinarith [sq_nonneg v.x, sq_nonneg v.y, sq_nonneg v.z]

private theorem len_lt' {p q : Vec ℝ} (hp : InReach p) (hq : Near q) :
    (p.x - q.x) ^ 2 + (p.y - q.y) ^ 2 + (p.z - q.z) ^ 2 < (10 ^ 99) ^ 2 := by
  have one : ∀ a b : ℝ, |a| ≤ 10 ^ 98 → |b| ≤ 2 * 10 ^ 98 → (a - b) ^ 2 ≤ (3 * 10 ^ 98) ^ 2 := by
    intro a b ha hb
    rw [abs_le] at ha hb
    exact sq_le_sq' (by linarith) (by linarith)
  have h1 := one _ _ hp.1 hq.1
  have h2 := one _ _ hp.2.1 hq.2.1
  have h3 := one _ _ hp.2.2 hq.2.2
  have : ((3 : ℝ) * 10 ^ 98) ^ 2 + (3 * 10 ^ 98) ^ 2 + (3 * 10 ^ 98) ^ 2 < (10 ^ 99) ^ 2 := by norm_num
  linarith

private theorem near_at {R : Ray ℝ} {T : ℝ} (hu : R.dir.dot R.dir = 1) (hs : Near R.start) (hr : InReach (R.at T)) : T < 10 ^ 99 := by
  have h := len_lt' hr hs
  have e : ((R.at T).x - R.start.x) ^ 2 + ((R.at T).y - R.start.y) ^ 2 + ((R.at T).z - R.start.z) ^ 2 = T ^ 2 := by
    simp only [geo, Ray.at] at hu ⊢
    linear_combination T ^ 2 * hu
  rw [e] at h
  exact lt_of_pow_lt_pow_left₀ 2 (by positivity) h

private theorem near_leaves {across : Prop} {P N : Vec ℝ} {R : Ray ℝ} (h : Leaves across P N R) :
    |R.start.x - P.x| ≤ 2 * gap ∧ |R.start.y - P.y| ≤ 2 * gap ∧ |R.start.z - P.z| ≤ 2 * gap :=
  coord_le' (by unfold gap; norm_num) h.2.1

private theorem far_leaves {across : Prop} {P N : Vec ℝ} {R : Ray ℝ} (h : Leaves across P N R) (hr : InReach P) : Near R.start := by
  obtain ⟨c1, c2, c3⟩ := near_leaves h
  obtain ⟨r1, r2, r3⟩ := hr
  have hg1 : 2 * gap ≤ 1 := by unfold gap; norm_num
  have big : (1 : ℝ) ≤ 10 ^ 98 := by norm_num
  rw [abs_le] at c1 c2 c3 r1 r2 r3
  simp only [Near, abs_le]
  refine ⟨⟨?_, ?_⟩, ⟨?_, ?_⟩, ?_, ?_⟩ <;> linarith

/-- A ray that starts close to a point off the planes of a rectangle is clear of it. -/
private theorem clear_of_off {W D : ℝ} {C P : Vec ℝ} {R : Ray ℝ} (h : OffRect (2 * gap) W D C P)
    (hn : |R.start.x - P.x| ≤ 2 * gap ∧ |R.start.y - P.y| ≤ 2 * gap ∧ |R.start.z - P.z| ≤ 2 * gap) : ClearOfRect W D C R := by
  obtain ⟨k2, k3, k4⟩ := h
  obtain ⟨c1, c2, c3⟩ := hn
  have side : ∀ a p c k : ℝ, |a - p| ≤ 2 * gap → 2 * gap < |(|p - c|) - k| → |a - c| ≠ k := by
    intro a p c k h1 h2 h3
    rw [← h3] at h2
    have h4 := abs_abs_sub_abs_le_abs_sub (p - c) (a - c)
    rw [show p - c - (a - c) = -(a - p) by ring, abs_neg] at h4
    linarith
  refine ⟨?_, .inl ⟨fun _ => side _ _ _ _ c1 k3, fun _ => side _ _ _ _ c3 k4⟩⟩
  intro h0
  rw [h0, abs_sub_comm] at c2
  linarith

/-- The rays that can be followed, if `clear n` holds for those that are followed over `n` more surfaces. -/
theorem followed_in {G : Setting} {s : Scene Ext} {col : Vec ℝ → Color ℝ} (hcol : G.sky = some col)
    (hsky : ∃ o ∈ s.objects, IsSky col o) (clear : ℕ → Ray ℝ → Prop)
    (hthings : List.Forall₂ (fun o th => (th = [] ∧ IsSky col o) ∨
      ∀ n R, R.dir.dot R.dir = 1 → clear n R → PresentsAll True R o th) s.objects G.things)
    (hshapes : List.Forall₂ (fun (l : Light Ext) th => ∀ n R, R.dir.dot R.dir = 1 → clear (n + 1) R →
      PresentsAll True R l.object th) s.lights G.shapes)
    (hreach : ∀ b ∈ (G.visible .direct).flatten, ∀ p, b.on p → InReach p)
    (hunit : ∀ b ∈ G.things.flatten, ∀ p, b.on p → (b.normal p).dot (b.normal p) = 1)
    (hglow : ∀ b ∈ G.shapes.flatten, ∀ p, ∃ A B, b.look p = .sides (.glow A) (.glow B))
    (hnear : ∀ n R, clear n R → Near R.start)
    (hleave : ∀ n R, R.dir.dot R.dir = 1 → clear (n + 1) R → ∀ b ∈ G.things.flatten, ∀ T > 0, b.on (R.at T) →
      (∀ b' ∈ (G.visible .direct).flatten, ∀ T' > 0, b'.on (R.at T') → T ≤ T') → ∀ R' : Ray ℝ,
      Leaves (R.dir.dot (b.normal (R.at T)) ≠ 0) (R.at T) (b.normal (R.at T)) R' → clear n R')
    (hlamps : ∀ l ∈ G.lamps, ∀ q ∈ unitSq, InReach (l q).pos ∧
      ∀ b ∈ G.things.flatten, ∀ p, b.on p → gap < length3 ((l q).pos.sub p))
    (n : ℕ) (fld : Field) (R : Ray ℝ) (hu : R.dir.dot R.dir = 1) (hclear : clear n R) : FollowedIn G s n fld R := by
  -- lamps in black are where lamps are
  have mem_dark : ∀ b ∈ (G.visible .indirect).flatten,
      b ∈ G.things.flatten ∨ ∃ b0 ∈ G.shapes.flatten, b = b0.dark := by
    intro b hb
    simp only [Setting.visible, List.flatten_append, List.mem_append, List.mem_flatten, List.mem_map] at hb
    rcases hb with ⟨th, hth, hb⟩ | ⟨th', ⟨th, hth, rfl⟩, hb⟩
    · exact .inl (List.mem_flatten.2 ⟨th, hth, hb⟩)
    · obtain ⟨b0, hb0, rfl⟩ := List.mem_map.1 hb
      exact .inr ⟨b0, List.mem_flatten.2 ⟨th, hth, hb0⟩, rfl⟩
  have mem_direct : ∀ b, b ∈ (G.visible .direct).flatten ↔ b ∈ G.things.flatten ∨ b ∈ G.shapes.flatten := by
    intro b
    simp only [Setting.visible, List.flatten_append, List.mem_append]
  have mem_dark' : ∀ b ∈ G.shapes.flatten, b.dark ∈ (G.visible .indirect).flatten := by
    intro b hb
    obtain ⟨th, hth, hb⟩ := List.mem_flatten.1 hb
    simp only [Setting.visible, List.flatten_append, List.mem_append]
    exact .inr (List.mem_flatten.2 ⟨_, List.mem_map.2 ⟨th, hth, rfl⟩, List.mem_map.2 ⟨b, hb, rfl⟩⟩)
  have reach : ∀ fld, ∀ b ∈ (G.visible fld).flatten, ∀ p, b.on p → InReach p := by
    rintro (_ | _) b hb p hp
    · exact hreach b hb p hp
    · rcases mem_dark b hb with h | ⟨b0, h, rfl⟩
      · exact hreach b ((mem_direct b).2 (.inl h)) p hp
      · exact hreach b0 ((mem_direct b0).2 (.inr h)) p hp
  have standsT : ∀ (g : Prop), g → ∀ n R, R.dir.dot R.dir = 1 → clear n R →
      List.Forall₂ (StandsFor G.sky g R) s.objects G.things := by
    intro g hg n R hu hc
    refine hthings.imp ?_
    rintro o th (⟨rfl, h⟩ | h)
    · exact .inr ⟨rfl, col, hcol, h⟩
    · exact .inl ((h n R hu hc).mono fun _ => hg)
  have stands : ∀ (g : Prop), g → ∀ n R, R.dir.dot R.dir = 1 → clear (n + 1) R → ∀ fld,
      List.Forall₂ (StandsFor G.sky g R) (s.seen fld) (G.visible fld) := by
    intro g hg n R hu hc fld
    have hT := standsT g hg _ R hu hc
    rcases fld with _ | _
    · refine List.rel_append hT ?_
      rw [List.forall₂_map_left_iff]
      exact hshapes.imp fun l th h => .inl ((h n R hu hc).mono fun _ => hg)
    · refine List.rel_append hT ?_
      rw [List.forall₂_map_left_iff, List.forall₂_map_right_iff]
      refine hshapes.imp fun l th h => .inl ?_
      exact C95_coated .black (.glow ⟨0, 0, 0⟩) (fun _ => .black) g l.object th R ((h n R hu hc).mono fun _ => hg)
  have skyIn : ∀ fld, ∃ o ∈ s.seen fld, IsSky col o := by
    obtain ⟨o, ho, h⟩ := hsky
    rintro (_ | _)
    · exact ⟨o, List.mem_append_left _ ho, h⟩
    · exact ⟨o, List.mem_append_left _ ho, h⟩
  induction n generalizing R fld with
  | zero => trivial
  | succ n ih =>
    have hs := hnear _ _ hclear
    refine ⟨stands _ (.inl (by simp [hcol])) n R hu hclear fld, ?_, ?_⟩
    · intro col' e
      rw [hcol] at e
      cases e
      exact ⟨skyIn fld, fun b hb T hT hon => ⟨b, hb, T, hT, near_at hu hs (reach fld b hb _ hon), hon⟩⟩
    · intro b T hmeet
      have hr := reach fld b hmeet.1 _ hmeet.2.1.2.1
      have thing : b ∈ G.things.flatten → CastsIn (fun R' len => List.Forall₂ (StandsFor G.sky (len ≤ 9 * 10 ^ 99) R')
          s.objects G.things ∧ (G.sky ≠ none → len ≤ 10 ^ 99)) (FollowedIn G s n) G.lamps R T (b.normal (R.at T))
          (b.look (R.at T)) := by
        intro hb
        obtain ⟨-, ⟨hT, hon, -⟩, hfirst⟩ := hmeet
        have first : ∀ b' ∈ (G.visible .direct).flatten, ∀ T' > 0, b'.on (R.at T') → T ≤ T' := by
          rcases fld with _ | _
          · exact hfirst
          · intro b' hb' T' hT' h
            rcases (mem_direct b').1 hb' with h' | h'
            · refine hfirst b' ?_ T' hT' h
              simp only [Setting.visible, List.flatten_append, List.mem_append]
              exact .inl h'
            · exact hfirst b'.dark (mem_dark' b' h') T' hT' h
        have hl := hleave n R hu hclear b hb T hT hon first
        refine casts_in_leaving hu (hunit b hb _ hon) ?_ (fun fld R' hR' => ih fld R' hR'.1 (hl R' hR'))
          (fun l hl q hq => (hlamps l hl q hq).2 b hb _ hon) _
        intro l hl' q hq R' hR'
        have hlen : length3 ((l q).pos.sub R'.start) ≤ 10 ^ 99 := by
          have h := len_lt' (hlamps l hl' q hq).1 (far_leaves hR' hr)
          unfold length3
          exact (Real.sqrt_lt' (by positivity)).2 h |>.le
        refine ⟨standsT _ ?_ n R' hR'.1 (hl R' hR'), fun _ => hlen⟩
        have : (10 : ℝ) ^ 99 ≤ 9 * 10 ^ 99 := by norm_num
        linarith
      rcases fld with _ | _
      · rcases (mem_direct b).1 hmeet.1 with hb | hb
        · exact thing hb
        · obtain ⟨A, B, e⟩ := hglow b hb (R.at T)
          rw [e]
          exact ⟨fun _ => trivial, fun _ => trivial⟩
      · rcases mem_dark b hmeet.1 with hb | ⟨b0, -, rfl⟩
        · exact thing hb
        · trivial


/-- A lamp that is put up: the light of the program, how it shines, how it looks, and the rectangle in which it fits. -/
structure Fixture where
  light : Light Ext
  shine : Emitter
  look : List Body
  outline : Option Outline

/-- What `C99_room` asks of a lamp: it is one of the lamps of the program; within reach; its light does not come from places
closer than `gap` to the things. -/
structure Fixture.Fits (l : Fixture) (things : List (List Body)) : Prop where
  lamp : Shines l.light l.shine l.look l.outline
  reach : ∀ F, l.outline = some F → ∀ p, (rectBody F.w F.d F.c fun _ => .glow ⟨0, 0, 0⟩).on p → InReach p
  flash : ∀ q ∈ unitSq, InReach (l.shine q).pos
  apart : ∀ q ∈ unitSq, ∀ b ∈ things.flatten, ∀ p, b.on p → gap < length3 ((l.shine q).pos.sub p)

/-- What there is in a room under a sky with these things and lamps. -/
def roomOf (col : Vec ℝ → Color ℝ) (things : List (List Body)) (lamps : List Fixture) : Setting :=
  ⟨some col, things, lamps.map Fixture.shine, lamps.map Fixture.look⟩

/-- **C99, rooms.** Take a scene of a floor, a sky and things around it as in `C96_picture`, with any number of point, rectangle
and disk lights. If the eye is in none of the planes of the floor and of the lamps, and either light is followed over at most two
surfaces and the things seen in the pixel are off these planes, or all things are, then the ray of the pixel can be followed. -/
theorem C99_room (St : Sorter (Obj Ext (Mat Ext))) (s : Scene Ext)
    (m : Mat Ext) (look : Vec ℝ → Surface) (hm : ∀ p P, p.Is P → m.Appears p (look P)) (wid dep : Ext) (W D : ℝ)
    (hwid : wid.Is W) (hdep : dep.Is D) (hW : 0 < W) (hD : 0 < D) (c : Vec Ext) (C : Vec ℝ) (hc : c.Is C)
    (hreach : ∀ p, (rectBody W D C look).on p → InReach p) (floor : Obj Ext (Mat Ext))
    (hfloor : rectangle St (some m) wid dep c = .ok floor) (col : Vec ℝ → Color ℝ) (hsky : ∃ o ∈ s.objects, IsSky col o)
    (things : List (List Body)) (hobj : List.Forall₂ (AroundFloor W D C look col floor) s.objects things)
    (lamps : List Fixture) (hlights : s.lights = lamps.map Fixture.light) (hfits : ∀ l ∈ lamps, l.Fits things)
    (depth : ℕ) (R : Ray ℝ) (hu : R.dir.dot R.dir = 1) (hnear : InReach R.start) (heye : OffRect 0 W D C R.start)
    (heye' : ∀ l ∈ lamps, ∀ F, l.outline = some F → OffRect 0 F.w F.d F.c R.start)
    (hoff : (depth ≤ 2 ∧ ∀ b ∈ things.flatten, ∀ T, Meets ((roomOf col things lamps).visible .direct).flatten R b T →
        ∀ l ∈ lamps, ∀ F, l.outline = some F → OffRect (2 * gap) F.w F.d F.c (R.at T)) ∨
      ∀ b ∈ things.flatten, ∀ p, b.on p → ∀ l ∈ lamps, ∀ F, l.outline = some F → OffRect (2 * gap) F.w F.d F.c p) :
    FollowedIn (roomOf col things lamps) s depth .direct R := by
  have hg : 0 < gap := by unfold gap; norm_num
  obtain ⟨o, eo, hpres⟩ := C96_rectangle St m look hm wid dep W D hwid hdep hW hD c C hc
  rw [hfloor] at eo
  cases eo
  have big : (10 : ℝ) ^ 98 ≤ 2 * 10 ^ 98 := by norm_num
  have hnear' : Near R.start := ⟨hnear.1.trans big, hnear.2.1.trans big, hnear.2.2.trans big⟩
  have clear0 : ∀ {W D : ℝ} {C : Vec ℝ}, OffRect 0 W D C R.start → ClearOfRect W D C R := by
    rintro W D C ⟨k1, k2, k3⟩
    refine ⟨fun e => ?_, .inl ⟨fun _ e => ?_, fun _ e => ?_⟩⟩
    · rw [e, sub_self, abs_zero] at k1
      exact lt_irrefl _ k1
    · rw [e, sub_self, abs_zero] at k2
      exact lt_irrefl _ k2
    · rw [e, sub_self, abs_zero] at k3
      exact lt_irrefl _ k3
  -- points of things that are met first
  let First : Ray ℝ → Body → ℝ → Prop := fun R b T => b ∈ things.flatten ∧ 0 < T ∧ b.on (R.at T) ∧
    ∀ b' ∈ ((roomOf col things lamps).visible .direct).flatten, ∀ T' > 0, b'.on (R.at T') → T ≤ T'
  let Off : Vec ℝ → Prop := fun p => ∀ l ∈ lamps, ∀ F, l.outline = some F → OffRect (2 * gap) F.w F.d F.c p
  let Good : ℕ → Ray ℝ → Prop := fun n R => ∀ b T, First R b T → n ≤ 1 ∨ Off (R.at T)
  let clear : ℕ → Ray ℝ → Prop := fun n R => n ≤ depth ∧ Near R.start ∧ ClearOfRect W D C R ∧
    (n = 0 ∨ ∀ l ∈ lamps, ∀ F, l.outline = some F → ClearOfRect F.w F.d F.c R) ∧ Good n R
  have mem_direct : ∀ b, b ∈ ((roomOf col things lamps).visible .direct).flatten ↔
      b ∈ things.flatten ∨ ∃ l ∈ lamps, b ∈ l.look := by
    intro b
    simp only [roomOf, Setting.visible, List.flatten_append, List.mem_append]
    refine or_congr Iff.rfl ?_
    constructor
    · intro h
      obtain ⟨th, hth, hb⟩ := List.mem_flatten.1 h
      obtain ⟨l, hl, rfl⟩ := List.mem_map.1 hth
      exact ⟨l, hl, hb⟩
    · rintro ⟨l, hl, hb⟩
      exact List.mem_flatten.2 ⟨_, List.mem_map.2 ⟨l, hl, rfl⟩, hb⟩
  have reach : ∀ b ∈ things.flatten, ∀ p, b.on p → InReach p := by
    intro b hb p hp
    obtain ⟨th, hth, hb⟩ := List.mem_flatten.1 hb
    obtain ⟨o, -, h⟩ := forall₂_right hobj th hth
    rcases h with ⟨-, rfl⟩ | ⟨rfl, -⟩ | ⟨-, h⟩
    · rw [List.mem_singleton] at hb
      subst hb
      exact hreach p hp
    · cases hb
    · exact (h b hb p hp).2.2
  refine followed_in (col := col) rfl hsky clear ?_ ?_ ?_ ?_ ?_ ?_ ?_ ?_ depth .direct R hu ?_
  · refine hobj.imp ?_
    rintro o th (⟨rfl, rfl⟩ | h | ⟨h, -⟩)
    · refine .inr fun n R hu hcl => hpres R ?_ hcl.2.2.1 ?_
      · intro h
        rw [h] at hu
        simp [Vec.dot] at hu
      · intro T hT
        have := near_at hu hcl.2.1 (hreach _ hT)
        linarith
    · exact .inl h
    · exact .inr fun n R hu _ => h R hu
  · rw [hlights, roomOf]
    dsimp only
    rw [List.forall₂_map_left_iff, List.forall₂_map_right_iff, List.forall₂_same]
    intro l hl n R hu hcl
    refine C99_seen (hfits l hl).lamp R ?_ fun F hF => ⟨?_, fun T hT => ?_⟩
    · intro h
      rw [h] at hu
      simp [Vec.dot] at hu
    · rcases hcl.2.2.2.1 with h | h
      · cases h
      · exact h l hl F hF
    · have := near_at hu hcl.2.1 ((hfits l hl).reach F hF _ hT)
      linarith
  · intro b hb p hp
    rcases (mem_direct b).1 hb with h | ⟨l, hl, h⟩
    · exact reach b h p hp
    · obtain ⟨-, F, hF, hin⟩ := lamp_body (hfits l hl).lamp b h
      exact (hfits l hl).reach F hF p (hin p hp)
  · intro b hb p hp
    obtain ⟨th, hth, hb⟩ := List.mem_flatten.1 hb
    obtain ⟨o, -, h⟩ := forall₂_right hobj th hth
    rcases h with ⟨-, rfl⟩ | ⟨rfl, -⟩ | ⟨-, h⟩
    · rw [List.mem_singleton] at hb
      subst hb
      simp [rectBody, Vec.dot]
    · cases hb
    · exact (h b hb p hp).1
  · intro b hb p
    obtain ⟨th, hth, hb⟩ := List.mem_flatten.1 hb
    obtain ⟨l, hl, rfl⟩ := List.mem_map.1 hth
    exact (lamp_body (hfits l hl).lamp b hb).1 p
  · exact fun n R h => h.2.1
  · intro n R hu hcl b hb T hT hon hfirst R' hR'
    obtain ⟨hn, hst, hfl, -, hgood⟩ := hcl
    refine ⟨by omega, far_leaves hR' (reach b hb _ hon), ?_, ?_, ?_⟩
    · obtain ⟨th, hth, hb⟩ := List.mem_flatten.1 hb
      obtain ⟨o, -, h⟩ := forall₂_right hobj th hth
      rcases h with ⟨-, rfl⟩ | ⟨rfl, -⟩ | ⟨-, h⟩
      · rw [List.mem_singleton] at hb
        subst hb
        have hy := hon.1
        have hdy : R.dir.y ≠ 0 := by
          intro h0
          simp only [Ray.at, Vec.madd, h0] at hy
          exact hfl.1 (by linarith)
        obtain ⟨-, -, h3, h4⟩ := hR'
        have e : (R'.start.sub (R.at T)).dot ((rectBody W D C look).normal (R.at T)) = R'.start.y - C.y := by
          rw [← hy]
          simp [rectBody, Vec.dot, Vec.sub]
        have e2 : ∀ v : Vec ℝ, v.dot ((rectBody W D C look).normal (R.at T)) = v.y := by
          intro v; simp [rectBody, Vec.dot]
        rw [e, e2] at h3
        rw [e, e2] at h4
        exact ⟨fun h => h4 hdy (by rw [h, sub_self]), .inr h3⟩
      · cases hb
      · exact clear_of_off (h b hb _ hon).2.1 (near_leaves hR')
    · rcases hgood b T ⟨hb, hT, hon, hfirst⟩ with h | h
      · exact .inl (by omega)
      · exact .inr fun l hl F hF => clear_of_off (h l hl F hF) (near_leaves hR')
    · rintro b' T' ⟨hb', -, hon', -⟩
      rcases hoff with ⟨h2, -⟩ | h
      · exact .inl (by omega)
      · exact .inr (h b' hb' _ hon')
  · intro l hl q hq
    obtain ⟨l, hl', rfl⟩ := List.mem_map.1 hl
    exact ⟨(hfits l hl').flash q hq, (hfits l hl').apart q hq⟩
  · refine ⟨le_rfl, hnear', clear0 heye, .inr fun l hl F hF => clear0 (heye' l hl F hF), ?_⟩
    rintro b T ⟨hb, hT, hon, hfirst⟩
    rcases hoff with ⟨-, h⟩ | h
    · refine .inr (h b hb T ⟨(mem_direct b).2 (.inl hb), ⟨hT, hon, ?_⟩, hfirst⟩)
      intro T' hT' h'
      exact hfirst b ((mem_direct b).2 (.inl hb)) T' hT' h'
    · exact .inr (h b hb _ hon)

end BR
