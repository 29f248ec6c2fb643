import Verif.Props.C86_BallHit
import Verif.Lemmas.Scene

/-! C87: in double precision, a matte ball does not cast a shadow on itself where it faces the lamp. -/

namespace BR

variable {S : Type}

open Ball

theorem LampOff.clear {c : Vec ℝ} {R : ℝ} {pos : Vec Flo} (h : LampOff c R pos) (hR : 0 ≤ R) : ∃ L, Clear c R pos L := by
  obtain ⟨L, h1, h2, h3⟩ := h
  refine ⟨L, h1, h2, ?_⟩
  rw [← apart_sq]
  exact pow_le_pow_left₀ (by positivity) h3 2

/-- The shadow loop does not notice an object that the ray misses. -/
theorem occludeLoop_skip (before after : List (Obj Flo (Mat Flo))) (o : Obj Flo (Mat Flo)) (len : Flo) (r : Ray Flo)
    (hmiss : o.intersect r = .ok (HitRecord.miss, r)) (orig : Color Flo) :
    occludeLoop (before ++ o :: after) len orig r = occludeLoop (before ++ after) len orig r := by
  have h0 : ((lit 0 : Flo) >. lit 0) = false := by
    rw [show ((lit 0 : Flo) >. lit 0) = (lit 0 <. lit 0) from rfl, Flo.lt_is flo_zero flo_zero]
    simp
  induction before generalizing orig with
  | nil =>
    rw [List.nil_append, List.nil_append, occludeLoop, hmiss, ok_bind]
    simp [HitRecord.miss, h0]
  | cons b bs ih =>
    rw [List.cons_append, List.cons_append, occludeLoop, occludeLoop]
    cases e : b.intersect r with
    | error p => rfl
    | ok q =>
      obtain ⟨f, r1⟩ := q
      obtain rfl := b.intersect_keeps r f r1 e
      rw [ok_bind, ok_bind]
      dsimp only
      split
      · cases Mat.filter? f.mat with
        | none => rfl
        | some flt =>
          dsimp only
          cases flt f.loc orig with
          | error p => rfl
          | ok c => rw [ok_bind, ok_bind]; exact ih c
      · exact ih orig

/-- The loop over the lamps does not notice the ball. -/
theorem directLoop_skip (rng : Rng Flo S) (before after : List (Obj Flo (Mat Flo))) (o : Obj Flo (Mat Flo)) (p n : Vec Flo)
    (good : Vec Flo → Prop)
    (hmiss : ∀ pos, good pos → ((pos.sub p).normalized.dot n <=. lit 0) = false →
      o.intersect ⟨p, (pos.sub p).normalized⟩ = .ok (HitRecord.miss, ⟨p, (pos.sub p).normalized⟩))
    (ls : List (Light Flo)) (hl : ∀ l ∈ ls, ∀ target ctx pos c ctx', l.sample rng target ctx = .ok ((pos, c), ctx') → good pos)
    (acc : Color Flo) (ctx : Ctx Flo S) :
    directLoop rng (fun r len orig => occludeLoop (before ++ o :: after) len orig r) p n ls acc ctx =
      directLoop rng (fun r len orig => occludeLoop (before ++ after) len orig r) p n ls acc ctx := by
  induction ls generalizing acc ctx with
  | nil => rfl
  | cons l ls ih =>
    have ih' := fun acc ctx => ih (fun l' h' => hl l' (List.mem_cons_of_mem _ h')) acc ctx
    rw [directLoop, directLoop]
    cases e : l.sample rng p ctx with
    | error q => rfl
    | ok q =>
      obtain ⟨⟨pos, c⟩, ctx1⟩ := q
      rw [ok_bind, ok_bind]
      dsimp only
      split
      · exact ih' _ _
      · split
        · exact ih' _ _
        · rename_i hcos
          rw [occludeLoop_skip _ _ _ _ _ (hmiss pos (hl l (List.mem_cons_self ..) _ _ _ _ _ e) (by simpa using hcos))]
          cases occludeLoop (before ++ after) (pos.sub p).len c ⟨p, (pos.sub p).normalized⟩ with
          | error q => rfl
          | ok q => rw [ok_bind, ok_bind]; exact ih' _ _

/-- **C87.** Take any scene with a ball in it, of radius from 1/32 to 64, and lamps that always lie clear of that ball. A
ray meets the ball, and the normal computed there faces the viewer. Then the matte material, shading that point, gives the
very colour it would give if the ball were left out of the shadow test: whatever other objects are there, the ball does
not shadow itself, to the last bit. -/
theorem C87_shade (rng : Rng Flo S) (s : Scene Flo) (lf : LF Flo S) (tex : Tex Flo) (m : Option (Mat Flo)) (diam : Flo)
    (center : Vec Flo) (before after : List (Obj Flo (Mat Flo)))
    (hobj : s.objects = before ++ Obj.sphere m diam center :: after) (r : Ray Flo) (o d c : Vec ℝ) (R : ℝ)
    (h : Looking r diam center o d c R) (hR : 1 / 32 ≤ R)
    (hlamp : ∀ l ∈ s.lights, ∀ target ctx pos col ctx', l.sample rng target ctx = .ok ((pos, col), ctx') → LampOff c R pos)
    (hit : HitRecord Flo (Mat Flo)) (r' : Ray Flo) (he : (Obj.sphere m diam center).intersect r = .ok (hit, r'))
    (hpos : (hit.t >. lit 0) = true) (hface : (hit.normal.normalized.dot r.dir >. lit 0) = false) (ctx : Ctx Flo S) :
    shadeMatte rng s lf tex r ⟨hit.t, hit.normal.normalized, hit.loc⟩ ctx =
      shadeMatte rng ⟨s.lights, before ++ after, s.media, s.recursionDepth⟩ lf tex r
        ⟨hit.t, hit.normal.normalized, hit.loc⟩ ctx := by
  have he' : hit = (Obj.sphereQ m diam center).hit r := by
    have : (Obj.sphere m diam center).intersect r = .ok ((Obj.sphereQ m diam center).hit r, r) := rfl
    rw [this] at he
    cases he
    rfl
  rcases hit_sound (m := m) h.sized with e | ⟨t, T, ht, hT0, hT1, hx, e⟩
  · rw [he', e] at hpos
    have : ((lit 0 : Flo) <. lit 0) = true := hpos
    rw [Flo.lt_is flo_zero flo_zero] at this
    simp at this
  · rw [e] at he'
    obtain ⟨a, ν, n, κ, g, p, hl, hn, ha, hν, -, hp, hw⟩ := leaving h.sized hR h.start_le h.center_le ht hT0 hT1 hx he'
    have htt : hit.t = t := by rw [he']; rfl
    have hflip : flipTowards hit.normal.normalized r.dir = hit.normal.normalized := by
      unfold flipTowards
      rw [hface]; rfl
    unfold shadeMatte
    dsimp only
    rw [hflip, htt]
    have key := fun acc (ctx : Ctx Flo S) => directLoop_skip rng before after (Obj.sphere m diam center)
      ((r.at t).madd tiny hit.normal.normalized) hit.normal.normalized (LampOff c R) (by
        intro pos hgood hcos
        obtain ⟨L, hL⟩ := hgood.clear h.radius_nonneg
        have := shadow_misses (m := m) h.center h.center_le h.diam hl hn hp hw hL hcos
        change Except.ok ((Obj.sphereQ m diam center).hit _, _) = _
        rw [this]) s.lights hlamp acc ctx
    have e1 : s.occlude = fun r len orig => occludeLoop (before ++ Obj.sphere m diam center :: after) len orig r := by
      funext r len orig
      rw [Scene.occlude, hobj]
    have e2 : (⟨s.lights, before ++ after, s.media, s.recursionDepth⟩ : Scene Flo).occlude =
        fun r len orig => occludeLoop (before ++ after) len orig r := rfl
    rw [e1, e2, key]

/-- **C87, lamps.** A point lamp clear of the ball meets the condition of `C87_shade`. -/
theorem C87_lamp (rng : Rng Flo S) (c : Vec ℝ) (R : ℝ) (pos : Vec Flo) (power : Color Flo) (h : LampOff c R pos) (target : Vec Flo)
    (ctx : Ctx Flo S) (q : Vec Flo) (col : Color Flo) (ctx' : Ctx Flo S)
    (e : (Light.point pos power).sample rng target ctx = .ok ((q, col), ctx')) : LampOff c R q := by
  cases e
  exact h

theorem faces_num {R κ g A : ℝ} {a ν n d : Vec ℝ} (hl : Leaving R a ν n κ g) (hd : |d.x| ≤ 3 / 2 ∧ |d.y| ≤ 3 / 2 ∧ |d.z| ≤ 3 / 2)
    (hA : A = a.x * d.x + a.y * d.y + a.z * d.z) (hneg : A ≤ -(1 / 64)) :
    n.x * d.x + n.y * d.y + n.z * d.z ≤ -(1 / 2 ^ 20) := by
  have h1 := (abs_le.1 (dot_le (a := ⟨n.x - κ * ν.x, n.y - κ * ν.y, n.z - κ * ν.z⟩) hl.par hd)).2
  have h2 := (abs_le.1 (dot_le (a := ⟨ν.x - a.x, ν.y - a.y, ν.z - a.z⟩) hl.close hd)).2
  simp only at h1 h2
  obtain ⟨k1, k2⟩ := hl.κlen
  have e : n.x * d.x + n.y * d.y + n.z * d.z = ((n.x - κ * ν.x) * d.x + (n.y - κ * ν.y) * d.y + (n.z - κ * ν.z) * d.z) +
      κ * (((ν.x - a.x) * d.x + (ν.y - a.y) * d.y + (ν.z - a.z) * d.z) + A) := by rw [hA]; ring
  generalize (n.x - κ * ν.x) * d.x + (n.y - κ * ν.y) * d.y + (n.z - κ * ν.z) * d.z = u at *
  generalize (ν.x - a.x) * d.x + (ν.y - a.y) * d.y + (ν.z - a.z) * d.z = v at *
  have h3 : v + A ≤ -(1 / 128) := by norm_num at *; linarith
  have h4 : κ * (v + A) ≤ 1 / 70 * -(1 / 128) := by
    have := mul_le_mul k1 (le_neg.1 h3) (by norm_num) (by linarith)
    linarith
  rw [e]
  norm_num at *
  linarith

/-- A product clearly below zero is computed as below zero. -/
theorem dot_neg {l' n' : Vec Flo} {l n : Vec ℝ} (hl : l'.FIs l) (hn : n'.FIs n) (lb : |l.x| ≤ 3 / 2 ∧ |l.y| ≤ 3 / 2 ∧ |l.z| ≤ 3 / 2)
    (nb : |n.x| ≤ 1.01 ∧ |n.y| ≤ 1.01 ∧ |n.z| ≤ 1.01) (hneg : n.x * l.x + n.y * l.y + n.z * l.z ≤ -(1 / 2 ^ 20)) :
    (n'.dot l' >. lit 0) = false := by
  have t1 := (hn.1.near nb.1).mul (2 / 2 ^ 53) 2 (hl.1.near lb.1)
  have t2 := (hn.2.1.near nb.2.1).mul (2 / 2 ^ 53) 2 (hl.2.1.near lb.2.1)
  have t3 := (hn.2.2.near nb.2.2).mul (2 / 2 ^ 53) 2 (hl.2.2.near lb.2.2)
  obtain ⟨⟨θ, hθ, eθ⟩, -⟩ := (t1.add (10 / 2 ^ 53) 4 t2).add (1 / 2 ^ 48) 8 t3
  rw [show (n'.dot l' >. lit 0) = (lit 0 <. n'.x * l'.x + n'.y * l'.y + n'.z * l'.z) from rfl, Flo.lt_is flo_zero hθ]
  simp only [decide_eq_false_iff_not, not_lt]
  rw [abs_le] at eθ
  norm_num at *
  linarith

/-- **C87, the viewer.** If the ray starts clearly outside the ball and has a point ahead that is clearly inside, then the
ball is reported as hit and the normal computed there faces the viewer, so that `C87_shade` applies. -/
theorem C87_faces {M : Type} (m : Option M) (diam : Flo) (center : Vec Flo) (r : Ray Flo) (s d c : Vec ℝ) (R : ℝ)
    (h : Looking r diam center s d c R) (hR : 1 / 32 ≤ R) (hstart : R ^ 2 + 1 / 2 ^ 8 ≤ apart s c ^ 2)
    (hin : ∃ T0, 0 < T0 ∧ apart (along s d T0) c ^ 2 ≤ R ^ 2 - 1 / 2 ^ 8) :
    ∃ hit, (Obj.sphere m diam center).intersect r = .ok (hit, r) ∧ (hit.t >. lit 0) = true ∧
      (hit.normal.normalized.dot r.dir >. lit 0) = false := by
  obtain ⟨T0, hT0, hin⟩ := hin
  have w : ∀ {v : Vec ℝ}, Within 64 v → |v.x| ≤ 256 ∧ |v.y| ≤ 256 ∧ |v.z| ≤ 256 := by
    intro v hv
    exact ⟨hv.1.trans (by norm_num), hv.2.1.trans (by norm_num), hv.2.2.trans (by norm_num)⟩
  have e0 : along s d 0 = s := by simp [along]
  have hx0 : 1 / 2 ^ 8 ≤ excess s d c R 0 := by rw [excess_apart, e0]; linarith
  obtain ⟨t, T, X, ht, hT, -, hTX, -, -, hder, e⟩ := hit_complete (m := m) h.sized (w h.start_le) (w h.center_le) hT0
    (by rw [excess_apart]; linarith) (hx0.trans (le_abs_self _))
  have hder := hder (lt_of_lt_of_le (by norm_num) hx0)
  have hpos : (t >. lit 0) = true := by
    rw [show (t >. lit 0) = (lit 0 <. t) from rfl, Flo.lt_is flo_zero ht]
    exact decide_eq_true hT
  refine ⟨(Obj.sphereQ m diam center).hit r, rfl, by rw [e]; exact hpos, ?_⟩
  rcases hit_sound (m := m) h.sized with e' | ⟨t', T', ht', hT0', hT1', hx', e'⟩
  · rw [e'] at e
    have : (lit 0 : Flo) = t := congrArg HitRecord.t e
    rw [← this, show ((lit 0 : Flo) >. lit 0) = (lit 0 <. lit 0) from rfl, Flo.lt_is flo_zero flo_zero] at hpos
    simp at hpos
  · have htt : t = t' := by rw [e'] at e; exact (congrArg HitRecord.t e).symm
    subst htt
    obtain rfl : T = T' := by
      obtain ⟨_, e1⟩ := ht
      obtain ⟨_, e2⟩ := ht'
      rw [e1] at e2
      cases e2
      rfl
    obtain ⟨a, ν, n, κ, g, p, hl, hn, ha, -⟩ := leaving h.sized hR h.start_le h.center_le ht hT0' hT1' hx' e'
    have hd2 := h.short
    have dc : ∀ {x y z : ℝ}, x ^ 2 + y ^ 2 + z ^ 2 ≤ 2 → |x| ≤ 3 / 2 := by
      intro x y z h
      exact abs_le_of_sq_le_sq (by nlinarith [sq_nonneg y, sq_nonneg z]) (by norm_num)
    have hd : |d.x| ≤ 3 / 2 ∧ |d.y| ≤ 3 / 2 ∧ |d.z| ≤ 3 / 2 :=
      ⟨dc hd2, dc (y := d.x) (z := d.z) (by linarith), dc (y := d.x) (z := d.y) (by linarith)⟩
    refine dot_neg h.dir hn hd hl.ncomp (faces_num hl hd rfl ?_)
    have hTX' := (abs_le.1 hTX).2
    have hA0 : 0 ≤ quadA d := by unfold quadA; nlinarith [sq_nonneg d.x, sq_nonneg d.y, sq_nonneg d.z]
    have hA2 : quadA d ≤ 2 := h.sized.short
    have ee : a.x * d.x + a.y * d.y + a.z * d.z = (2 * quadA d * X + quadB s d c) / 2 + quadA d * (T - X) := by
      rw [ha]; unfold quadA quadB; ring
    rw [ee]
    have : quadA d * (T - X) ≤ 2 * (1 / 2 ^ 23) :=
      (mul_le_mul_of_nonneg_left hTX' hA0).trans (mul_le_mul_of_nonneg_right hA2 (by norm_num))
    norm_num at *
    linarith

/-- **C87, alone.** With point lamps and nothing else in the scene but the ball, a viewer who is clearly outside and looks
clearly at the ball sees every lamp that the surface faces unshadowed: the shading is that of a scene without objects. -/
theorem C87_alone (rng : Rng Flo S) (lamps : List (Vec Flo × Color Flo)) (media : List (Medium Flo)) (depth : Int) (lf : LF Flo S)
    (tex : Tex Flo) (m : Option (Mat Flo)) (diam : Flo) (center : Vec Flo) (r : Ray Flo) (o d c : Vec ℝ) (R : ℝ)
    (h : Looking r diam center o d c R) (hR : 1 / 32 ≤ R) (hstart : R ^ 2 + 1 / 2 ^ 8 ≤ apart o c ^ 2)
    (hin : ∃ T0, 0 < T0 ∧ apart (along o d T0) c ^ 2 ≤ R ^ 2 - 1 / 2 ^ 8) (hlamp : ∀ l ∈ lamps, LampOff c R l.1) :
    ∃ hit, (Obj.sphere m diam center).intersect r = .ok (hit, r) ∧ (hit.t >. lit 0) = true ∧ ∀ ctx,
      shadeMatte rng ⟨lamps.map fun l => Light.point l.1 l.2, [Obj.sphere m diam center], media, depth⟩ lf tex r
        ⟨hit.t, hit.normal.normalized, hit.loc⟩ ctx =
      shadeMatte rng ⟨lamps.map fun l => Light.point l.1 l.2, [], media, depth⟩ lf tex r
        ⟨hit.t, hit.normal.normalized, hit.loc⟩ ctx := by
  obtain ⟨hit, e, hpos, hface⟩ := C87_faces m diam center r o d c R h hR hstart hin
  refine ⟨hit, e, hpos, fun ctx => ?_⟩
  refine C87_shade rng ⟨_, _, _, _⟩ lf tex m diam center [] [] rfl r o d c R h hR ?_ hit r e hpos hface ctx
  intro l hl target ctx pos col ctx' hs
  obtain ⟨q, hq, rfl⟩ := List.mem_map.1 hl
  exact C87_lamp rng c R q.1 q.2 (hlamp q hq) target ctx pos col ctx' hs

/-- Such a scene: a ball of radius one around the origin, seen from `(0, 0, -3)`, with a lamp at `(0, 5, -3)`. -/
example (rng : Rng Flo S) (power : Color Flo) (lf : LF Flo S) (tex : Tex Flo) :
    ∃ hit, (Obj.sphere (none : Option (Mat Flo)) (lit 2) ⟨lit 0, lit 0, lit 0⟩).intersect
      (⟨⟨lit 0, lit 0, lit (-3)⟩, ⟨lit 0, lit 0, lit 1⟩⟩ : Ray Flo) = .ok (hit, ⟨⟨lit 0, lit 0, lit (-3)⟩, ⟨lit 0, lit 0, lit 1⟩⟩) ∧
      (hit.t >. lit 0) = true ∧ ∀ ctx,
      shadeMatte rng ⟨[Light.point ⟨lit 0, lit 5, lit (-3)⟩ power], [Obj.sphere none (lit 2) ⟨lit 0, lit 0, lit 0⟩], [], 3⟩ lf tex
        ⟨⟨lit 0, lit 0, lit (-3)⟩, ⟨lit 0, lit 0, lit 1⟩⟩ ⟨hit.t, hit.normal.normalized, hit.loc⟩ ctx =
      shadeMatte rng ⟨[Light.point ⟨lit 0, lit 5, lit (-3)⟩ power], [], [], 3⟩ lf tex
        ⟨⟨lit 0, lit 0, lit (-3)⟩, ⟨lit 0, lit 0, lit 1⟩⟩ ⟨hit.t, hit.normal.normalized, hit.loc⟩ ctx := by
  refine C87_alone rng [(⟨lit 0, lit 5, lit (-3)⟩, power)] [] 3 lf tex none _ _ _ _ _ _ _ looking_example (by norm_num)
    (by rw [apart_sq]; norm_num) ⟨3, by norm_num, by rw [apart_sq]; norm_num [along]⟩ ?_
  intro l hl
  obtain rfl := List.mem_singleton.1 hl
  have i0 := flo_int_is 0 (by norm_num)
  have i5 := flo_int_is 5 (by norm_num)
  have i3 := flo_int_is (-3) (by norm_num)
  norm_num at i0 i5 i3
  refine ⟨⟨0, 5, -3⟩, ⟨i0, i5, i3⟩, by norm_num [Within], ?_⟩
  refine Real.le_sqrt_of_sq_le ?_
  norm_num

end BR
