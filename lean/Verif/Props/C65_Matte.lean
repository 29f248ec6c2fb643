import Verif.Spec.Matte
import Verif.Lemmas.Scene
import Verif.Lemmas.Rotation

/-! C65: matte surfaces. Exact arithmetic. -/

namespace BR

variable {S : Type}

private theorem normalized_eq (d : Vec ℝ) : d.normalized = ⟨d.x / vlen d, d.y / vlen d, d.z / vlen d⟩ := by
  simp only [Vec.normalized, lit_real, sqrt_real, vlen, Vec.ext_iff]
  push_cast
  simp only [pow_two]
  refine ⟨?_, ?_, ?_⟩ <;> ring

private theorem len_eq (d : Vec ℝ) : d.len = vlen d := by
  simp only [Vec.len, sqrt_real, vlen, pow_two]

private theorem cos_eq (d n : Vec ℝ) : d.normalized.dot n = cosAngle d n := by
  rw [normalized_eq]
  simp only [Vec.dot, cosAngle]
  ring

private theorem isZero_iff (k : Color ℝ) : k.isZero = true ↔ k = ⟨0, 0, 0⟩ := by
  simp [Color.isZero, Color.ext_iff, and_assoc]

private theorem loop_lit (rng : Rng ℝ S) (s : Scene ℝ) (p n : Vec ℝ) (ls : List (Light ℝ)) (acc : Color ℝ)
    (c : Ctx ℝ S) (a : Color ℝ) (c' : Ctx ℝ S) (e : directLoop rng s.occlude p n ls acc c = .ok (a, c')) :
    ∃ lams, LitBy rng s p n ls c lams c' ∧ a = acc.add (sumColors lams) := by
  induction ls generalizing acc c with
  | nil =>
    simp only [directLoop, Except.ok.injEq, Prod.mk.injEq] at e
    refine ⟨[], e.2 ▸ .nil c, ?_⟩
    rw [← e.1]; simp [sumColors, Color.add]
  | cons l ls ih =>
    rw [directLoop] at e
    obtain ⟨⟨⟨lp, k⟩, c1⟩, e1, e2⟩ := bind_eq_ok.1 e
    dsimp only at e2
    have hd : lp.sub p = ⟨lp.x - p.x, lp.y - p.y, lp.z - p.z⟩ := rfl
    by_cases hk : k.isZero = true
    · rw [if_pos hk] at e2
      obtain ⟨lams, h1, h2⟩ := ih _ _ e2
      refine ⟨⟨0, 0, 0⟩ :: lams, .cons ⟨lp, k, e1, .inr (.inl ⟨.inl ((isZero_iff k).1 hk), rfl⟩)⟩ h1, ?_⟩
      rw [h2]; simp [sumColors, Color.add]
    · rw [if_neg hk] at e2
      rw [cos_eq] at e2
      by_cases hc : cosAngle (lp.sub p) n ≤ 0
      · rw [if_pos (by simpa using hc)] at e2
        obtain ⟨lams, h1, h2⟩ := ih _ _ e2
        refine ⟨⟨0, 0, 0⟩ :: lams, .cons ⟨lp, k, e1, .inr (.inl ⟨.inr hc, rfl⟩)⟩ h1, ?_⟩
        rw [h2]; simp [sumColors, Color.add]
      · rw [if_neg (by simpa using hc)] at e2
        obtain ⟨⟨pass, r2⟩, e3, e4⟩ := bind_eq_ok.1 e2
        obtain ⟨lams, h1, h2⟩ := ih _ _ e4
        refine ⟨⟨pass.R * cosAngle (lp.sub p) n, pass.G * cosAngle (lp.sub p) n, pass.B * cosAngle (lp.sub p) n⟩ :: lams,
          .cons ⟨lp, k, e1, .inr (.inr ⟨fun h => hk ((isZero_iff k).2 h), not_le.1 hc, pass, r2, ?_, rfl⟩)⟩ h1, ?_⟩
        · rw [normalized_eq, len_eq] at e3; exact e3
        · rw [h2]
          simp only [sumColors, Color.add, Color.mul, Color.ext_iff]
          refine ⟨?_, ?_, ?_⟩ <;> ring

/-- **C65.** The colour of a matte surface is its reflectance at the hit point, times the sum of the
contributions of all lights (each light sampled once, see `Contributes`) and the light from one random
direction. The shading normal is the surface normal turned towards the viewer. `lf` is the light field; the
random direction is asked with `.indirect`, which does not see the lights (`C66`). -/
theorem C65_matte (rng : Rng ℝ S) (s : Scene ℝ) (lf : LF ℝ S) (tex : Tex ℝ) (r : Ray ℝ) (h : HitCoords ℝ)
    (c c' : Ctx ℝ S) (col : Color ℝ) (e : (Mat.matte tex).shade rng s lf r h c = .ok (col, c')) :
    ∃ n p : Vec ℝ,
      (n = h.normal ∨ n = ⟨-h.normal.x, -h.normal.y, -h.normal.z⟩) ∧ n.x * r.dir.x + n.y * r.dir.y + n.z * r.dir.z ≤ 0 ∧
      p = ((r.at h.t).madd tiny n) ∧
      ∃ lams c1 u v c2 ind c3 k,
        LitBy rng s p n s.lights c.takeRay.2 lams c1 ∧
        c1.generate2 rng = .ok ((u, v), c2) ∧
        lf .indirect ⟨p.madd tiny n, cosineSphere u v n⟩ c2 = .ok (ind, c3) ∧
        tex h.loc = .ok k ∧
        c' = c3.putRay c.takeRay.1 ∧
        col = ⟨((sumColors lams).R + ind.R) * k.R, ((sumColors lams).G + ind.G) * k.G,
          ((sumColors lams).B + ind.B) * k.B⟩ := by
  rw [Mat.shade] at e
  unfold shadeMatte at e
  dsimp only at e
  refine ⟨flipTowards h.normal r.dir, (r.at h.t).madd tiny (flipTowards h.normal r.dir), ?_, ?_, rfl, ?_⟩
  · unfold flipTowards
    split
    · right; simp [Vec.mul]
    · exact .inl rfl
  · unfold flipTowards
    split
    · rename_i hh
      simp only [Vec.dot, lt_real, lit_real] at hh
      simp only [Vec.mul, lit_real]
      push_cast at hh ⊢
      simp at hh
      linarith
    · rename_i hh
      simp only [Vec.dot, lt_real, lit_real] at hh
      push_cast at hh
      simp at hh
      linarith
  obtain ⟨⟨acc, c1⟩, e1, e⟩ := bind_eq_ok.1 e
  obtain ⟨⟨⟨u, v⟩, c2⟩, e2, e⟩ := bind_eq_ok.1 e
  obtain ⟨⟨ind, c3⟩, e3, e⟩ := bind_eq_ok.1 e
  obtain ⟨k, e4, e⟩ := bind_eq_ok.1 e
  simp only [pure_ok, Except.ok.injEq, Prod.mk.injEq] at e
  obtain ⟨lams, h1, h2⟩ := loop_lit rng s _ _ _ _ _ _ _ e1
  refine ⟨lams, c1, u, v, c2, ind, c3, k, h1, e2, e3, e4, e.2.symm, ?_⟩
  rw [← e.1, h2]
  simp [Color.mul3, Color.add, Color.black]

/-! ## Closed form for point lights -/

/-- Light arriving from a point light of power `P` at `pos` on the surface point `p` with unit normal `n`: the
power spread over the sphere through `p`, times the cosine of the angle of incidence. -/
noncomputable def pointLambert (p n pos : Vec ℝ) (P : Color ℝ) : Color ℝ :=
  let d : Vec ℝ := ⟨pos.x - p.x, pos.y - p.y, pos.z - p.z⟩
  let f := max 0 (cosAngle d n) / (4 * Real.pi * (d.x ^ 2 + d.y ^ 2 + d.z ^ 2))
  ⟨f * P.R, f * P.G, f * P.B⟩

/-- Nothing between `p` and `q` takes away light. -/
def Visible (s : Scene ℝ) (p q : Vec ℝ) : Prop :=
  let d : Vec ℝ := ⟨q.x - p.x, q.y - p.y, q.z - p.z⟩
  ∀ orig, ∃ r', s.occlude ⟨p, ⟨d.x / vlen d, d.y / vlen d, d.z / vlen d⟩⟩ (vlen d) orig = .ok (orig, r')

/-- With point lights, all visible from the surface point, and the recursion limit reached (no indirect light), a matte
surface has exactly the colour given by Lambert's law: no random numbers enter. -/
theorem C65_point_lights (rng : Rng ℝ S) (s : Scene ℝ) (lf : LF ℝ S) (tex : Tex ℝ) (r : Ray ℝ) (h : HitCoords ℝ)
    (c c' : Ctx ℝ S) (col k : Color ℝ) (lights : List (Vec ℝ × Color ℝ))
    (hl : s.lights = lights.map fun q => .point q.1 q.2)
    (hvis : ∀ q ∈ lights, Visible s ((r.at h.t).madd tiny h.normal) q.1)
    (hfacing : h.normal.x * r.dir.x + h.normal.y * r.dir.y + h.normal.z * r.dir.z < 0)
    (hpos : ∀ q ∈ lights, q.1 ≠ (r.at h.t).madd tiny h.normal)
    (hdark : ∀ f r c, lf f r c = .ok (⟨0, 0, 0⟩, c)) (hk : tex h.loc = .ok k)
    (e : (Mat.matte tex).shade rng s lf r h c = .ok (col, c')) :
    let total := sumColors (lights.map fun q => pointLambert ((r.at h.t).madd tiny h.normal) h.normal q.1 q.2)
    col = ⟨total.R * k.R, total.G * k.G, total.B * k.B⟩ := by
  obtain ⟨n, p, hn, hd, rfl, lams, c1, u, v, c2, ind, c3, k', h1, e2, e3, e4, -, rfl⟩ :=
    C65_matte rng s lf tex r h c c' col e
  rw [hdark] at e3
  rw [hk] at e4
  simp only [Except.ok.injEq, Prod.mk.injEq] at e3 e4
  obtain ⟨rfl, -⟩ := e3
  subst e4
  have hn : n = h.normal := by
    rcases hn with hn | rfl
    · exact hn
    · dsimp only at hd; exfalso; linarith
  subst hn
  have key : ∀ (lights : List (Vec ℝ × Color ℝ)) (cc cc' : Ctx ℝ S) (lams : List (Color ℝ)),
      (∀ q ∈ lights, q.1 ≠ (r.at h.t).madd tiny h.normal) →
      (∀ q ∈ lights, Visible s ((r.at h.t).madd tiny h.normal) q.1) →
      LitBy rng s ((r.at h.t).madd tiny h.normal) h.normal (lights.map fun q => .point q.1 q.2) cc lams cc' →
      lams = lights.map fun q => pointLambert ((r.at h.t).madd tiny h.normal) h.normal q.1 q.2 := by
    clear hvis
    generalize (r.at h.t).madd tiny h.normal = p
    intro lights
    induction lights with
    | nil => intro cc cc' lams _ _ hh; cases hh; rfl
    | cons q qs ih =>
      intro cc cc' lams hp hv hh
      cases hh with
      | cons hc ht =>
        rw [List.map_cons, ih _ _ _ (fun q hq => hp q (by simp [hq])) (fun q hq => hv q (by simp [hq])) ht]
        congr 1
        obtain ⟨lpos, kk, es, hc⟩ := hc
        simp only [Light.sample, Except.ok.injEq, Prod.mk.injEq] at es
        obtain ⟨⟨rfl, rfl⟩, -⟩ := es
        have hne := hp q (by simp)
        have hq : 0 < (q.1.x - p.x) ^ 2 + (q.1.y - p.y) ^ 2 + (q.1.z - p.z) ^ 2 := by
          by_contra hcon
          apply hne
          have h1 := sq_nonneg (q.1.x - p.x)
          have h2 := sq_nonneg (q.1.y - p.y)
          have h3 := sq_nonneg (q.1.z - p.z)
          have h1' : q.1.x - p.x = 0 := by
            have : (q.1.x - p.x) ^ 2 = 0 := by linarith
            exact pow_eq_zero_iff (two_ne_zero) |>.1 this
          have h2' : q.1.y - p.y = 0 := by
            have : (q.1.y - p.y) ^ 2 = 0 := by linarith
            exact pow_eq_zero_iff (two_ne_zero) |>.1 this
          have h3' : q.1.z - p.z = 0 := by
            have : (q.1.z - p.z) ^ 2 = 0 := by linarith
            exact pow_eq_zero_iff (two_ne_zero) |>.1 this
          rw [Vec.ext_iff]
          exact ⟨by linarith, by linarith, by linarith⟩
        have hpi := Real.pi_pos
        have hint : Light.pointIntensity p q.1 = 1 / (4 * Real.pi * ((q.1.x - p.x) ^ 2 + (q.1.y - p.y) ^ 2 + (q.1.z - p.z) ^ 2)) := by
          simp only [Light.pointIntensity, Vec.len2, Vec.sub, lit_real, pi_real]
          push_cast
          rw [div_div]
          congr 2
          ring
        have hi0 : Light.pointIntensity p q.1 ≠ 0 := by rw [hint]; positivity
        rcases hc with hc | ⟨hc, rfl⟩ | ⟨-, hc, passed, r', ho, rfl⟩
        · exact absurd hc hne
        · unfold pointLambert
          dsimp only
          rcases hc with hc | hc
          · simp only [Color.mul, Color.ext_iff, mul_eq_zero, hi0, false_or] at hc
            simp [hc.1, hc.2.1, hc.2.2]
          · simp [max_eq_left hc]
        · obtain ⟨r2, hv⟩ := hv q (by simp) (q.2.mul (Light.pointIntensity p q.1))
          rw [hv] at ho
          simp only [Except.ok.injEq, Prod.mk.injEq] at ho
          rw [← ho.1]
          unfold pointLambert
          dsimp only
          rw [max_eq_right hc.le]
          simp only [Color.mul, hint, Color.ext_iff]
          refine ⟨?_, ?_, ?_⟩ <;> ring
  rw [hl] at h1
  rw [key lights _ _ _ hpos hvis h1]
  simp

/-! ## Non-vacuity -/

/-- A floor point seen from above, two point lights above and one below the floor: the evaluation succeeds and the
hypotheses hold. -/
example (c : Ctx ℝ Unit) (hc : c.depth = 3) :
    let rng : Rng ℝ Unit := ⟨fun s => ((1 / 2, 1 / 2), s)⟩
    let lights : List (Vec ℝ × Color ℝ) := [(⟨0, 3, 0⟩, ⟨1, 2, 3⟩), (⟨1, 5, 0⟩, ⟨4, 4, 4⟩), (⟨0, -3, 0⟩, ⟨1, 1, 1⟩)]
    let s : Scene ℝ := ⟨lights.map fun q => .point q.1 q.2, [], [], 3⟩
    let r : Ray ℝ := ⟨⟨0, 1, 0⟩, ⟨0, -1, 0⟩⟩
    let h : HitCoords ℝ := ⟨1, ⟨0, 1, 0⟩, ⟨0, 0, 0⟩⟩
    let tex := (⟨1 / 2, 1 / 2, 1 / 2⟩ : Color ℝ).tex
    (∀ q ∈ lights, Visible s ((r.at h.t).madd tiny h.normal) q.1) ∧
      h.normal.x * r.dir.x + h.normal.y * r.dir.y + h.normal.z * r.dir.z < 0 ∧
      (∀ q ∈ lights, q.1 ≠ (r.at h.t).madd tiny h.normal) ∧
      ∃ col c', (Mat.matte tex).shade rng s (fun _ _ c => .ok (⟨0, 0, 0⟩, c)) r h c = .ok (col, c') := by
  intro rng lights s r h tex
  refine ⟨fun _ _ _ => ⟨_, rfl⟩, by simp [h, r], ?_, ?_⟩
  · intro q hq e
    simp only [lights, List.mem_cons, List.not_mem_nil, or_false] at hq
    have := congrArg Vec.y e
    rcases hq with rfl | rfl | rfl <;> simp [r, h, Ray.at, Vec.madd, tiny] at this <;> norm_num at this
  · rw [Mat.shade, shadeMatte]
    dsimp only
    have hdl : ∀ ls acc (p n : Vec ℝ) (cc : Ctx ℝ Unit), (∀ l ∈ ls, ∃ a b, l = Light.point a b) →
        ∃ a, directLoop rng s.occlude p n ls acc cc = .ok (a, cc) := by
      intro ls
      induction ls with
      | nil => intro acc p n cc _; exact ⟨_, rfl⟩
      | cons l ls ih =>
        intro acc p n cc hl
        obtain ⟨a, b, rfl⟩ := hl l (by simp)
        have ih := fun acc => ih acc p n cc fun l h => hl l (by simp [h])
        rw [directLoop, Light.sample, ok_bind]
        dsimp only
        split
        · exact ih _
        · split
          · exact ih _
          · exact ih _
    obtain ⟨a, ha⟩ := hdl s.lights Color.black _ _ c.takeRay.2 (by
      intro l hl
      simp only [s, List.mem_map] at hl
      obtain ⟨q, -, rfl⟩ := hl
      exact ⟨_, _, rfl⟩)
    rw [ha, ok_bind]
    have hg : (c.takeRay.2).depth = 3 := hc
    dsimp only
    rw [Ctx.generate2, if_neg (by omega), if_neg (by omega), if_neg (by omega), ok_bind]
    exact ⟨_, _, rfl⟩

end BR
