import Mathlib.Analysis.SpecialFunctions.Trigonometric.Deriv
import Verif.Props.C26_Iso
import Mathlib.Analysis.Calculus.Deriv.MeanValue

/-! C61: the normal reported for a height surface, in exact arithmetic. -/

namespace BR

private theorem height_ok {M : Type} {s : Iso ℝ M} {u v h : ℝ} (e : s.heightAtUV u v = .ok h) :
    h = s.bounds.max.y * s.hmap u v := by
  unfold Iso.heightAtUV at e
  dsimp only at e
  split_ifs at e
  exact (Except.ok.inj e).symm

/-- The normal of every hit in terms of the height function. -/
private theorem hit_normal {M : Type} (fuel : Nat) (m : Option M) (dx dy dz : ℝ) (f : ℝ → ℝ → ℝ) (r r' : Ray ℝ)
    (h : HitRecord ℝ M) (e : (Obj.isoSurface fuel m dx dy dz f).intersect r = .ok (h, r')) (ht : h.t ≠ 0) :
    h.normal = ⟨-(4096 * (dy * f ((r.at h.t).x / dx + 1 / 8192) ((r.at h.t).z / dz) -
        dy * f ((r.at h.t).x / dx - 1 / 8192) ((r.at h.t).z / dz))), 1,
      -(4096 * (dy * f ((r.at h.t).x / dx) ((r.at h.t).z / dz + 1 / 8192) -
        dy * f ((r.at h.t).x / dx) ((r.at h.t).z / dz - 1 / 8192)))⟩ := by
  rw [Obj.isoSurface, Obj.intersect] at e
  set s : Iso ℝ M := { bounds := ⟨⟨lit 0, lit 0, lit 0⟩, ⟨dx, dy, dz⟩⟩, tol := lit (1 / (1024 * 1024)), mat := m,
                       hmap := f, fuel := fuel } with hs
  obtain ⟨h', eh, e1⟩ := bind_eq_ok.1 e
  have := congrArg Prod.fst (Except.ok.inj e1)
  dsimp only at this
  subst this
  obtain ⟨⟨t1, t2⟩, hb⟩ : ∃ x, s.bounds.intersect2 r = x := ⟨_, rfl⟩
  rw [Iso.hit, hb] at eh
  dsimp only at eh
  split_ifs at eh with c1
  · exact absurd (by rw [← Except.ok.inj eh]; simp [HitRecord.miss]) ht
  · obtain ⟨t, et, e2⟩ := bind_eq_ok.1 eh
    split_ifs at e2 with c2
    · exact absurd (by rw [← Except.ok.inj e2]; simp [HitRecord.miss]) ht
    · obtain ⟨n, en, e3⟩ := bind_eq_ok.1 e2
      have := (Except.ok.inj e3).symm
      subst this
      dsimp only
      unfold Iso.normalAtUV at en
      obtain ⟨a, ea, en⟩ := bind_eq_ok.1 en
      obtain ⟨b, eb, en⟩ := bind_eq_ok.1 en
      obtain ⟨c, ec, en⟩ := bind_eq_ok.1 en
      obtain ⟨d, ed, en⟩ := bind_eq_ok.1 en
      have := (Except.ok.inj en).symm
      subst this
      rw [height_ok ea, height_ok eb, height_ok ec, height_ok ed]
      simp only [Iso.localUV, lit_real, hs]
      push_cast
      rfl

/-- A central difference is the slope at some point between. -/
private theorem central (g : ℝ → ℝ) (hg : Differentiable ℝ g) (x : ℝ) :
    ∃ ξ, |ξ - x| ≤ 1 / 8192 ∧ 4096 * (g (x + 1 / 8192) - g (x - 1 / 8192)) = deriv g ξ := by
  obtain ⟨ξ, hξ, e⟩ := exists_deriv_eq_slope g (show x - 1 / 8192 < x + 1 / 8192 by linarith)
    hg.continuous.continuousOn hg.differentiableOn
  refine ⟨ξ, by rw [abs_le]; constructor <;> linarith [hξ.1, hξ.2], ?_⟩
  rw [e]
  have : x + 1 / 8192 - (x - 1 / 8192) = 1 / 4096 := by ring
  rw [this]
  ring

/-- **C61 (unit footprint, partial).** For a surface `y = dy·f(x, z)` over the unit square (`dx = dz = 1`) with a
differentiable height function, the normal of every hit points up and is perpendicular to the tangent in `x` at a point
not more than 1/8192 away in `x`, and to the tangent in `z` at a point not more than 1/8192 away in `z`. Missing:
other footprints (`C61_violated`). -/
theorem C61_unit_partial {M : Type} (fuel : Nat) (m : Option M) (dy : ℝ) (f : ℝ → ℝ → ℝ)
    (fu : ∀ v, Differentiable ℝ fun u => f u v) (fv : ∀ u, Differentiable ℝ fun v => f u v) (r r' : Ray ℝ)
    (h : HitRecord ℝ M) (e : (Obj.isoSurface fuel m 1 dy 1 f).intersect r = .ok (h, r')) (ht : h.t ≠ 0) :
    h.normal.y = 1 ∧
    (∃ ξ, |ξ - (r.at h.t).x| ≤ 1 / 8192 ∧ h.normal.dot ⟨1, deriv (fun x => dy * f x (r.at h.t).z) ξ, 0⟩ = 0) ∧
    ∃ ζ, |ζ - (r.at h.t).z| ≤ 1 / 8192 ∧ h.normal.dot ⟨0, deriv (fun z => dy * f (r.at h.t).x z) ζ, 1⟩ = 0 := by
  have en := hit_normal fuel m 1 dy 1 f r r' h e ht
  simp only [div_one] at en
  obtain ⟨ξ, hξ, eξ⟩ := central (fun x => dy * f x (r.at h.t).z) ((fu _).const_mul dy) (r.at h.t).x
  obtain ⟨ζ, hζ, eζ⟩ := central (fun z => dy * f (r.at h.t).x z) ((fv _).const_mul dy) (r.at h.t).z
  rw [eξ, eζ] at en
  rw [en]
  refine ⟨rfl, ⟨ξ, hξ, ?_⟩, ζ, hζ, ?_⟩ <;> simp only [geo] <;> ring

/-- The general disagreement: over a footprint `dx` wide, the normal of every hit on a plane of slope `a` in `u` has the
dot product `dy·a·(1 - dx)` with the vector `(dx, dy·a, 0)`, which joins points of the plane. -/
theorem C61_violated_slope {M : Type} (fuel : Nat) (m : Option M) (dx dy dz a c : ℝ) (hx : dx ≠ 1) (hy : dy ≠ 0)
    (ha : a ≠ 0) (r r' : Ray ℝ) (h : HitRecord ℝ M)
    (e : (Obj.isoSurface fuel m dx dy dz (fun u _ => a * u + c)).intersect r = .ok (h, r')) (ht : h.t ≠ 0) :
    h.normal.dot ⟨dx, dy * a, 0⟩ ≠ 0 := by
  rw [hit_normal fuel m dx dy dz _ r r' h e ht]
  simp only [geo]
  have : ∀ u : ℝ, -(4096 * (dy * (a * (u + 1 / 8192) + c) - dy * (a * (u - 1 / 8192) + c))) * dx + 1 * (dy * a) +
      -(4096 * (dy * (a * u + c) - dy * (a * u + c))) * 0 = dy * a * (1 - dx) := by intro u; ring
  rw [this]
  exact mul_ne_zero (mul_ne_zero hy ha) (sub_ne_zero.2 (Ne.symm hx))

/-- **C61 violated.** On the plane `y = x/2` over a footprint 2 wide, a ray hits, and the normal is not perpendicular to
the plane: its dot product with `(2, 1, 0)` is -1. -/
theorem C61_violated : ∃ (f : ℝ → ℝ → ℝ) (fuel : Nat) (r : Ray ℝ) (h : HitRecord ℝ Unit),
    (∀ u v, 0 ≤ u → u ≤ 1 → f u v = u) ∧ (Obj.isoSurface fuel (some ()) 2 1 1 f).intersect r = .ok (h, r) ∧ 0 < h.t ∧
    h.normal.dot ⟨2, 1, 0⟩ = -1 := by
  have tb : (0 : ℝ) < tiny ∧ (tiny : ℝ) < 1 / 1000 := by unfold tiny; rw [lit_real]; norm_num
  set r : Ray ℝ := ⟨⟨0, 4, 0⟩, ⟨1 / 8, -1, 1 / 8⟩⟩ with hr
  obtain ⟨f, hc, hb, hfu⟩ : ∃ f : ℝ → ℝ → ℝ, (Continuous fun p : ℝ × ℝ => f p.1 p.2) ∧
      (∀ u v, 0 ≤ f u v ∧ f u v ≤ 1) ∧ ∀ u v, 0 ≤ u → u ≤ 1 → f u v = u :=
    ⟨fun u _ => max 0 (min 1 u), by fun_prop,
      fun u v => ⟨le_max_left _ _, max_le zero_le_one (min_le_left _ _)⟩, fun u v h0 h1 => by simp [h0, h1]⟩
  have ax : ∀ t, (r.at t).x = t / 8 := fun t => by simp only [hr, Ray.at, geo]; ring
  have ay : ∀ t, (r.at t).y = 4 - t := fun t => by simp only [hr, Ray.at, geo]; ring
  have az : ∀ t, (r.at t).z = t / 8 := fun t => by simp only [hr, Ray.at, geo]; ring
  obtain ⟨fuel, H⟩ := C26_surface_partial (some ()) 2 1 1 (by norm_num) (by norm_num) (by norm_num) f
    hc r hb
    (by simp [hr]) (by simp [hr]) (by simp [hr]) 3 4 (by norm_num) (by linarith [tb.2])
    (by
      intro t
      rw [ax, ay, az]
      constructor
      · rintro ⟨h1, h2, h3, h4, h5, h6⟩; constructor <;> linarith
      · rintro ⟨h1, h2⟩; refine ⟨?_, ?_, ?_, ?_, ?_, ?_⟩ <;> linarith)
    (by rw [ax, ay, hfu ((3 - tiny) / 8 / 2) _ (by linarith [tb.2]) (by linarith [tb.1])]; linarith [tb.1, tb.2])
    (by rw [ax, ay, hfu ((4 + tiny) / 8 / 2) _ (by linarith [tb.1]) (by linarith [tb.2])]; linarith [tb.1, tb.2])
  obtain ⟨h, e, h0, -, hm, z, z1, z2, z3, z4, -⟩ := H fuel le_rfl
  refine ⟨f, fuel, r, h, hfu, e, h0, ?_⟩
  rw [hit_normal fuel _ 2 1 1 f r r h e h0.ne', ax, az]
  have l1 : 2 ≤ h.t := by linarith [tb.2]
  have l2 : h.t ≤ 5 := by linarith [tb.2]
  rw [hfu _ _ (by linarith) (by linarith), hfu _ _ (by linarith) (by linarith), hfu _ _ (by linarith) (by linarith),
    hfu _ _ (by linarith) (by linarith)]
  simp only [geo]
  ring

private theorem height_range {M : Type} {s : Iso ℝ M} {u v h : ℝ} (e : s.heightAtUV u v = .ok h) :
    -(1 / 1024) ≤ s.hmap u v ∧ s.hmap u v ≤ 1 + 1 / 1024 := by
  unfold Iso.heightAtUV at e
  dsimp only at e
  split_ifs at e with c
  simp only [lit_real, lt_real, Bool.or_eq_true, decide_eq_true_eq, not_or, not_lt] at c
  push_cast at c
  exact c

/-- **C61 (range).** Where a hit is reported, the height function at the points next to it is between 0 and 1, up to 1/1024:
a function that leaves this range is reported as an error and not drawn. -/
theorem C61_range {M : Type} (fuel : Nat) (m : Option M) (dx dy dz : ℝ) (f : ℝ → ℝ → ℝ) (r r' : Ray ℝ)
    (h : HitRecord ℝ M) (e : (Obj.isoSurface fuel m dx dy dz f).intersect r = .ok (h, r')) (ht : h.t ≠ 0) :
    ∀ u v, (u, v) = ((r.at h.t).x / dx + 1 / 8192, (r.at h.t).z / dz) ∨ (u, v) = ((r.at h.t).x / dx - 1 / 8192, (r.at h.t).z / dz) ∨
      (u, v) = ((r.at h.t).x / dx, (r.at h.t).z / dz + 1 / 8192) ∨ (u, v) = ((r.at h.t).x / dx, (r.at h.t).z / dz - 1 / 8192) →
      -(1 / 1024) ≤ f u v ∧ f u v ≤ 1 + 1 / 1024 := by
  rw [Obj.isoSurface, Obj.intersect] at e
  set s : Iso ℝ M := { bounds := ⟨⟨lit 0, lit 0, lit 0⟩, ⟨dx, dy, dz⟩⟩, tol := lit (1 / (1024 * 1024)), mat := m,
                       hmap := f, fuel := fuel } with hs
  obtain ⟨h', eh, e1⟩ := bind_eq_ok.1 e
  have := congrArg Prod.fst (Except.ok.inj e1)
  dsimp only at this
  subst this
  obtain ⟨⟨t1, t2⟩, hb⟩ : ∃ x, s.bounds.intersect2 r = x := ⟨_, rfl⟩
  rw [Iso.hit, hb] at eh
  dsimp only at eh
  split_ifs at eh with c1
  · exact absurd (by rw [← Except.ok.inj eh]; simp [HitRecord.miss]) ht
  · obtain ⟨t, et, e2⟩ := bind_eq_ok.1 eh
    split_ifs at e2 with c2
    · exact absurd (by rw [← Except.ok.inj e2]; simp [HitRecord.miss]) ht
    · obtain ⟨n, en, e3⟩ := bind_eq_ok.1 e2
      have := (Except.ok.inj e3).symm
      subst this
      dsimp only
      unfold Iso.normalAtUV at en
      obtain ⟨a, ea, en⟩ := bind_eq_ok.1 en
      obtain ⟨b, eb, en⟩ := bind_eq_ok.1 en
      obtain ⟨c, ec, en⟩ := bind_eq_ok.1 en
      obtain ⟨d, ed, en⟩ := bind_eq_ok.1 en
      have ra := height_range ea
      have rb := height_range eb
      have rc := height_range ec
      have rd := height_range ed
      simp only [Iso.localUV, lit_real, hs] at ra rb rc rd
      push_cast at ra rb rc rd
      intro u v huv
      simp only [Prod.mk.injEq] at huv
      rcases huv with ⟨rfl, rfl⟩ | ⟨rfl, rfl⟩ | ⟨rfl, rfl⟩ | ⟨rfl, rfl⟩ <;> assumption

/-- The hypotheses of `C61_unit_partial` are met: a ray from above hits the surface `y = (1 + sin x) / 2`. -/
example : ∃ (fuel : Nat) (r : Ray ℝ) (h : HitRecord ℝ Unit), (∀ v : ℝ, Differentiable ℝ fun u : ℝ => (1 + Real.sin u) / 2 + 0 * v) ∧
    (∀ u : ℝ, Differentiable ℝ fun v : ℝ => (1 + Real.sin u) / 2 + 0 * v) ∧
    (Obj.isoSurface fuel (some ()) 1 1 1 (fun u v => (1 + Real.sin u) / 2 + 0 * v)).intersect r = .ok (h, r) ∧ h.t ≠ 0 := by
  have tb : (0 : ℝ) < tiny ∧ (tiny : ℝ) < 1 / 1000 := by unfold tiny; rw [lit_real]; norm_num
  set r : Ray ℝ := ⟨⟨0, 4, 0⟩, ⟨1 / 8, -1, 1 / 8⟩⟩ with hr
  have ax : ∀ t, (r.at t).x = t / 8 := fun t => by simp only [hr, Ray.at, geo]; ring
  have ay : ∀ t, (r.at t).y = 4 - t := fun t => by simp only [hr, Ray.at, geo]; ring
  have az : ∀ t, (r.at t).z = t / 8 := fun t => by simp only [hr, Ray.at, geo]; ring
  obtain ⟨fuel, H⟩ := C26_surface_partial (some ()) 1 1 1 (by norm_num) (by norm_num) (by norm_num)
    (fun u v => (1 + Real.sin u) / 2 + 0 * v) (by fun_prop) r
    (fun u v => ⟨by linarith [Real.neg_one_le_sin u], by linarith [Real.sin_le_one u]⟩)
    (by simp [hr]) (by simp [hr]) (by simp [hr]) 3 4 (by norm_num) (by linarith [tb.2])
    (by
      intro t
      rw [ax, ay, az]
      constructor
      · rintro ⟨h1, h2, h3, h4, h5, h6⟩; constructor <;> linarith
      · rintro ⟨h1, h2⟩; refine ⟨?_, ?_, ?_, ?_, ?_, ?_⟩ <;> linarith)
    (by rw [ax, ay]; linarith [Real.sin_le_one ((3 - tiny) / 8 / 1), tb.1])
    (by
      rw [ax, ay]
      have := Real.neg_one_le_sin ((4 + tiny) / 8 / 1)
      linarith [tb.1])
  obtain ⟨h, e, h0, -⟩ := H fuel le_rfl
  exact ⟨fuel, r, h, fun v => by fun_prop, fun u => by fun_prop, e, h0.ne'⟩

end BR
