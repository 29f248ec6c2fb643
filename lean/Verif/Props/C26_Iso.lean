import Verif.Lemmas.Geom
import Verif.Lemmas.GoM
import Verif.Model.Construct
import Mathlib.Topology.Order.IntermediateValue
import Mathlib.Topology.Instances.Real.Lemmas

/-!
C26: the bisection of an isosurface terminates and the crossing lies within the tolerance before the reported
distance.
-/

namespace BR

/-- The bisection loop keeps a sign change in the bracket and halves it. -/
private theorem loop_spec (iso : ℝ → GoM ℝ) (f : ℝ → ℝ) (tol : ℝ) (htol : 0 < tol) (n : Nat) (a b : ℝ) (hab : a < b)
    (hi : ∀ t, a ≤ t → t ≤ b → iso t = .ok (f t)) (ha : 0 < f a) (hb : f b ≤ 0) (hn : b - a ≤ tol * 2 ^ n) :
    ∃ t u, Iso.bisectLoop iso tol n a b = .ok t ∧ a ≤ u ∧ u < t ∧ t ≤ b ∧ t - u ≤ tol ∧ 0 < f u ∧ f t ≤ 0 := by
  induction n generalizing a b with
  | zero =>
    rw [pow_zero, mul_one] at hn
    refine ⟨b, a, ?_, le_rfl, hab, le_rfl, hn, ha, hb⟩
    rw [Iso.bisectLoop, lt_real, if_neg (by simpa using hn)]
  | succ n ih =>
    rw [Iso.bisectLoop, lt_real]
    by_cases h : tol < b - a
    · rw [if_pos (by simpa using h)]
      dsimp only
      rw [lit_real, lit_real, show ((2 : ℚ) : ℝ) = 2 by norm_num, hi _ (by linarith) (by linarith), ok_bind, lt_real,
        Rat.cast_zero]
      have hm : (a + b) / 2 - a = (b - a) / 2 := by ring
      have hm' : b - (a + b) / 2 = (b - a) / 2 := by ring
      have hhalf : (b - a) / 2 ≤ tol * 2 ^ n := by
        rw [pow_succ] at hn; linarith
      by_cases hv : 0 < f ((a + b) / 2)
      · rw [if_pos (by simpa using hv)]
        obtain ⟨t, u, e, h1, h2, h3, h4, h5, h6⟩ := ih ((a + b) / 2) b (by linarith)
          (fun t h0 h1 => hi t (by linarith) h1) hv hb (by linarith)
        exact ⟨t, u, e, by linarith, h2, h3, h4, h5, h6⟩
      · rw [if_neg (by simpa using hv)]
        obtain ⟨t, u, e, h1, h2, h3, h4, h5, h6⟩ := ih a ((a + b) / 2) (by linarith)
          (fun t h0 h1 => hi t h0 (by linarith)) ha (not_lt.1 hv) (by linarith)
        exact ⟨t, u, e, h1, h2, by linarith, h4, h5, h6⟩
    · rw [if_neg (by simpa using h)]
      exact ⟨b, a, rfl, le_rfl, hab, le_rfl, not_lt.1 h, ha, hb⟩

/-- Bisection from outside the surface (positive height above it) to inside: after at most `log₂((max-min)/tol)` steps
the search ends; the ray is outside at some distance `u`, at most the tolerance before the reported distance `t`, and
inside (or on the surface) at `t`. -/
theorem C26_bisect_partial (iso : ℝ → GoM ℝ) (f : ℝ → ℝ) (tol min max : ℝ) (fuel : Nat) (htol : 0 < tol)
    (hmm : min < max) (hi : ∀ t, min ≤ t → t ≤ max → iso t = .ok (f t)) (hmin : 0 < f min) (hmax : f max ≤ 0)
    (hfuel : max - min ≤ tol * 2 ^ fuel) :
    ∃ t u, Iso.bisect iso tol fuel min max = .ok t ∧ min ≤ u ∧ u < t ∧ t ≤ max ∧ t - u ≤ tol ∧ 0 < f u ∧ f t ≤ 0 := by
  rw [Iso.bisect, hi min le_rfl hmm.le, hi max hmm.le le_rfl, ok_bind, ok_bind, lt_real, lit_real, Rat.cast_zero,
    if_neg (by simpa using mul_nonpos_of_nonneg_of_nonpos hmin.le hmax), ok_bind, lt_real]
  simp only [hmin, decide_true, if_true]
  exact loop_spec iso f tol htol fuel min max hmm hi hmin hmax hfuel

/-- If the height above the surface is continuous along the ray, it is zero at some distance within the tolerance
before the reported one. -/
theorem C26_crossing_partial (iso : ℝ → GoM ℝ) (f : ℝ → ℝ) (hf : Continuous f) (tol min max : ℝ) (fuel : Nat)
    (htol : 0 < tol) (hmm : min < max) (hi : ∀ t, min ≤ t → t ≤ max → iso t = .ok (f t)) (hmin : 0 < f min)
    (hmax : f max ≤ 0) (hfuel : max - min ≤ tol * 2 ^ fuel) :
    ∃ t z, Iso.bisect iso tol fuel min max = .ok t ∧ t - tol ≤ z ∧ z ≤ t ∧ min ≤ z ∧ z ≤ max ∧ min < t ∧ t ≤ max ∧ f z = 0 := by
  obtain ⟨t, u, e, h1, h2, h3, h4, h5, h6⟩ := C26_bisect_partial iso f tol min max fuel htol hmm hi hmin hmax hfuel
  have := intermediate_value_Icc' h2.le hf.continuousOn
  obtain ⟨z, hz, hz0⟩ := this (show (0 : ℝ) ∈ Set.Icc (f t) (f u) from ⟨h6, h5.le⟩)
  exact ⟨t, z, e, by linarith [hz.1], hz.2, by linarith [hz.1], by linarith [hz.2], by linarith, h3, hz0⟩

/-- When the ray is on the same side at both ends of the bracket there is no hit. -/
theorem C26_same_side (f : ℝ → ℝ) (tol min max : ℝ) (fuel : Nat) (h : 0 < f min * f max) :
    Iso.bisect (fun t => .ok (f t)) tol fuel min max = .ok 0 := by
  rw [Iso.bisect, ok_bind, ok_bind, lt_real, lit_real, Rat.cast_zero, if_pos (by simpa using h)]
  rfl

/-- The reported record: at the distance found by bisection between the crossings with the bounding box (extended by
`Tiny` on both sides), with the local coordinates of that point. -/
theorem C26_record {M : Type} (s : Iso ℝ M) (r : Ray ℝ) (h : HitRecord ℝ M) (e : s.hit r = .ok h) (ht : h.t ≠ 0) :
    ∃ t1 t2, s.bounds.intersect2 r = (t1, t2) ∧ 0 < t2 ∧
      Iso.bisect (fun t => s.isoValueAt (r.at t)) s.tol s.fuel (t1 - tiny) (t2 + tiny) = .ok h.t ∧
      h.loc = ⟨(r.at h.t).x / s.bounds.max.x, (r.at h.t).z / s.bounds.max.z, 0⟩ ∧ h.mat = s.mat := by
  obtain ⟨⟨t1, t2⟩, hb⟩ : ∃ x, s.bounds.intersect2 r = x := ⟨_, rfl⟩
  rw [Iso.hit, hb] at e
  refine ⟨t1, t2, hb, ?_⟩
  by_cases h2 : 0 < t2
  · simp only [lt_real, lit_real, Rat.cast_zero, h2, decide_true, Bool.not_true, Bool.false_eq_true, if_false] at e
    obtain ⟨t, et, e⟩ := bind_eq_ok.1 e
    by_cases h0 : t = 0
    · exfalso
      simp only [eq_real, h0, decide_true, if_true] at e
      exact ht (by rw [← Except.ok.inj e]; simp [HitRecord.miss])
    · simp only [eq_real, h0, decide_false, Bool.false_eq_true, if_false] at e
      obtain ⟨n, -, e⟩ := bind_eq_ok.1 e
      have := (Except.ok.inj e).symm
      subst this
      exact ⟨h2, et, by simp [Iso.localUV], rfl⟩
  · simp only [lt_real, lit_real, Rat.cast_zero, h2, decide_false, Bool.not_false, if_true] at e
    exact absurd (by rw [← Except.ok.inj e]; simp [HitRecord.miss]) ht

/-- Violation: whenever the bracket begins below the surface and ends above it, the start of the bracket is reported,
however far the crossing is. -/
theorem C26_violated_below (f : ℝ → ℝ) (tol min max : ℝ) (fuel : Nat) (htol : 0 < tol) (hmm : min < max)
    (hmin : f min < 0) (hmax : 0 ≤ f max) :
    Iso.bisect (fun t => .ok (f t)) tol fuel min max = .ok min := by
  rw [Iso.bisect, ok_bind, ok_bind, lt_real, lit_real, Rat.cast_zero,
    if_neg (by simpa using mul_nonpos_of_nonpos_of_nonneg hmin.le hmax), ok_bind, lt_real]
  simp only [not_lt.2 hmin.le, decide_false, Bool.false_eq_true, if_false]
  rw [Iso.bisectLoop.eq_def]
  dsimp only
  rw [lt_real, if_neg (by simp; linarith)]

/-- For example a ray from depth 1 below a flat surface upwards: the crossing is at distance 2 of the bracket [1,5], the
report is 1. -/
example : Iso.bisect (fun t : ℝ => .ok (t - 2)) (1 / 1024) 100 1 5 = .ok 1 :=
  C26_violated_below (fun t => t - 2) _ _ _ _ (by norm_num) (by norm_num) (by norm_num) (by norm_num)

/-- And downwards on the same surface the bisection works. -/
example : ∃ t z, Iso.bisect (fun t : ℝ => .ok (2 - t)) (1 / 1024) 12 1 5 = .ok t ∧ t - 1 / 1024 ≤ z ∧ z ≤ t ∧
    1 ≤ z ∧ z ≤ 5 ∧ 1 < t ∧ t ≤ 5 ∧ 2 - z = 0 :=
  C26_crossing_partial _ (fun t => 2 - t) (by fun_prop) _ _ _ _ (by norm_num) (by norm_num) (fun _ _ _ => rfl)
    (by norm_num) (by norm_num) (by norm_num)

/-- One direction of the box test in exact arithmetic. -/
private theorem slab_real {mn mx s d : ℝ} (hd : d ≠ 0) (t : ℝ) (hm : mn ≤ mx) :
    (mn ≤ s + t * d ∧ s + t * d ≤ mx) ↔ (BBox.slab mn mx s d).1 ≤ t ∧ t ≤ (BBox.slab mn mx s d).2 := by
  unfold BBox.slab fmin fmax
  simp only [lit_real, Rat.cast_one, lt_real]
  rw [show (mn - s) * (1 / d) = (mn - s) / d by ring, show (mx - s) * (1 / d) = (mx - s) / d by ring]
  rcases lt_or_gt_of_ne hd with h | h
  · have e1 : mn ≤ s + t * d ↔ t ≤ (mn - s) / d := by rw [le_div_iff_of_neg h]; constructor <;> intro <;> linarith
    have e2 : s + t * d ≤ mx ↔ (mx - s) / d ≤ t := by rw [div_le_iff_of_neg h]; constructor <;> intro <;> linarith
    have e3 : (mx - s) / d ≤ (mn - s) / d := by rw [div_le_div_right_of_neg h]; linarith
    rw [e1, e2, and_comm]
    by_cases e4 : (mx - s) / d < (mn - s) / d
    · simp [e4, e4.not_gt]
    · have := le_antisymm e3 (not_lt.1 e4)
      simp [this]
  · have e1 : mn ≤ s + t * d ↔ (mn - s) / d ≤ t := by rw [div_le_iff₀ h]; constructor <;> intro <;> linarith
    have e2 : s + t * d ≤ mx ↔ t ≤ (mx - s) / d := by rw [le_div_iff₀ h]; constructor <;> intro <;> linarith
    have e3 : (mn - s) / d ≤ (mx - s) / d := by rw [div_le_div_iff_of_pos_right h]; linarith
    rw [e1, e2]
    by_cases e4 : (mn - s) / d < (mx - s) / d
    · simp [e4, e4.not_gt]
    · have := le_antisymm e3 (not_lt.1 e4)
      simp [this]

/-- The box test returns the ends of the part of the ray inside the box. -/
private theorem intersect2_real (b : BBox ℝ) (hx : b.min.x ≤ b.max.x) (hy : b.min.y ≤ b.max.y) (hz : b.min.z ≤ b.max.z)
    (r : Ray ℝ) (dx : r.dir.x ≠ 0) (dy : r.dir.y ≠ 0) (dz : r.dir.z ≠ 0) (t1 t2 : ℝ) (h12 : t1 ≤ t2)
    (h : ∀ t, (b.min.x ≤ (r.at t).x ∧ (r.at t).x ≤ b.max.x ∧ b.min.y ≤ (r.at t).y ∧ (r.at t).y ≤ b.max.y ∧
      b.min.z ≤ (r.at t).z ∧ (r.at t).z ≤ b.max.z) ↔ t1 ≤ t ∧ t ≤ t2) : b.intersect2 r = (t1, t2) := by
  have e : ∀ t, ((b.tenTex r).1 ≤ t ∧ t ≤ (b.tenTex r).2) ↔ t1 ≤ t ∧ t ≤ t2 := by
    intro t
    rw [← h]
    have sx := slab_real (s := r.start.x) dx t hx
    have sy := slab_real (s := r.start.y) dy t hy
    have sz := slab_real (s := r.start.z) dz t hz
    have m3 : ∀ a b c : ℝ, BBox.max3 a b c ≤ t ↔ a ≤ t ∧ b ≤ t ∧ c ≤ t := by
      intro a b c
      unfold BBox.max3
      simp only [lt_real, decide_eq_true_eq]
      split_ifs <;> constructor <;> intro hh <;> (try refine ⟨?_, ?_, ?_⟩) <;> linarith
    have n3 : ∀ a b c : ℝ, t ≤ BBox.min3 a b c ↔ t ≤ a ∧ t ≤ b ∧ t ≤ c := by
      intro a b c
      unfold BBox.min3
      simp only [lt_real, decide_eq_true_eq]
      split_ifs <;> constructor <;> intro hh <;> (try refine ⟨?_, ?_, ?_⟩) <;> linarith
    unfold BBox.tenTex
    dsimp only
    rw [m3, n3]
    simp only [Ray.at, geo]
    tauto
  have le1 := (e t1).2 ⟨le_rfl, h12⟩
  have le2 := (e t2).2 ⟨h12, le_rfl⟩
  have le3 := (e (b.tenTex r).1).1 ⟨le_rfl, le1.1.trans le1.2⟩
  have le4 := (e (b.tenTex r).2).1 ⟨le1.1.trans le1.2, le_rfl⟩
  have q1 : (b.tenTex r).1 = t1 := le_antisymm le1.1 le3.1
  have q2 : (b.tenTex r).2 = t2 := le_antisymm le4.2 le2.2
  unfold BBox.intersect2
  generalize b.tenTex r = x at *
  obtain ⟨a, c⟩ := x
  dsimp only at q1 q2 ⊢
  subst q1 q2
  rw [lt_real, if_neg (by simpa using h12)]

/-- **C26 (the surface itself, partial).** For every surface `y = dy·f(x/dx, z/dz)` with a continuous height function
between 0 and 1 and every ray that enters its box in front of the start, that is above the surface `Tiny` before
it enters the box and below it `Tiny` after it leaves: the ray hits, and it crosses the surface at most 2⁻²⁰ before the
reported distance. Missing: rays that start inside the box or leave it above the surface (`C26_violated_below`), and
rays parallel to a face of the box (division by zero is not modelled by exact numbers). -/
theorem C26_surface_partial {M : Type} (m : Option M) (dx dy dz : ℝ) (px : 0 < dx) (py : 0 < dy) (pz : 0 < dz)
    (f : ℝ → ℝ → ℝ) (hf : Continuous fun p : ℝ × ℝ => f p.1 p.2) (r : Ray ℝ)
    (hr : ∀ u v, 0 ≤ f u v ∧ f u v ≤ 1) (vx : r.dir.x ≠ 0) (vy : r.dir.y ≠ 0) (vz : r.dir.z ≠ 0) (t1 t2 : ℝ)
    (h12 : t1 ≤ t2) (ht1 : tiny < t1)
    (hbox : ∀ t, (0 ≤ (r.at t).x ∧ (r.at t).x ≤ dx ∧ 0 ≤ (r.at t).y ∧ (r.at t).y ≤ dy ∧ 0 ≤ (r.at t).z ∧ (r.at t).z ≤ dz) ↔
      t1 ≤ t ∧ t ≤ t2)
    (above : dy * f ((r.at (t1 - tiny)).x / dx) ((r.at (t1 - tiny)).z / dz) < (r.at (t1 - tiny)).y)
    (below : (r.at (t2 + tiny)).y ≤ dy * f ((r.at (t2 + tiny)).x / dx) ((r.at (t2 + tiny)).z / dz)) :
    ∃ fuel0, ∀ fuel, fuel0 ≤ fuel → ∃ h, (Obj.isoSurface fuel m dx dy dz f).intersect r = .ok (h, r) ∧ 0 < h.t ∧ h.mat = m ∧ h.t ≤ t2 + tiny ∧
      ∃ z, h.t - 1 / 1048576 ≤ z ∧ z ≤ h.t ∧ t1 - tiny ≤ z ∧ z ≤ t2 + tiny ∧
        (r.at z).y = dy * f ((r.at z).x / dx) ((r.at z).z / dz) := by
  have tp : (0 : ℝ) < tiny := by unfold tiny; rw [lit_real]; norm_num
  set g : ℝ → ℝ := fun t => (r.at t).y - dy * f ((r.at t).x / dx) ((r.at t).z / dz) with hg
  obtain ⟨n0, hn0⟩ : ∃ n : Nat, (t2 + tiny - (t1 - tiny)) * 1048576 < (2 : ℝ) ^ n :=
    pow_unbounded_of_one_lt _ (by norm_num)
  refine ⟨n0, fun fuel hfuel => ?_⟩
  have hpow : (2 : ℝ) ^ n0 ≤ 2 ^ fuel := pow_le_pow_right₀ (by norm_num) hfuel
  have hgc : Continuous g := by
    have h1 : Continuous fun t : ℝ => (((r.at t).x / dx, (r.at t).z / dz) : ℝ × ℝ) := by
      simp only [Ray.at, geo]; fun_prop
    have h2 : Continuous fun t : ℝ => (r.at t).y := by simp only [Ray.at, geo]; fun_prop
    exact h2.sub (continuous_const.mul (hf.comp h1))
  set s : Iso ℝ M := { bounds := ⟨⟨lit 0, lit 0, lit 0⟩, ⟨dx, dy, dz⟩⟩, tol := lit (1 / (1024 * 1024)), mat := m,
                       hmap := f, fuel := fuel } with hs
  have hht : ∀ u v : ℝ, s.heightAtUV u v = .ok (dy * f u v) := by
    intro u v
    have := hr u v
    have n1 : ¬ f u v < ((-(1 / 1024) : ℚ) : ℝ) := by push_cast; linarith
    have n2 : ¬ ((1 + 1 / 1024 : ℚ) : ℝ) < f u v := by push_cast; linarith
    simp only [Iso.heightAtUV, hs, lit_real, lt_real, n1, n2, decide_false, Bool.or_self, Bool.false_eq_true, if_false]
  have hiso : ∀ t, s.isoValueAt (r.at t) = .ok (g t) := by
    intro t
    simp only [Iso.isoValueAt, Iso.heightAt, hht, ok_bind]
    rfl
  obtain ⟨t, z, eb, z1, z2, z3, z4, tt, tm, z0⟩ := C26_crossing_partial (fun t => s.isoValueAt (r.at t)) g hgc
    (1 / 1048576) (t1 - tiny) (t2 + tiny) fuel (by norm_num) (by linarith) (fun t _ _ => hiso t)
    (by rw [hg]; linarith) (by rw [hg]; linarith) (by linarith)
  have e2 : s.bounds.intersect2 r = (t1, t2) := by
    refine intersect2_real s.bounds ?_ ?_ ?_ r vx vy vz t1 t2 h12 ?_
    · simpa [hs] using px.le
    · simpa [hs] using py.le
    · simpa [hs] using pz.le
    · intro t
      rw [← hbox t]
      simp [hs]
  have htol : s.tol = 1 / 1048576 := by rw [hs, lit_real]; norm_num
  have hfu : s.fuel = fuel := rfl
  have t0 : t ≠ 0 := by linarith
  have hhit : ∃ n, s.hit r = .ok ⟨t, n, ⟨(s.localUV (r.at t)).1, (s.localUV (r.at t)).2, lit 0⟩, m⟩ := by
    rw [Iso.hit, e2]
    simp only [lt_real, lit_real, Rat.cast_zero, show 0 < t2 by linarith, decide_true, Bool.not_true, Bool.false_eq_true,
      if_false]
    rw [htol, hfu, eb, ok_bind]
    simp only [eq_real, t0, decide_false, Bool.false_eq_true, if_false]
    simp only [Iso.normalAtUV, hht, ok_bind]
    exact ⟨_, rfl⟩
  obtain ⟨n, hhit⟩ := hhit
  have ei : (Obj.isoSurface fuel m dx dy dz f).intersect r =
      .ok (⟨t, n, ⟨(s.localUV (r.at t)).1, (s.localUV (r.at t)).2, lit 0⟩, m⟩, r) := by
    rw [Obj.isoSurface, Obj.intersect, ← hs, hhit, ok_bind]
    rfl
  refine ⟨_, ei, by dsimp only; linarith, rfl, tm, z, z1, z2, z3, z4, ?_⟩
  have : g z = 0 := z0
  rw [hg] at this
  linarith

/-- Non-vacuity: a ray slanting down on a flat surface at half height. -/
example : ∀ t, (0 ≤ ((⟨⟨0, 4, 0⟩, ⟨1 / 8, -1, 1 / 8⟩⟩ : Ray ℝ).at t).x ∧ ((⟨⟨0, 4, 0⟩, ⟨1 / 8, -1, 1 / 8⟩⟩ : Ray ℝ).at t).x ≤ 1 ∧
    0 ≤ ((⟨⟨0, 4, 0⟩, ⟨1 / 8, -1, 1 / 8⟩⟩ : Ray ℝ).at t).y ∧ ((⟨⟨0, 4, 0⟩, ⟨1 / 8, -1, 1 / 8⟩⟩ : Ray ℝ).at t).y ≤ 1 ∧
    0 ≤ ((⟨⟨0, 4, 0⟩, ⟨1 / 8, -1, 1 / 8⟩⟩ : Ray ℝ).at t).z ∧ ((⟨⟨0, 4, 0⟩, ⟨1 / 8, -1, 1 / 8⟩⟩ : Ray ℝ).at t).z ≤ 1) ↔
    3 ≤ t ∧ t ≤ 4 := by
  intro t
  simp only [Ray.at, geo]
  constructor
  · rintro ⟨h1, h2, h3, h4, h5, h6⟩; constructor <;> linarith
  · rintro ⟨h1, h2⟩; refine ⟨?_, ?_, ?_, ?_, ?_, ?_⟩ <;> linarith

/-- Violation in rounded arithmetic: once the midpoint of the bracket rounds to its lower end and the bracket is still
wider than the tolerance, the loop never ends. (With `float64` this is the case for neighbouring numbers above 2³³,
which are further apart than the tolerance 2⁻²⁰.) -/
theorem C26_violated_termination {F : Type} [Add F] [Sub F] [Mul F] [Div F] [Neg F] [GoFloat F] (iso : F → GoM F)
    (tol a b v : F) (hw : ((b - a) >. tol) = true) (hm : (a + b) / lit 2 = a) (hv : iso a = .ok v)
    (hp : (v >. lit 0) = true) (fuel : Nat) : Iso.bisectLoop iso tol fuel a b = .error .diverge := by
  induction fuel with
  | zero => rw [Iso.bisectLoop, if_pos hw]
  | succ n ih =>
    rw [Iso.bisectLoop, if_pos hw]
    dsimp only
    rw [hm, hv, ok_bind, if_pos hp]
    exact ih

end BR
