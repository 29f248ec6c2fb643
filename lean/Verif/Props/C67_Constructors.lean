import Verif.Props.C68_Mesh
import Verif.Lemmas.ExtBox

/-!
C67: the constructors make the shapes they name: boxes, cylinders with caps, parallelograms, rectangles, disks and
height surfaces of the given size at the given place.
-/

namespace BR

variable {M : Type}

open Ext

/-! ## Boxes -/

/-- A point is inside a box made from sizes and centre iff it is nearer to the centre than half the size in every
direction. -/
theorem C67_box_inside (m : Option M) (w h d : Ext) (W H D : ℝ) (hw : w.Is W) (hh : h.Is H) (hd : d.Is D)
    (c p : Vec Ext) (C P : Vec ℝ) (hc : c.Is C) (hp : p.Is P) :
    (Obj.mkBox m w h d c).inside p =
      .ok (decide (|P.x - C.x| < W / 2 ∧ |P.y - C.y| < H / 2 ∧ |P.z - C.z| < D / 2)) := by
  have two : (lit 2 : Ext).Is 2 := by simpa using Ext.Is.lit 2
  have lo : ∀ {a k : Ext} {x y : ℝ}, a.Is x → k.Is y → (-a / lit 2 + k).Is (-x / 2 + y) := fun ha hk =>
    ((ha.neg).div two two_ne_zero).add hk
  have hi : ∀ {a k : Ext} {x y : ℝ}, a.Is x → k.Is y → (a / lit 2 + k).Is (x / 2 + y) := fun ha hk =>
    (ha.div two two_ne_zero).add hk
  simp only [Obj.mkBox, Obj.inside, BBox.translated, BBox.inside, Vec.add]
  rw [(lo hw hc.1).lt hp.1, hp.1.lt (hi hw hc.1), (lo hh hc.2.1).lt hp.2.1, hp.2.1.lt (hi hh hc.2.1),
    (lo hd hc.2.2).lt hp.2.2, hp.2.2.lt (hi hd hc.2.2)]
  congr 1
  rw [Bool.eq_iff_iff]
  simp only [Bool.and_eq_true, decide_eq_true_eq, abs_lt]
  constructor
  · rintro ⟨⟨⟨⟨⟨h1, h2⟩, h3⟩, h4⟩, h5⟩, h6⟩
    refine ⟨⟨?_, ?_⟩, ⟨?_, ?_⟩, ?_, ?_⟩ <;> linarith
  · rintro ⟨⟨h1, h2⟩, ⟨h3, h4⟩, h5, h6⟩
    refine ⟨⟨⟨⟨⟨?_, ?_⟩, ?_⟩, ?_⟩, ?_⟩, ?_⟩ <;> linarith

/-- The real box of the given sizes around a centre. -/
noncomputable def centredBox (W H D : ℝ) (C : Vec ℝ) : BBox ℝ :=
  ⟨⟨C.x - W / 2, C.y - H / 2, C.z - D / 2⟩, ⟨C.x + W / 2, C.y + H / 2, C.z + D / 2⟩⟩

/-- A box made from sizes and centre is the box object with exactly these faces, so that everything proved about the
intersection of rays with boxes (`C19`) is about the box the user asked for. -/
theorem C67_box (m : Option M) (w h d : Ext) (W H D : ℝ) (hw : w.Is W) (hh : h.Is H) (hd : d.Is D)
    (c : Vec Ext) (C : Vec ℝ) (hc : c.Is C) :
    ∃ b, Obj.mkBox m w h d c = .box b m ∧ b.Is (centredBox W H D C) := by
  have two : (lit 2 : Ext).Is 2 := by simpa using Ext.Is.lit 2
  have lo : ∀ {a k : Ext} {x y : ℝ}, a.Is x → k.Is y → (-a / lit 2 + k).Is (y - x / 2) := fun ha hk => by
    have := ((ha.neg).div two two_ne_zero).add hk
    rwa [show ∀ x y : ℝ, -x / 2 + y = y - x / 2 from fun x y => by ring] at this
  have hi : ∀ {a k : Ext} {x y : ℝ}, a.Is x → k.Is y → (a / lit 2 + k).Is (y + x / 2) := fun ha hk => by
    have := (ha.div two two_ne_zero).add hk
    rwa [add_comm] at this
  exact ⟨_, rfl, ⟨lo hw hc.1, lo hh hc.2.1, lo hd hc.2.2⟩, ⟨hi hw hc.1, hi hh hc.2.1, hi hd hc.2.2⟩⟩

/-! ## Cylinders -/

private theorem is_tiny : (tiny : Ext).Is (1 / (1204 * 1024)) := by
  have := Ext.Is.lit (1 / (1204 * 1024))
  simpa [tiny] using this

/-- A point is inside a cylinder (without caps) iff it is nearer to the axis than the radius and, but for a margin, at a
height within its ends. -/
theorem C67_cylinder_inside (m : Option M) (d h : Ext) (D H : ℝ) (hd : d.Is D) (hh : h.Is H) (hD : 0 ≤ D)
    (c p : Vec Ext) (C P : Vec ℝ) (hc : c.Is C) (hp : p.Is P) :
    (Obj.cylinder m d h c).inside p = .ok (decide ((P.x - C.x) ^ 2 + (P.z - C.z) ^ 2 < (D / 2) ^ 2 ∧
      |P.y - C.y| < H / 2 + 1 / (1204 * 1024))) := by
  have two : (lit 2 : Ext).Is 2 := by simpa using Ext.Is.lit 2
  have zero : (lit 0 : Ext).Is 0 := by simpa using Ext.Is.lit 0
  have one : (lit 1 : Ext).Is 1 := by simpa using Ext.Is.lit 1
  have hr := hd.div two two_ne_zero
  have hq : ((Obj.cylinderQ m d h c).a.mul3 (p.sub c)).dot (p.sub c) |>.Is
      (1 * (P.x - C.x) * (P.x - C.x) + 0 * (P.y - C.y) * (P.y - C.y) + 1 * (P.z - C.z) * (P.z - C.z)) :=
    (((one.mul (hp.1.sub hc.1)).mul (hp.1.sub hc.1)).add ((zero.mul (hp.2.1.sub hc.2.1)).mul (hp.2.1.sub hc.2.1))).add
      ((one.mul (hp.2.2.sub hc.2.2)).mul (hp.2.2.sub hc.2.2))
  simp only [Obj.cylinder, Obj.inside, Quadric.inside]
  have hb : (Obj.cylinderQ m d h c).bounds.inside p = decide (|P.x - C.x| < D / 2 + 1 / (1204 * 1024) ∧
      |P.y - C.y| < H / 2 + 1 / (1204 * 1024) ∧ |P.z - C.z| < D / 2 + 1 / (1204 * 1024)) := by
    simp only [Obj.cylinderQ, BBox.withMargin, BBox.translated, BBox.inside, Vec.add]
    have t := is_tiny
    rw [(((hr.neg).add hc.1).add t.neg).lt hp.1, hp.1.lt ((hr.add hc.1).add t),
      ((((hh.neg).div two two_ne_zero).add hc.2.1).add t.neg).lt hp.2.1,
      hp.2.1.lt (((hh.div two two_ne_zero).add hc.2.1).add t),
      (((hr.neg).add hc.2.2).add t.neg).lt hp.2.2, hp.2.2.lt ((hr.add hc.2.2).add t), Bool.eq_iff_iff]
    simp only [Bool.and_eq_true, decide_eq_true_eq, abs_lt]
    constructor
    · rintro ⟨⟨⟨⟨⟨h1, h2⟩, h3⟩, h4⟩, h5⟩, h6⟩
      refine ⟨⟨?_, ?_⟩, ⟨?_, ?_⟩, ?_, ?_⟩ <;> linarith
    · rintro ⟨⟨h1, h2⟩, ⟨h3, h4⟩, h5, h6⟩
      refine ⟨⟨⟨⟨⟨?_, ?_⟩, ?_⟩, ?_⟩, ?_⟩, ?_⟩ <;> linarith
  have hv : (((Obj.cylinderQ m d h c).a.mul3 (p.sub (Obj.cylinderQ m d h c).origin)).dot
      (p.sub (Obj.cylinderQ m d h c).origin) <. (Obj.cylinderQ m d h c).b) =
      decide ((P.x - C.x) ^ 2 + (P.z - C.z) ^ 2 < (D / 2) ^ 2) := by
    have e : (Obj.cylinderQ m d h c).origin = c := rfl
    have eb : (Obj.cylinderQ m d h c).b = d / lit 2 * (d / lit 2) := rfl
    rw [e, eb, hq.lt (hr.mul hr), Bool.eq_iff_iff, decide_eq_true_eq, decide_eq_true_eq]
    constructor <;> intro h <;> nlinarith
  rw [hb, hv]
  congr 1
  have key : ∀ u : ℝ, u ^ 2 < (D / 2) ^ 2 → |u| < D / 2 := fun u hu => abs_lt_of_sq_lt_sq hu (by positivity)
  by_cases h1 : (P.x - C.x) ^ 2 + (P.z - C.z) ^ 2 < (D / 2) ^ 2
  · have hx := key (P.x - C.x) (by nlinarith [sq_nonneg (P.z - C.z)])
    have hz := key (P.z - C.z) (by nlinarith [sq_nonneg (P.x - C.x)])
    have t0 : (0 : ℝ) < 1 / (1204 * 1024) := by norm_num
    have hx' : |P.x - C.x| < D / 2 + 1 / (1204 * 1024) := by linarith
    have hz' : |P.z - C.z| < D / 2 + 1 / (1204 * 1024) := by linarith
    by_cases h2 : |P.y - C.y| < H / 2 + 1 / (1204 * 1024)
    · rw [decide_eq_true (p := _ ∧ _ ∧ _) ⟨hx', h2, hz'⟩, decide_eq_true h1, decide_eq_true (p := _ ∧ _) ⟨h1, h2⟩]
      rfl
    · rw [decide_eq_false (p := _ ∧ _ ∧ _) fun h => h2 h.2.1, decide_eq_false (p := _ ∧ _) fun h => h2 h.2]
      rfl
  · simp [h1]

/-- A point is inside a cylinder with caps iff it is nearer to the axis than the radius and at a height strictly between
its ends. -/
theorem C67_caps_inside (m : Option M) (d h : Ext) (D H : ℝ) (hd : d.Is D) (hh : h.Is H) (hD : 0 ≤ D)
    (c p : Vec Ext) (C P : Vec ℝ) (hc : c.Is C) (hp : p.Is P) :
    (Obj.cylinderWithCaps m d h c).inside p = .ok (decide ((P.x - C.x) ^ 2 + (P.z - C.z) ^ 2 < (D / 2) ^ 2 ∧
      |P.y - C.y| < H / 2)) := by
  have h1 := C67_cylinder_inside m d h D H hd hh hD c p C P hc hp
  have h2 := C67_box_inside m d h d D H D hd hh hd c p C P hc hp
  rw [Obj.cylinderWithCaps, Obj.inside, h1, ok_bind, h2]
  have key : ∀ u : ℝ, u ^ 2 < (D / 2) ^ 2 → |u| < D / 2 := fun u hu => abs_lt_of_sq_lt_sq hu (by positivity)
  by_cases q : (P.x - C.x) ^ 2 + (P.z - C.z) ^ 2 < (D / 2) ^ 2
  · have hx := key (P.x - C.x) (by nlinarith [sq_nonneg (P.z - C.z)])
    have hz := key (P.z - C.z) (by nlinarith [sq_nonneg (P.x - C.x)])
    have t0 : (0 : ℝ) < 1 / (1204 * 1024) := by norm_num
    by_cases y : |P.y - C.y| < H / 2
    · have y' : |P.y - C.y| < H / 2 + 1 / (1204 * 1024) := by linarith
      rw [decide_eq_true (p := _ ∧ _) ⟨q, y'⟩, decide_eq_true (p := _ ∧ _) ⟨q, y⟩,
        decide_eq_true (p := _ ∧ _ ∧ _) ⟨hx, y, hz⟩]
      rfl
    · rw [decide_eq_false (p := _ ∧ |P.y - C.y| < H / 2) fun h => y h.2,
        decide_eq_false (p := _ ∧ _ ∧ _) fun h => y h.2.1]
      split <;> rfl
  · rw [decide_eq_false (p := _ ∧ _) fun h => q h.1, decide_eq_false (p := _ ∧ |P.y - C.y| < H / 2) fun h => q h.1]
    rfl

/-! ## Height surfaces -/

/-- A point is inside a height surface iff it is inside its box and below the surface. (The height function must stay
within [0, 1], otherwise the program panics.) -/
theorem C67_iso_inside (fuel : Nat) (m : Option M) (dx dy dz : ℝ) (f : ℝ → ℝ → ℝ) (p : Vec ℝ)
    (hf : 0 ≤ f (p.x / dx) (p.z / dz) ∧ f (p.x / dx) (p.z / dz) ≤ 1) :
    (Obj.isoSurface fuel m dx dy dz f).inside p = .ok (decide (0 < p.x ∧ p.x < dx ∧ 0 < p.y ∧ p.y < dy ∧ 0 < p.z ∧
      p.z < dz ∧ p.y < dy * f (p.x / dx) (p.z / dz))) := by
  simp only [Obj.isoSurface, Obj.inside, Iso.inside, BBox.inside, Iso.heightAt, Iso.heightAtUV, Iso.localUV,
    lt_real, lit_real]
  push_cast
  have h1 : ¬ (f (p.x / dx) (p.z / dz) < -(1 / 1024)) := by linarith [hf.1]
  have h2 : ¬ (1 + 1 / 1024 < f (p.x / dx) (p.z / dz)) := by linarith [hf.2]
  simp only [h1, h2, decide_false, Bool.or_self, Bool.false_eq_true, if_false, ok_bind]
  by_cases hb : 0 < p.x ∧ p.x < dx ∧ 0 < p.y ∧ p.y < dy ∧ 0 < p.z ∧ p.z < dz
  · obtain ⟨b1, b2, b3, b4, b5, b6⟩ := hb
    simp only [b1, b2, b3, b4, b5, b6, decide_true, Bool.and_self, if_true, true_and]
    rfl
  · rw [if_neg (by simp only [Bool.and_eq_true, decide_eq_true_eq]; tauto)]
    congr 1
    symm
    rw [decide_eq_false_iff_not]
    tauto

/-! ## Parallelograms -/

/-- The point lies on the parallelogram with corner `o` and neighbouring corners `a` and `b`. -/
def OnParallelogram (o a b p : Vec ℝ) : Prop :=
  ∃ s t : ℝ, 0 ≤ s ∧ s ≤ 1 ∧ 0 ≤ t ∧ t ≤ 1 ∧
    p = (o.add ((a.sub o).mul s)).add ((b.sub o).mul t)

private theorem onMesh_parallelogram (o a b p : Vec ℝ) :
    OnMesh [o, a, a.add (b.sub o), b] quadFaces p ↔ OnParallelogram o a b p := by
  constructor
  · rintro ⟨f, hf, x, y, z, hx, hy, hz, l0, l1, l2, ⟨h0, h1, h2, hs⟩, rfl⟩
    simp only [quadFaces, List.mem_cons, List.not_mem_nil, or_false] at hf
    rcases hf with rfl | rfl
    · simp at hx hy hz
      subst hx hy hz
      refine ⟨l1, l2, h1, by linarith, h2, by linarith, ?_⟩
      have e : l0 = 1 - l1 - l2 := by linarith
      subst e
      simp only [combine, geo]
      refine ⟨?_, ?_, ?_⟩ <;> ring
    · simp at hx hy hz
      subst hx hy hz
      -- c = l0, b = l1, a = l2
      refine ⟨l0 + l2, l0 + l1, by linarith, by linarith, by linarith, by linarith, ?_⟩
      have e : l0 = 1 - l1 - l2 := by linarith
      subst e
      simp only [combine, geo]
      refine ⟨?_, ?_, ?_⟩ <;> ring
  · rintro ⟨s, t, hs0, hs1, ht0, ht1, rfl⟩
    by_cases h : s + t ≤ 1
    · refine ⟨(0, 1, 3), by simp [quadFaces], o, a, b, rfl, rfl, rfl, 1 - s - t, s, t,
        ⟨by linarith, hs0, ht0, by ring⟩, ?_⟩
      simp only [combine, geo]
      refine ⟨?_, ?_, ?_⟩ <;> ring
    · refine ⟨(2, 3, 1), by simp [quadFaces], a.add (b.sub o), b, a, rfl, rfl, rfl, s + t - 1, 1 - s, 1 - t,
        ⟨by linarith, by linarith, by linarith, by ring⟩, ?_⟩
      simp only [combine, geo]
      refine ⟨?_, ?_, ?_⟩ <;> ring

private theorem transverse_parallelogram {o a b d : Vec ℝ} (h : Transverse o a b d) :
    MeshTransverse [o, a, a.add (b.sub o), b] quadFaces d := by
  intro f hf x y z hx hy hz
  simp only [quadFaces, List.mem_cons, List.not_mem_nil, or_false] at hf
  rcases hf with rfl | rfl
  · simp at hx hy hz
    subst hx hy hz
    exact h
  · simp at hx hy hz
    subst hx hy hz
    intro h0
    apply h
    simp only [triNormal, geo] at h0 ⊢
    linarith

/-- A parallelogram made from a corner and its two neighbours reports exactly the crossings with that parallelogram,
for rays that are not parallel to it and start clear of the corners. Missing: rays that miss it but meet its
bounding box can be reported at `9e99` (see `C21_violated_phantom`). -/
theorem C67_parallelogram_partial (S : Sorter (Obj Ext M)) (m : Option M) (o a b : Vec Ext) (O A B : Vec ℝ)
    (ho : o.Is O) (ha : a.Is A) (hb : b.Is B) (ob : Obj Ext M) (h : rectangleWithVertices S m o a b = .ok ob)
    (r : Ray Ext) (R : Ray ℝ) (hr : r.Is R) (htr : Transverse O A B R.dir)
    (hgen : StartsClear [O, A, A.add (B.sub O), B] R)
    (hfar : ∀ T, OnParallelogram O A B (R.at T) → T < 9 * 10 ^ 99) :
    ∃ hit, ob.intersect r = .ok (hit, r) ∧ hit.mat = m ∧ ReportsFirst (OnParallelogram O A B) R True hit := by
  have hd : R.dir ≠ ⟨0, 0, 0⟩ := by
    intro h0
    apply htr
    rw [h0]
    simp only [Vec.dot]; ring
  have hon : OnMesh [O, A, A.add (B.sub O), B] quadFaces = OnParallelogram O A B :=
    funext fun p => propext (onMesh_parallelogram O A B p)
  obtain ⟨hit, e, hm, hh⟩ := C68_mesh_partial S m [o, a, a.add (b.sub o), b] [O, A, A.add (B.sub O), B]
    (.cons ho (.cons ha (.cons (ha.add (hb.sub ho)) (.cons hb .nil)))) quadFaces _ ob h r R hr hd
    hgen (by rw [onMeshAcross_eq (transverse_parallelogram htr), hon]; exact hfar)
  rw [onMeshAcross_eq (transverse_parallelogram htr), hon] at hh
  refine ⟨hit, e, hm, ?_⟩
  rcases hh with h | ⟨h1, h | h⟩
  · exact .inl h
  · exact .inr ⟨h1, .inl h⟩
  · exact .inr ⟨h1, .inr ⟨trivial, h.2⟩⟩

/-! ## Rectangles -/

/-- The point lies on the horizontal rectangle of the given width (along x) and depth (along z) around a centre. -/
def OnRect (W D : ℝ) (C p : Vec ℝ) : Prop := p.y = C.y ∧ |p.x - C.x| ≤ W / 2 ∧ |p.z - C.z| ≤ D / 2

private noncomputable def rectBox (W D : ℝ) (C : Vec ℝ) : BBox ℝ :=
  ⟨⟨C.x - W / 2, C.y, C.z - D / 2⟩, ⟨C.x + W / 2, C.y, C.z + D / 2⟩⟩

private theorem mem_rectBox {W D : ℝ} {C p : Vec ℝ} : (rectBox W D C).Mem p ↔ OnRect W D C p := by
  simp only [BBox.Mem, rectBox, OnRect, abs_le]
  constructor
  · rintro ⟨h1, h2, h3, h4, h5, h6⟩
    exact ⟨le_antisymm h4 h3, ⟨by linarith, by linarith⟩, by linarith, by linarith⟩
  · rintro ⟨h1, ⟨h2, h3⟩, h4, h5⟩
    exact ⟨by linarith, by linarith, h1.ge, h1.le, by linarith, by linarith⟩

private theorem spans_unique {B B' : BBox ℝ} {l : List (Vec ℝ)} (h : B.Spans l) (h' : B'.Spans l) : B = B' := by
  obtain ⟨m, ⟨p1, i1, e1⟩, ⟨p2, i2, e2⟩, ⟨p3, i3, e3⟩, ⟨p4, i4, e4⟩, ⟨p5, i5, e5⟩, ⟨p6, i6, e6⟩⟩ := h
  obtain ⟨m', ⟨q1, j1, f1⟩, ⟨q2, j2, f2⟩, ⟨q3, j3, f3⟩, ⟨q4, j4, f4⟩, ⟨q5, j5, f5⟩, ⟨q6, j6, f6⟩⟩ := h'
  have a1 : B.min.x = B'.min.x := le_antisymm (f1 ▸ (m q1 j1).1) (e1 ▸ (m' p1 i1).1)
  have a2 : B.max.x = B'.max.x := le_antisymm (e2 ▸ (m' p2 i2).2.1) (f2 ▸ (m q2 j2).2.1)
  have a3 : B.min.y = B'.min.y := le_antisymm (f3 ▸ (m q3 j3).2.2.1) (e3 ▸ (m' p3 i3).2.2.1)
  have a4 : B.max.y = B'.max.y := le_antisymm (e4 ▸ (m' p4 i4).2.2.2.1) (f4 ▸ (m q4 j4).2.2.2.1)
  have a5 : B.min.z = B'.min.z := le_antisymm (f5 ▸ (m q5 j5).2.2.2.2.1) (e5 ▸ (m' p5 i5).2.2.2.2.1)
  have a6 : B.max.z = B'.max.z := le_antisymm (e6 ▸ (m' p6 i6).2.2.2.2.2) (f6 ▸ (m q6 j6).2.2.2.2.2)
  obtain ⟨⟨x, y, z⟩, ⟨x', y', z'⟩⟩ := B
  obtain ⟨⟨u, v, w⟩, ⟨u', v', w'⟩⟩ := B'
  simp only at a1 a2 a3 a4 a5 a6
  subst a1 a2 a3 a4 a5 a6
  rfl

section
variable (W D : ℝ) (C : Vec ℝ)

private noncomputable def rO : Vec ℝ := ⟨-W / 2 + C.x, 0 + C.y, -D / 2 + C.z⟩
private noncomputable def rA : Vec ℝ := ⟨-W / 2 + C.x, 0 + C.y, D / 2 + C.z⟩
private noncomputable def rB : Vec ℝ := ⟨W / 2 + C.x, 0 + C.y, -D / 2 + C.z⟩

private theorem onParallelogram_rect {W D : ℝ} {C p : Vec ℝ} (hW : 0 < W) (hD : 0 < D) :
    OnParallelogram (rO W D C) (rA W D C) (rB W D C) p ↔ OnRect W D C p := by
  simp only [OnParallelogram, OnRect, rO, rA, rB, geo, abs_le]
  constructor
  · rintro ⟨s, t, hs0, hs1, ht0, ht1, hx, hy, hz⟩
    refine ⟨by rw [hy]; ring, ⟨?_, ?_⟩, ?_, ?_⟩ <;> simp only [hx, hz] <;> nlinarith
  · rintro ⟨hy, ⟨h1, h2⟩, h3, h4⟩
    refine ⟨(p.z - C.z + D / 2) / D, (p.x - C.x + W / 2) / W, div_nonneg (by linarith) hD.le,
      (div_le_one hD).2 (by linarith), div_nonneg (by linarith) hW.le, (div_le_one hW).2 (by linarith), ?_, ?_, ?_⟩
    · field_simp; ring
    · rw [hy]; ring
    · field_simp; ring

private theorem rect_transverse {W D : ℝ} {C d : Vec ℝ} (hW : 0 < W) (hD : 0 < D) (hd : d.y ≠ 0) :
    Transverse (rO W D C) (rA W D C) (rB W D C) d := by
  intro h
  simp only [triNormal, rO, rA, rB, geo] at h
  have : D * W * d.y = 0 := by linarith
  rcases mul_eq_zero.1 this with h | h
  · rcases mul_eq_zero.1 h with h | h <;> linarith
  · exact hd h

private theorem spans1 {W D : ℝ} {C : Vec ℝ} (hW : 0 < W) (hD : 0 < D) :
    (rectBox W D C).Spans [rO W D C, rA W D C, rB W D C] := by
  refine ⟨?_, ⟨rO W D C, by simp, ?_⟩, ⟨rB W D C, by simp, ?_⟩, ⟨rO W D C, by simp, ?_⟩, ⟨rO W D C, by simp, ?_⟩,
    ⟨rO W D C, by simp, ?_⟩, ⟨rA W D C, by simp, ?_⟩⟩
  · intro p hp
    simp only [List.mem_cons, List.not_mem_nil, or_false] at hp
    rcases hp with rfl | rfl | rfl <;>
    · simp only [BBox.Mem, rectBox, rO, rA, rB]
      refine ⟨?_, ?_, ?_, ?_, ?_, ?_⟩ <;> linarith
  all_goals (simp only [rectBox, rO, rA, rB]; ring)

private theorem spans2 {W D : ℝ} {C : Vec ℝ} (hW : 0 < W) (hD : 0 < D) :
    (rectBox W D C).Spans [(rA W D C).add ((rB W D C).sub (rO W D C)), rB W D C, rA W D C] := by
  refine ⟨?_, ⟨rA W D C, by simp, ?_⟩, ⟨rB W D C, by simp, ?_⟩, ⟨rB W D C, by simp, ?_⟩, ⟨rB W D C, by simp, ?_⟩,
    ⟨rB W D C, by simp, ?_⟩, ⟨rA W D C, by simp, ?_⟩⟩
  · intro p hp
    simp only [List.mem_cons, List.not_mem_nil, or_false] at hp
    rcases hp with rfl | rfl | rfl <;>
    · simp only [BBox.Mem, rectBox, rO, rA, rB, Vec.add, Vec.sub]
      refine ⟨?_, ?_, ?_, ?_, ?_, ?_⟩ <;> linarith
  all_goals (simp only [rectBox, rA, rB]; ring)

private theorem spans3 {B : BBox ℝ} (h : B.Proper) : B.Spans [B.min, B.max, B.min, B.max] := by
  obtain ⟨h1, h2, h3⟩ := h
  refine ⟨?_, ⟨_, by simp, rfl⟩, ⟨B.max, by simp, rfl⟩, ⟨B.min, by simp, rfl⟩, ⟨B.max, by simp, rfl⟩,
    ⟨B.min, by simp, rfl⟩, ⟨B.max, by simp, rfl⟩⟩
  intro p hp
  simp only [List.mem_cons, List.not_mem_nil, or_false] at hp
  rcases hp with rfl | rfl | rfl | rfl <;>
  · refine ⟨?_, ?_, ?_, ?_, ?_, ?_⟩ <;> first | exact le_refl _ | assumption

end

private theorem rect_corners {w d : Ext} {W D : ℝ} (hw : w.Is W) (hd : d.Is D) {c : Vec Ext} {C : Vec ℝ} (hc : c.Is C) :
    ((⟨-w / lit 2, lit 0, -d / lit 2⟩ : Vec Ext).add c).Is (rO W D C) ∧
    ((⟨-w / lit 2, lit 0, d / lit 2⟩ : Vec Ext).add c).Is (rA W D C) ∧
    ((⟨w / lit 2, lit 0, -d / lit 2⟩ : Vec Ext).add c).Is (rB W D C) := by
  have two : (lit 2 : Ext).Is 2 := by simpa using Ext.Is.lit 2
  have zero : (lit 0 : Ext).Is 0 := by simpa using Ext.Is.lit 0
  have w1 := hw.div two two_ne_zero
  have w2 := hw.neg.div two two_ne_zero
  have d1 := hd.div two two_ne_zero
  have d2 := hd.neg.div two two_ne_zero
  exact ⟨⟨w2.add hc.1, zero.add hc.2.1, d2.add hc.2.2⟩, ⟨w2.add hc.1, zero.add hc.2.1, d1.add hc.2.2⟩,
    ⟨w1.add hc.1, zero.add hc.2.1, d2.add hc.2.2⟩⟩

/-- A rectangle can be constructed and reports exactly the crossings with the rectangle of the given size around the
given centre, for rays that are not horizontal and not within the vertical plane through an edge. (`False`: other
surfaces with few triangles can report `9e99`, this one cannot.) -/
theorem C67_rectangle (S : Sorter (Obj Ext M)) (m : Option M) (w d : Ext) (W D : ℝ) (hw : w.Is W) (hd : d.Is D)
    (hW : 0 < W) (hD : 0 < D) (c : Vec Ext) (C : Vec ℝ) (hc : c.Is C) :
    ∃ o, rectangle S m w d c = .ok o ∧ ∀ (r : Ray Ext) (R : Ray ℝ), r.Is R → R.dir.y ≠ 0 →
      (R.dir.x = 0 → |R.start.x - C.x| ≠ W / 2) → (R.dir.z = 0 → |R.start.z - C.z| ≠ D / 2) →
      (∀ T, OnRect W D C (R.at T) → T < 9 * 10 ^ 99) →
      ∃ hit, o.intersect r = .ok (hit, r) ∧ hit.mat = m ∧ ReportsFirst (OnRect W D C) R False hit := by
  obtain ⟨hO, hA, hB⟩ := rect_corners hw hd hc
  unfold rectangle rectangleWithVertices
  set o := (⟨-w / lit 2, lit 0, -d / lit 2⟩ : Vec Ext).add c
  set a := (⟨-w / lit 2, lit 0, d / lit 2⟩ : Vec Ext).add c
  set b := (⟨w / lit 2, lit 0, -d / lit 2⟩ : Vec Ext).add c
  have hE := hA.add (hB.sub hO)
  obtain ⟨no, na, ne, nb, e⟩ := quad_spec S m o a (a.add (b.sub o)) b
  dsimp only at e
  -- the bounding box
  obtain ⟨b1, B1, e1, hB1, hS1⟩ := fromHull_is [o, a, b] _ (by simp) (.cons hO (.cons hA (.cons hB .nil)))
  obtain ⟨b2, B2, e2, hB2, hS2⟩ := fromHull_is [a.add (b.sub o), b, a] _ (by simp)
    (.cons hE (.cons hB (.cons hA .nil)))
  obtain rfl := spans_unique hS1 (spans1 hW hD)
  obtain rfl := spans_unique hS2 (spans2 hW hD)
  obtain ⟨bb, B, e3, hBB, hS3⟩ := fromHull_is [b1.min, b1.max, b2.min, b2.max] _ (by simp)
    (.cons hB1.1 (.cons hB1.2 (.cons hB2.1 (.cons hB2.2 .nil))))
  have hP : (rectBox W D C).Proper := hS1.proper
  obtain rfl := spans_unique hS3 (spans3 hP)
  set fs : List (Obj Ext M) := [.face ⟨o, no, lit 0, lit 0⟩ ⟨a, na, lit 1, lit 0⟩ ⟨b, nb, lit 0, lit 1⟩,
    .face ⟨a.add (b.sub o), ne, lit 1, lit 1⟩ ⟨b, nb, lit 0, lit 1⟩ ⟨a, na, lit 1, lit 0⟩] with hfs
  have hbox : makeBoundingBox fs = .ok bb := by
    simp only [makeBoundingBox, hfs, List.mapM_cons, List.mapM_nil, Obj.bounds, Face.bounds, e1, e2, ok_bind, pure_ok]
    exact e3
  rw [hbox, ok_bind] at e
  refine ⟨_, e, ?_⟩
  intro r R hr hdy hex hez hfar
  have hnode : buildTree S fs = .ok (.leaf bb.toF fs, fs) := by
    rw [buildTree, if_pos (by simp [hfs, maxFacePerLeaf]), hbox]; rfl
  have hbbt : (bb.toF).Is (rectBox W D C) := hBB
  have hdir : R.dir ≠ ⟨0, 0, 0⟩ := fun h => hdy (by rw [h])
  have hn : (rectBox W D C).NotInFace R := by
    refine ⟨fun h => ?_, fun h => absurd h hdy, fun h => ?_⟩
    · have := hex h
      constructor <;> intro h' <;> apply this <;> simp only [rectBox] at h' <;> rw [h']
      · rw [show C.x - W / 2 - C.x = -(W / 2) by ring, abs_neg, abs_of_pos (by linarith)]
      · rw [show C.x + W / 2 - C.x = W / 2 by ring, abs_of_pos (by linarith)]
    · have := hez h
      constructor <;> intro h' <;> apply this <;> simp only [rectBox] at h' <;> rw [h']
      · rw [show C.z - D / 2 - C.z = -(D / 2) by ring, abs_neg, abs_of_pos (by linarith)]
      · rw [show C.z + D / 2 - C.z = D / 2 by ring, abs_of_pos (by linarith)]
  have htest : bb.toF.intersects r = true ↔ ∃ t > 0, OnRect W D C (R.at t) := by
    rw [C19_test_partial _ _ hbbt hP r R hr hdir hn]
    constructor
    · rintro ⟨⟨t, ht, h⟩, -⟩
      exact ⟨t, ht, mem_rectBox.1 h⟩
    · rintro ⟨t, ht, h⟩
      refine ⟨⟨t, ht, mem_rectBox.2 h⟩, ?_⟩
      rintro ⟨h0, -⟩
      have y0 := (mem_rectBox.1 h0).1
      have yt := h.1
      simp only [Ray.at, Vec.madd] at y0 yt
      have : t * R.dir.y = 0 := by linarith
      rcases mul_eq_zero.1 this with h | h
      · exact ht.ne' h
      · exact hdy h
  have hV : List.Forall₂ Vec.Is [o, a, a.add (b.sub o), b]
      [rO W D C, rA W D C, (rA W D C).add ((rB W D C).sub (rO W D C)), rB W D C] :=
    .cons hO (.cons hA (.cons hE (.cons hB .nil)))
  have hmesh := transverse_parallelogram (rect_transverse (C := C) hW hD hdy)
  have hon : ∀ p, OnTris [rO W D C, rA W D C, (rA W D C).add ((rB W D C).sub (rO W D C)), rB W D C]
      [(0, 1, 3), (2, 3, 1)] p ↔ OnRect W D C p := by
    intro p
    rw [← onParallelogram_rect hW hD, ← onMesh_parallelogram]
    simp [OnTris, OnMesh, quadFaces]
  have htr : ∀ f ∈ [((0, 1, 3) : Tri), (2, 3, 1)], ∀ x y z,
      [rO W D C, rA W D C, (rA W D C).add ((rB W D C).sub (rO W D C)), rB W D C][f.1]? = some x →
      [rO W D C, rA W D C, (rA W D C).add ((rB W D C).sub (rO W D C)), rB W D C][f.2.1]? = some y →
      [rO W D C, rA W D C, (rA W D C).add ((rB W D C).sub (rO W D C)), rB W D C][f.2.2]? = some z →
      Transverse x y z R.dir := by
    intro f hf x y z hx hy hz
    simp only [List.mem_cons, List.not_mem_nil, or_false] at hf
    rcases hf with rfl | rfl
    · exact hmesh (0, 1, 3) (by simp [quadFaces]) x y z hx hy hz
    · exact hmesh (2, 3, 1) (by simp [quadFaces]) x y z hx hy hz
  have hfaces : List.Forall₂ (FaceOf (M := M) [o, a, a.add (b.sub o), b]) [(0, 1, 3), (2, 3, 1)] fs :=
    .cons ⟨_, _, _, rfl, rfl, rfl, rfl⟩ (.cons ⟨_, _, _, rfl, rfl, rfl, rfl⟩ .nil)
  have hok : ∀ x ∈ fs, x.intersect r = .ok (faceRecord r x, r) := by
    intro x hx
    obtain ⟨f, hf, va, vb, vc, rfl, -⟩ := forall₂_right hfaces x hx
    rfl
  have hsound : ∀ x ∈ fs, (lit 0 <. (faceRecord r x).t) = true →
      ∃ T : ℝ, (faceRecord r x).t.Is T ∧ 0 < T ∧ OnRect W D C (R.at T) := by
    intro x hx hp
    obtain ⟨f, hf, hof⟩ := forall₂_right hfaces x hx
    obtain ⟨T, t1, t2, g, hg, t3⟩ := hof.sound hV hr (htr f hf) hp
    rw [List.mem_singleton] at hg
    subst hg
    exact ⟨T, t1, t2, (hon _).1 ⟨g, hf, t3⟩⟩
  obtain ⟨hit, eh, hh⟩ := tris_nearest_of S _ _ hV [(0, 1, 3), (2, 3, 1)] fs hfaces _ _ hnode r R hr htr (by
    intro hsome
    obtain ⟨hit, eh, hh⟩ := C21_nearest_partial sent_pos S fs _ _ hnode r (faceRecord r) hok (by
      intro x hx hp
      obtain ⟨T, t1, t2, t3⟩ := hsound x hx hp
      have sent : (lit (9 * 10 ^ 99) : Ext).Is (9 * 10 ^ 99) := ⟨false, by simp⟩
      rw [t1.lt sent, decide_eq_true_eq]
      exact hfar T t3) (by
      rintro x hx ⟨f, hf, hp⟩
      simp only [Node.boxes, List.mem_singleton] at hx
      subst hx
      obtain ⟨T, t1, t2, t3⟩ := hsound f hf hp
      exact htest.2 ⟨T, t2, t3⟩) (.inr hsome)
    rcases hh with hh | ⟨hh, -⟩
    · exact ⟨hit, eh, hh⟩
    · exact absurd hh hsome)
  refine ⟨{ hit with mat := m }, ?_, rfl, ?_⟩
  · rw [Obj.intersect, eh, ok_bind]; rfl
  · rcases hh with ⟨T, h1, h2, h3, h4, -⟩ | ⟨h1, h2 | ⟨-, h2, -⟩⟩
    · exact .inl ⟨T, h1, h2, (hon _).1 h3, fun T' hT' h => h4 T' hT' ((hon _).2 h)⟩
    · exact .inr ⟨fun T hT h => h1 T hT ((hon _).2 h), .inl h2⟩
    · exfalso
      have : bb.toF.intersects r = false := by
        rw [Bool.eq_false_iff]
        intro h
        obtain ⟨t, ht, h⟩ := htest.1 h
        exact h1 t ht ((hon _).2 h)
      have := BBox.intersect_le_zero _ _ hbbt hP r R hr hdir hn this
      rw [Node.bb] at h2
      rw [this] at h2
      cases h2

/-- A rectangle seen from above, hit in its interior. -/
example (S : Sorter (Obj Ext M)) (m : Option M) : ∃ o hit, rectangle S m (fin 4) (fin 2) ⟨fin 1, fin 0, fin 0⟩ = .ok o ∧
    o.intersect ⟨⟨fin 2, fin 3, fin 0⟩, ⟨fin 0, fin (-1), fin 0⟩⟩ = .ok (hit, ⟨⟨fin 2, fin 3, fin 0⟩, ⟨fin 0, fin (-1), fin 0⟩⟩) ∧
    hit.t.Is 3 := by
  obtain ⟨o, e, h⟩ := C67_rectangle S m (fin 4) (fin 2) 4 2 ⟨_, rfl⟩ ⟨_, rfl⟩ (by norm_num) (by norm_num)
    ⟨fin 1, fin 0, fin 0⟩ ⟨1, 0, 0⟩ ⟨⟨_, rfl⟩, ⟨_, rfl⟩, ⟨_, rfl⟩⟩
  have key : ∀ T : ℝ, OnRect 4 2 ⟨1, 0, 0⟩ ((⟨⟨2, 3, 0⟩, ⟨0, -1, 0⟩⟩ : Ray ℝ).at T) ↔ T = 3 := by
    intro T
    simp only [OnRect, Ray.at, Vec.madd]
    constructor
    · rintro ⟨h, -⟩; linarith
    · rintro rfl
      refine ⟨by norm_num, ?_, ?_⟩ <;> rw [abs_le] <;> norm_num
  obtain ⟨hit, e', -, hh⟩ := h ⟨⟨fin 2, fin 3, fin 0⟩, ⟨fin 0, fin (-1), fin 0⟩⟩ ⟨⟨2, 3, 0⟩, ⟨0, -1, 0⟩⟩
    ⟨⟨⟨_, rfl⟩, ⟨_, rfl⟩, ⟨_, rfl⟩⟩, ⟨_, rfl⟩, ⟨_, rfl⟩, ⟨_, rfl⟩⟩ (by norm_num)
    (fun _ => by norm_num) (fun _ => by norm_num) (fun T h => by rw [(key T).1 h]; norm_num)
  refine ⟨o, hit, e, e', ?_⟩
  rcases hh with ⟨T, t1, -, t3, -⟩ | ⟨h, -⟩
  · rwa [(key T).1 t3] at t1
  · exact absurd ((key 3).2 rfl) (h 3 (by norm_num))

/-! ## Disks -/

/-- The point lies on the (open) horizontal disk of the given diameter around a centre. -/
def OnOpenDisk (D : ℝ) (C p : Vec ℝ) : Prop := p.y = C.y ∧ (p.x - C.x) ^ 2 + (p.z - C.z) ^ 2 < (D / 2) ^ 2

/-- A disk can be constructed and reports exactly the crossings with the disk of the given diameter around the given
centre, for rays that are not horizontal and not within the vertical plane through an edge of the square around it. -/
theorem C67_disk (S : Sorter (Obj Ext M)) (m : Option M) (d : Ext) (D : ℝ) (hd : d.Is D) (hD : 0 < D)
    (c : Vec Ext) (C : Vec ℝ) (hc : c.Is C) :
    ∃ o, disk S m d c = .ok o ∧ ∀ (r : Ray Ext) (R : Ray ℝ), r.Is R → R.dir.y ≠ 0 →
      (R.dir.x = 0 → |R.start.x - C.x| ≠ D / 2) → (R.dir.z = 0 → |R.start.z - C.z| ≠ D / 2) →
      (∀ T, OnRect D D C (R.at T) → T < 9 * 10 ^ 99) →
      ∃ hit, o.intersect r = .ok (hit, r) ∧ ((lit 0 <. hit.t) = true → hit.mat = m) ∧
        ReportsFirst (OnOpenDisk D C) R False hit := by
  obtain ⟨q, hq, hrect⟩ := C67_rectangle S m d d D D hd hd hD hD c C hc
  have zero : (lit 0 : Ext).Is 0 := by simpa using Ext.Is.lit 0
  refine ⟨.restrict q (Obj.cylinder none d (lit 8 * tiny) c), by rw [disk, hq, ok_bind]; rfl, ?_⟩
  intro r R hr hdy hex hez hfar
  obtain ⟨hit, e, hm, hh⟩ := hrect r R hr hdy hex hez hfar
  have sub : ∀ p, OnOpenDisk D C p → OnRect D D C p := by
    rintro p ⟨h1, h2⟩
    have key : ∀ u : ℝ, u ^ 2 < (D / 2) ^ 2 → |u| ≤ D / 2 := fun u hu => (abs_lt_of_sq_lt_sq hu (by positivity)).le
    exact ⟨h1, key _ (by nlinarith [sq_nonneg (p.z - C.z)]), key _ (by nlinarith [sq_nonneg (p.x - C.x)])⟩
  have one : ∀ T T', OnRect D D C (R.at T) → OnRect D D C (R.at T') → T = T' := by
    intro T T' h h'
    have y := h.1
    have y' := h'.1
    simp only [Ray.at, Vec.madd] at y y'
    have : (T - T') * R.dir.y = 0 := by linarith
    rcases mul_eq_zero.1 this with h | h
    · linarith
    · exact absurd h hdy
  rw [Obj.intersect, march, e, ok_bind]
  dsimp only
  rcases hh with ⟨T, h1, h2, h3, -⟩ | ⟨h1, h2 | ⟨h, -⟩⟩
  · -- the rectangle is crossed
    have hcond : (hit.t >. lit 0 && (100 : Nat) != 0 && hit.t <. GoFloat.inf) = true := by
      obtain ⟨s, hs⟩ := h1
      rw [hs]
      simp [h2]
    rw [marchLoop, if_pos hcond]
    have hins := C67_cylinder_inside (M := M) none d (lit 8 * tiny) D (8 * (1 / (1204 * 1024))) hd
      ((by simpa using Ext.Is.lit 8 : (lit 8 : Ext).Is 8).mul is_tiny) hD.le c (r.at hit.t) C (R.at T) hc (hr.at h1)
    rw [hins, ok_bind]
    have hy : |(R.at T).y - C.y| < 8 * (1 / (1204 * 1024)) / 2 + 1 / (1204 * 1024) := by
      rw [h3.1, sub_self, abs_zero]; norm_num
    by_cases hr2 : ((R.at T).x - C.x) ^ 2 + ((R.at T).z - C.z) ^ 2 < (D / 2) ^ 2
    · rw [decide_eq_true (p := _ ∧ _) ⟨hr2, hy⟩]
      have h10 := h1.add zero
      rw [add_zero] at h10
      exact ⟨{ hit with t := hit.t + lit 0 }, rfl, fun _ => hm, .inl ⟨T, h10, h2, ⟨h3.1, hr2⟩,
        fun T' _ h => (one T T' h3 (sub _ h)).le⟩⟩
    · rw [decide_eq_false (p := _ ∧ _) fun h => hr2 h.1]
      have hδ : (hit.t + tiny).Is (T + 1 / (1204 * 1024)) := h1.add is_tiny
      set δ := T + 1 / (1204 * 1024) with hδdef
      have hr' : ({ r with start := r.at (hit.t + tiny) } : Ray Ext).Is ⟨R.at δ, R.dir⟩ := ⟨hr.at hδ, hr.2⟩
      have hat : ∀ t, (⟨R.at δ, R.dir⟩ : Ray ℝ).at t = R.at (δ + t) := by
        intro t
        simp only [Ray.at, geo]
        refine ⟨?_, ?_, ?_⟩ <;> ring
      have hback : ∀ t, OnRect D D C ((⟨R.at δ, R.dir⟩ : Ray ℝ).at t) → t < 0 := by
        intro t h
        rw [hat] at h
        have := one _ _ h h3
        rw [hδdef] at this
        have t0 : (0 : ℝ) < 1 / (1204 * 1024) := by norm_num
        linarith
      obtain ⟨hit', e', -, hh'⟩ := hrect _ _ hr' hdy (by
          intro h
          have := hex h
          have h0 : R.dir.x = 0 := h
          simpa only [Ray.at, Vec.madd, h0, mul_zero, add_zero] using this) (by
          intro h
          have := hez h
          have h0 : R.dir.z = 0 := h
          simpa only [Ray.at, Vec.madd, h0, mul_zero, add_zero] using this) (fun t h => by have := hback t h; linarith)
      simp only [Bool.false_beq, Bool.not_true, Bool.false_eq_true, if_false]
      rw [e', ok_bind]
      dsimp only
      have hneg : (lit 0 <. hit'.t) = false := by
        rcases hh' with ⟨t, t1, t2, t3, -⟩ | ⟨-, h | ⟨h, -⟩⟩
        · have := hback t t3; linarith
        · exact h
        · exact h.elim
      rw [marchLoop, if_neg (by rw [hneg]; simp)]
      refine ⟨HitRecord.miss, rfl, fun h => ?_, .inr ⟨?_, .inl ?_⟩⟩
      · simp [HitRecord.miss] at h
      · intro T' _ h
        have := one _ _ (sub _ h) h3
        subst this
        exact hr2 h.2
      · simp [HitRecord.miss]
  · rw [marchLoop, if_neg (by rw [h2]; simp)]
    refine ⟨HitRecord.miss, rfl, fun h => ?_, .inr ⟨fun T hT h => h1 T hT (sub _ h), .inl ?_⟩⟩
    · simp [HitRecord.miss] at h
    · simp [HitRecord.miss]
  · exact h.elim

/-- A disk hit beside its centre, and missed in the corner of the square around it. -/
example (S : Sorter (Obj Ext M)) (m : Option M) : ∃ o hit hit', disk S m (fin 4) ⟨fin 0, fin 0, fin 0⟩ = .ok o ∧
    o.intersect ⟨⟨fin 1, fin 3, fin 1⟩, ⟨fin 0, fin (-1), fin 0⟩⟩ =
      .ok (hit, ⟨⟨fin 1, fin 3, fin 1⟩, ⟨fin 0, fin (-1), fin 0⟩⟩) ∧ hit.t.Is 3 ∧
    o.intersect ⟨⟨fin (7 / 4), fin 3, fin (7 / 4)⟩, ⟨fin 0, fin (-1), fin 0⟩⟩ =
      .ok (hit', ⟨⟨fin (7 / 4), fin 3, fin (7 / 4)⟩, ⟨fin 0, fin (-1), fin 0⟩⟩) ∧
    (lit 0 <. hit'.t) = false := by
  obtain ⟨o, e, h⟩ := C67_disk S m (fin 4) 4 ⟨_, rfl⟩ (by norm_num)
    ⟨fin 0, fin 0, fin 0⟩ ⟨0, 0, 0⟩ ⟨⟨_, rfl⟩, ⟨_, rfl⟩, ⟨_, rfl⟩⟩
  have key : ∀ x T : ℝ, OnOpenDisk 4 ⟨0, 0, 0⟩ ((⟨⟨x, 3, x⟩, ⟨0, -1, 0⟩⟩ : Ray ℝ).at T) ↔ T = 3 ∧ x ^ 2 < 2 := by
    intro x T
    simp only [OnOpenDisk, Ray.at, Vec.madd]
    constructor
    · rintro ⟨h, h2⟩; exact ⟨by linarith, by nlinarith⟩
    · rintro ⟨rfl, h⟩
      exact ⟨by norm_num, by nlinarith⟩
  have far : ∀ x T : ℝ, OnRect 4 4 ⟨0, 0, 0⟩ ((⟨⟨x, 3, x⟩, ⟨0, -1, 0⟩⟩ : Ray ℝ).at T) → T < 9 * 10 ^ 99 := by
    intro x T h
    have := h.1
    simp only [Ray.at, Vec.madd] at this
    have : T = 3 := by linarith
    rw [this]; norm_num
  obtain ⟨hit, e', -, hh⟩ := h ⟨⟨fin 1, fin 3, fin 1⟩, ⟨fin 0, fin (-1), fin 0⟩⟩ ⟨⟨1, 3, 1⟩, ⟨0, -1, 0⟩⟩
    ⟨⟨⟨_, rfl⟩, ⟨_, rfl⟩, ⟨_, rfl⟩⟩, ⟨_, rfl⟩, ⟨_, rfl⟩, ⟨_, rfl⟩⟩ (by norm_num)
    (fun _ => by norm_num) (fun _ => by norm_num) (far 1)
  obtain ⟨hit', e'', -, hh'⟩ := h ⟨⟨fin (7 / 4), fin 3, fin (7 / 4)⟩, ⟨fin 0, fin (-1), fin 0⟩⟩
    ⟨⟨7 / 4, 3, 7 / 4⟩, ⟨0, -1, 0⟩⟩
    ⟨⟨⟨_, rfl⟩, ⟨_, rfl⟩, ⟨_, rfl⟩⟩, ⟨_, rfl⟩, ⟨_, rfl⟩, ⟨_, rfl⟩⟩ (by norm_num)
    (fun _ => by norm_num) (fun _ => by norm_num) (far _)
  refine ⟨o, hit, hit', e, e', ?_, e'', ?_⟩
  · rcases hh with ⟨T, t1, -, t3, -⟩ | ⟨h, -⟩
    · rwa [((key 1 T).1 t3).1] at t1
    · exact absurd ((key 1 3).2 ⟨rfl, by norm_num⟩) (h 3 (by norm_num))
  · rcases hh' with ⟨T, t1, -, t3, -⟩ | ⟨-, h | h⟩
    · have := ((key _ T).1 t3).2; norm_num at this
    · exact h
    · exact h.1.elim

/-- A point of a box, of a cylinder with caps and below a height surface. -/
example (m : Option M) : (Obj.mkBox m (fin 2) (fin 4) (fin 6) ⟨fin 1, fin 1, fin 1⟩).inside
      ⟨fin (3 / 2), fin 2, fin 3⟩ = .ok true ∧
    (Obj.cylinderWithCaps m (fin 2) (fin 4) ⟨fin 1, fin 1, fin 1⟩).inside ⟨fin (3 / 2), fin 2, fin 1⟩ = .ok true ∧
    (Obj.isoSurface 3 m (2 : ℝ) 4 6 (fun u _ => u)).inside ⟨1, 1, 1⟩ = .ok true := by
  refine ⟨?_, ?_, ?_⟩
  · rw [C67_box_inside m (fin 2) (fin 4) (fin 6) 2 4 6 ⟨_, rfl⟩ ⟨_, rfl⟩ ⟨_, rfl⟩
      ⟨fin 1, fin 1, fin 1⟩ ⟨fin (3 / 2), fin 2, fin 3⟩ ⟨1, 1, 1⟩ ⟨3 / 2, 2, 3⟩
      ⟨⟨_, rfl⟩, ⟨_, rfl⟩, ⟨_, rfl⟩⟩ ⟨⟨_, rfl⟩, ⟨_, rfl⟩, ⟨_, rfl⟩⟩]
    norm_num
  · rw [C67_caps_inside m (fin 2) (fin 4) 2 4 ⟨_, rfl⟩ ⟨_, rfl⟩ (by norm_num)
      ⟨fin 1, fin 1, fin 1⟩ ⟨fin (3 / 2), fin 2, fin 1⟩ ⟨1, 1, 1⟩ ⟨3 / 2, 2, 1⟩
      ⟨⟨_, rfl⟩, ⟨_, rfl⟩, ⟨_, rfl⟩⟩ ⟨⟨_, rfl⟩, ⟨_, rfl⟩, ⟨_, rfl⟩⟩]
    norm_num
  · rw [C67_iso_inside 3 m 2 4 6 _ ⟨1, 1, 1⟩ (by norm_num)]
    norm_num

end BR
