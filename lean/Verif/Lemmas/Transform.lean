import Verif.Lemmas.ExtIs
import Verif.Lemmas.ExtBox
import Verif.Lemmas.Geom
import Verif.Props.C20_HullBox
import Verif.Props.C28_Rotation

/-! Boxes of transformed boxes, over the reals and over the extended numbers. -/

namespace BR

/-! ## Reals -/

theorem BBox.contains_real (b : BBox ℝ) (p : Vec ℝ) : b.Contains p ↔ b.Mem p := by
  simp [BBox.Contains, BBox.Mem]

/-- `b` lies within `c`. -/
theorem BBox.within_real (b c : BBox ℝ) :
    b.Within c ↔ c.min.x ≤ b.min.x ∧ b.max.x ≤ c.max.x ∧ c.min.y ≤ b.min.y ∧ b.max.y ≤ c.max.y ∧
      c.min.z ≤ b.min.z ∧ b.max.z ≤ c.max.z := by
  simp [BBox.Within]

theorem BBox.fromHull_real (l : List (Vec ℝ)) (hne : l ≠ []) :
    ∃ b, BBox.fromHull l = .ok b ∧ (∀ v ∈ l, b.Mem v) ∧
      ∀ c : BBox ℝ, (∀ v ∈ l, c.Mem v) → b.Within c := by
  obtain ⟨b, e, h1, h2⟩ := C20_hull l hne (fun v _ => by simp [Vec.isNaN])
  exact ⟨b, e, fun v hv => (b.contains_real v).1 (h1 v hv),
    fun c hc => h2 c fun v hv => (c.contains_real v).2 (hc v hv)⟩

/-- An affine function on a box is at least its least value on the corners. -/
theorem corner_le {a b c d m x0 x1 y0 y1 z0 z1 x y z : ℝ} (hx0 : x0 ≤ x) (hx1 : x ≤ x1) (hy0 : y0 ≤ y)
    (hy1 : y ≤ y1) (hz0 : z0 ≤ z) (hz1 : z ≤ z1)
    (h : ∀ x' ∈ [x0, x1], ∀ y' ∈ [y0, y1], ∀ z' ∈ [z0, z1], m ≤ a * x' + b * y' + c * z' + d) :
    m ≤ a * x + b * y + c * z + d := by
  have hx : ∃ x' ∈ [x0, x1], a * x' ≤ a * x := by
    rcases le_total 0 a with ha | ha
    · exact ⟨x0, by simp, mul_le_mul_of_nonneg_left hx0 ha⟩
    · exact ⟨x1, by simp, mul_le_mul_of_nonpos_left hx1 ha⟩
  have hy : ∃ y' ∈ [y0, y1], b * y' ≤ b * y := by
    rcases le_total 0 b with hb | hb
    · exact ⟨y0, by simp, mul_le_mul_of_nonneg_left hy0 hb⟩
    · exact ⟨y1, by simp, mul_le_mul_of_nonpos_left hy1 hb⟩
  have hz : ∃ z' ∈ [z0, z1], c * z' ≤ c * z := by
    rcases le_total 0 c with hc | hc
    · exact ⟨z0, by simp, mul_le_mul_of_nonneg_left hz0 hc⟩
    · exact ⟨z1, by simp, mul_le_mul_of_nonpos_left hz1 hc⟩
  obtain ⟨x', mx, hx⟩ := hx
  obtain ⟨y', my, hy⟩ := hy
  obtain ⟨z', mz, hz⟩ := hz
  linarith [h x' mx y' my z' mz]

theorem le_corner {a b c d m x0 x1 y0 y1 z0 z1 x y z : ℝ} (hx0 : x0 ≤ x) (hx1 : x ≤ x1) (hy0 : y0 ≤ y)
    (hy1 : y ≤ y1) (hz0 : z0 ≤ z) (hz1 : z ≤ z1)
    (h : ∀ x' ∈ [x0, x1], ∀ y' ∈ [y0, y1], ∀ z' ∈ [z0, z1], a * x' + b * y' + c * z' + d ≤ m) :
    a * x + b * y + c * z + d ≤ m := by
  have := corner_le (a := -a) (b := -b) (c := -c) (d := -d) (m := -m) hx0 hx1 hy0 hy1 hz0 hz1
    (fun x' mx y' my z' mz => by linarith [h x' mx y' my z' mz])
  linarith

theorem BBox.mem_hull (B : BBox ℝ) (v : Vec ℝ) :
    v ∈ B.hull ↔ v.x ∈ [B.min.x, B.max.x] ∧ v.y ∈ [B.min.y, B.max.y] ∧ v.z ∈ [B.min.z, B.max.z] := by
  simp only [BBox.hull, List.mem_cons, List.not_mem_nil, or_false, Vec.ext_iff]
  tauto

/-- The box of a transformed box: the least box that contains the images of the points. -/
theorem BBox.transform_real (B : BBox ℝ) (T : Affine ℝ) :
    ∃ B', B.transform T = .ok B' ∧ (∀ v ∈ B.hull, B'.Mem (T.point v)) ∧
      (∀ p, B.Mem p → B'.Mem (T.point p)) ∧
      ∀ C : BBox ℝ, (∀ v ∈ B.hull, C.Mem (T.point v)) → B'.Within C := by
  obtain ⟨B', e, h1, h2⟩ := BBox.fromHull_real (B.hull.map T.point) (by simp [BBox.hull])
  have hm : ∀ v ∈ B.hull, B'.Mem (T.point v) := fun v hv => h1 _ (List.mem_map_of_mem hv)
  refine ⟨B', e, hm, ?_, fun C hC => h2 C ?_⟩
  · intro p hp
    obtain ⟨p1, p2, p3, p4, p5, p6⟩ := hp
    have hc : ∀ x' ∈ [B.min.x, B.max.x], ∀ y' ∈ [B.min.y, B.max.y], ∀ z' ∈ [B.min.z, B.max.z],
        B'.Mem (T.point ⟨x', y', z'⟩) := fun x' mx y' my z' mz => hm _ ((B.mem_hull _).2 ⟨mx, my, mz⟩)
    refine ⟨?_, ?_, ?_, ?_, ?_, ?_⟩
    · exact corner_le p1 p2 p3 p4 p5 p6 fun x' mx y' my z' mz => (hc x' mx y' my z' mz).1
    · exact le_corner p1 p2 p3 p4 p5 p6 fun x' mx y' my z' mz => (hc x' mx y' my z' mz).2.1
    · exact corner_le p1 p2 p3 p4 p5 p6 fun x' mx y' my z' mz => (hc x' mx y' my z' mz).2.2.1
    · exact le_corner p1 p2 p3 p4 p5 p6 fun x' mx y' my z' mz => (hc x' mx y' my z' mz).2.2.2.1
    · exact corner_le p1 p2 p3 p4 p5 p6 fun x' mx y' my z' mz => (hc x' mx y' my z' mz).2.2.2.2.1
    · exact le_corner p1 p2 p3 p4 p5 p6 fun x' mx y' my z' mz => (hc x' mx y' my z' mz).2.2.2.2.2
  · intro v hv
    obtain ⟨w, hw, rfl⟩ := List.mem_map.1 hv
    exact hC w hw

theorem BBox.Mem.proper {B : BBox ℝ} {p : Vec ℝ} (h : B.Mem p) : B.Proper :=
  ⟨h.1.trans h.2.1, h.2.2.1.trans h.2.2.2.1, h.2.2.2.2.1.trans h.2.2.2.2.2⟩

theorem BBox.transform_proper {B B' : BBox ℝ} {T : Affine ℝ} (e : B.transform T = .ok B') : B'.Proper := by
  obtain ⟨B1, e1, h1, -⟩ := B.transform_real T
  rw [e1] at e; cases e
  exact (h1 B.min ((B.mem_hull _).2 (by simp))).proper

/-- The midpoint of a box. -/
noncomputable def BBox.mid (B : BBox ℝ) : Vec ℝ :=
  ⟨(B.min.x + B.max.x) / 2, (B.min.y + B.max.y) / 2, (B.min.z + B.max.z) / 2⟩

/-- The box of a transformed box is centred at the image of the centre. -/
theorem BBox.transform_mid {B B' : BBox ℝ} {T : Affine ℝ} (e : B.transform T = .ok B') :
    B'.mid = T.point B.mid := by
  obtain ⟨B1, e1, h1, -, h2⟩ := B.transform_real T
  rw [e1] at e; cases e
  obtain ⟨c, hc⟩ : ∃ c, c = T.point B.mid := ⟨_, rfl⟩
  have hw := h2 ⟨(c.mul 2).sub B'.max, (c.mul 2).sub B'.min⟩ (by
    intro v hv
    obtain ⟨hx, hy, hz⟩ := (B.mem_hull v).1 hv
    have hv' : (⟨B.min.x + B.max.x - v.x, B.min.y + B.max.y - v.y, B.min.z + B.max.z - v.z⟩ : Vec ℝ) ∈ B.hull := by
      rw [B.mem_hull]
      simp only [List.mem_cons, List.not_mem_nil, or_false] at hx hy hz ⊢
      refine ⟨?_, ?_, ?_⟩
      · rcases hx with h | h <;> [right; left] <;> rw [h] <;> ring
      · rcases hy with h | h <;> [right; left] <;> rw [h] <;> ring
      · rcases hz with h | h <;> [right; left] <;> rw [h] <;> ring
    have := h1 _ hv'
    subst hc
    simp only [BBox.Mem, BBox.mid, geo] at this ⊢
    obtain ⟨a1, a2, a3, a4, a5, a6⟩ := this
    refine ⟨?_, ?_, ?_, ?_, ?_, ?_⟩ <;> linarith)
  rw [BBox.within_real] at hw
  rw [← hc]
  simp only [BBox.mid, geo] at hw ⊢
  obtain ⟨a1, a2, a3, a4, a5, a6⟩ := hw
  refine ⟨?_, ?_, ?_⟩ <;> linarith

theorem BBox.Within.antisymm {b c : BBox ℝ} (h1 : b.Within c) (h2 : c.Within b) : b = c := by
  rw [BBox.within_real] at h1 h2
  obtain ⟨a1, a2, a3, a4, a5, a6⟩ := h1
  obtain ⟨b1, b2, b3, b4, b5, b6⟩ := h2
  ext <;> apply le_antisymm <;> assumption

/-- The box of a box under `T` and then a translation is the box under `T`, translated. -/
theorem BBox.transform_translate {B B' : BBox ℝ} {T : Affine ℝ} (e : B.transform T = .ok B')
    (d : Vec ℝ) : B.transform (T.before (Affine.translate d)) = .ok (B'.translated d) := by
  obtain ⟨B1, e1, h1, -, h2⟩ := B.transform_real T
  rw [e1] at e; cases e
  obtain ⟨B2, e2, g1, -, g2⟩ := B.transform_real (T.before (Affine.translate d))
  rw [e2]
  congr 1
  apply BBox.Within.antisymm
  · apply g2
    intro v hv
    have := h1 v hv
    rw [C27_before_point, (C27_translate _ _).1]
    simp only [BBox.Mem, BBox.translated, Vec.add] at this ⊢
    refine ⟨?_, ?_, ?_, ?_, ?_, ?_⟩ <;> linarith
  · have := h2 (B2.translated (d.mul (-1))) (by
      intro v hv
      have := g1 v hv
      rw [C27_before_point, (C27_translate _ _).1] at this
      simp only [BBox.Mem, BBox.translated, Vec.add, Vec.mul] at this ⊢
      refine ⟨?_, ?_, ?_, ?_, ?_, ?_⟩ <;> linarith)
    rw [BBox.within_real] at this ⊢
    simp only [BBox.translated, Vec.add, Vec.mul] at this ⊢
    refine ⟨?_, ?_, ?_, ?_, ?_, ?_⟩ <;> linarith

/-- The box of a box under the unit transform is itself. -/
theorem BBox.transform_unit {B : BBox ℝ} (hB : B.Proper) : B.transform Affine.unit = .ok B := by
  obtain ⟨B1, e1, h1, -, h2⟩ := B.transform_real Affine.unit
  rw [e1]
  have hu : ∀ p : Vec ℝ, Affine.unit.point p = p := by
    intro p; simp only [geo, lit_real]; push_cast; refine ⟨?_, ?_, ?_⟩ <;> ring
  simp only [hu] at h1 h2
  congr 1
  apply BBox.Within.antisymm
  · apply h2
    intro v hv
    obtain ⟨hx, hy, hz⟩ := (B.mem_hull v).1 hv
    simp only [List.mem_cons, List.not_mem_nil, or_false] at hx hy hz
    obtain ⟨p1, p2, p3⟩ := hB
    refine ⟨?_, ?_, ?_, ?_, ?_, ?_⟩
    · rcases hx with h | h <;> rw [h]; assumption
    · rcases hx with h | h <;> rw [h]; assumption
    · rcases hy with h | h <;> rw [h]; assumption
    · rcases hy with h | h <;> rw [h]; assumption
    · rcases hz with h | h <;> rw [h]; assumption
    · rcases hz with h | h <;> rw [h]; assumption
  · have a := h1 B.min ((B.mem_hull _).2 (by simp))
    have b := h1 B.max ((B.mem_hull _).2 (by simp))
    rw [BBox.within_real]
    exact ⟨a.1, b.2.1, a.2.2.1, b.2.2.2.1, a.2.2.2.2.1, b.2.2.2.2.2⟩

/-! ## Extended numbers -/

theorem Matrix.Is.mulVec {m : Matrix Ext} {A : Matrix ℝ} {v : Vec Ext} {w : Vec ℝ} (hm : m.Is A)
    (hv : v.Is w) : (m.mulVec v).Is (A.mulVec w) := by
  obtain ⟨⟨a1, a2, a3⟩, ⟨b1, b2, b3⟩, ⟨c1, c2, c3⟩⟩ := hm
  obtain ⟨v1, v2, v3⟩ := hv
  exact ⟨((a1.mul v1).add (b1.mul v2)).add (c1.mul v3), ((a2.mul v1).add (b2.mul v2)).add (c2.mul v3),
    ((a3.mul v1).add (b3.mul v2)).add (c3.mul v3)⟩

theorem Matrix.Is.mulCol {m : Matrix Ext} {A : Matrix ℝ} {v : Vec Ext} {w : Vec ℝ} (hm : m.Is A)
    (hv : v.Is w) : (m.mulCol v).Is (A.mulCol w) := by
  obtain ⟨⟨a1, a2, a3⟩, ⟨b1, b2, b3⟩, ⟨c1, c2, c3⟩⟩ := hm
  obtain ⟨v1, v2, v3⟩ := hv
  have z : (lit 0 : Ext).Is (lit 0 : ℝ) := Ext.Is.lit 0
  exact ⟨((z.add (v1.mul a1)).add (v2.mul b1)).add (v3.mul c1),
    ((z.add (v1.mul a2)).add (v2.mul b2)).add (v3.mul c2),
    ((z.add (v1.mul a3)).add (v2.mul b3)).add (v3.mul c3)⟩

theorem Matrix.Is.mul {m n : Matrix Ext} {A B : Matrix ℝ} (hm : m.Is A) (hn : n.Is B) :
    (m.mul n).Is (A.mul B) := ⟨hm.mulCol hn.1, hm.mulCol hn.2.1, hm.mulCol hn.2.2⟩

theorem Matrix.Is.det {m : Matrix Ext} {A : Matrix ℝ} (hm : m.Is A) : m.det.Is A.det := by
  obtain ⟨⟨a1, a2, a3⟩, ⟨b1, b2, b3⟩, ⟨c1, c2, c3⟩⟩ := hm
  exact ((a1.mul ((b2.mul c3).sub (c2.mul b3))).add (b1.mul ((c2.mul a3).sub (a2.mul c3)))).add
    (c1.mul ((a2.mul b3).sub (b2.mul a3)))

theorem Matrix.Is.inverse {m : Matrix Ext} {A : Matrix ℝ} (hm : m.Is A) (hd : A.det ≠ 0) :
    m.inverse.Is A.inverse := by
  have hk : (lit 1 / m.det : Ext).Is (lit 1 / A.det) := (Ext.Is.lit 1).div hm.det hd
  obtain ⟨⟨a1, a2, a3⟩, ⟨b1, b2, b3⟩, ⟨c1, c2, c3⟩⟩ := hm
  exact ⟨⟨hk.mul ((b2.mul c3).sub (c2.mul b3)), hk.mul ((c2.mul a3).sub (a2.mul c3)),
      hk.mul ((a2.mul b3).sub (b2.mul a3))⟩,
    ⟨hk.mul ((c1.mul b3).sub (b1.mul c3)), hk.mul ((a1.mul c3).sub (c1.mul a3)),
      hk.mul ((b1.mul a3).sub (a1.mul b3))⟩,
    ⟨hk.mul ((b1.mul c2).sub (c1.mul b2)), hk.mul ((c1.mul a2).sub (a1.mul c2)),
      hk.mul ((a1.mul b2).sub (b1.mul a2))⟩⟩

namespace Affine.Is

variable {t s : Affine Ext} {T S : Affine ℝ} {v : Vec Ext} {w : Vec ℝ}

theorem point (h : t.Is T) (hv : v.Is w) : (t.point v).Is (T.point w) := (h.1.mulVec hv).add h.2

theorem dir (h : t.Is T) (hv : v.Is w) : (t.dir v).Is (T.dir w) := h.1.mulVec hv

theorem before (h : t.Is T) (hs : s.Is S) : (t.before s).Is (T.before S) :=
  ⟨hs.1.mul h.1, (hs.1.mulVec h.2).add hs.2⟩

theorem inverse (h : t.Is T) (hd : T.A.det ≠ 0) : t.inverse.Is T.inverse :=
  ⟨h.1.inverse hd, ((h.1.inverse hd).mulVec h.2).mul (Ext.Is.lit (-1))⟩

theorem translate (hv : v.Is w) : (Affine.translate v).Is (Affine.translate w) :=
  ⟨⟨⟨Ext.Is.lit 1, Ext.Is.lit 0, Ext.Is.lit 0⟩, ⟨Ext.Is.lit 0, Ext.Is.lit 1, Ext.Is.lit 0⟩,
    ⟨Ext.Is.lit 0, Ext.Is.lit 0, Ext.Is.lit 1⟩⟩, hv⟩

theorem unit : (Affine.unit : Affine Ext).Is Affine.unit :=
  ⟨⟨⟨Ext.Is.lit 1, Ext.Is.lit 0, Ext.Is.lit 0⟩, ⟨Ext.Is.lit 0, Ext.Is.lit 1, Ext.Is.lit 0⟩,
    ⟨Ext.Is.lit 0, Ext.Is.lit 0, Ext.Is.lit 1⟩⟩, Ext.Is.lit 0, Ext.Is.lit 0, Ext.Is.lit 0⟩

theorem withOrigin (h : t.Is T) (hv : v.Is w) : (t.withOrigin v).Is (T.withOrigin w) :=
  ((unit.before (translate (hv.mul (Ext.Is.lit (-1))))).before h).before (translate hv)

theorem scale (hv : v.Is w) {e : Ext} {x : ℝ} (he : e.Is x) :
    (Affine.scale v e).Is (Affine.scale w x) :=
  withOrigin ⟨⟨⟨he, Ext.Is.lit 0, Ext.Is.lit 0⟩, ⟨Ext.Is.lit 0, he, Ext.Is.lit 0⟩,
    ⟨Ext.Is.lit 0, Ext.Is.lit 0, he⟩⟩, Ext.Is.lit 0, Ext.Is.lit 0, Ext.Is.lit 0⟩ hv

end Affine.Is

namespace Ext.Is

variable {a b : Ext} {x y : ℝ}

theorem sqrt (ha : a.Is x) (h : 0 ≤ x) : (GoFloat.sqrt a).Is (Real.sqrt x) := by
  obtain ⟨s, rfl⟩ := ha
  exact ⟨s, if_neg (not_lt.2 h)⟩

theorem eq (ha : a.Is x) (hb : b.Is y) : (a ==. b) = decide (x = y) := by
  obtain ⟨s, rfl⟩ := ha; obtain ⟨t, rfl⟩ := hb; exact eq_num ..

theorem ite (c : Bool) (ha : a.Is x) (hb : b.Is y) : (if c then a else b).Is (if c then x else y) := by
  cases c <;> assumption

theorem lower (ha : a.Is x) (hb : b.Is y) : (BBox.lower a b).Is (BBox.lower x y) := by
  unfold BBox.lower; rw [hb.lt ha]; exact ite _ hb ha

theorem upper (ha : a.Is x) (hb : b.Is y) : (BBox.upper a b).Is (BBox.upper x y) := by
  unfold BBox.upper; rw [ha.lt hb]; exact ite _ hb ha

theorem sin (ha : a.Is x) : (GoFloat.sin a).Is (Real.sin x) := by
  obtain ⟨s, rfl⟩ := ha; exact ⟨s, rfl⟩

theorem cos (ha : a.Is x) : (GoFloat.cos a).Is (Real.cos x) := by
  obtain ⟨s, rfl⟩ := ha; exact ⟨false, rfl⟩

end Ext.Is

theorem BBox.hullStep_is {b : BBox Ext} {B : BBox ℝ} {v : Vec Ext} {w : Vec ℝ} (hb : b.Is B)
    (hv : v.Is w) : ∃ b' B', BBox.hullStep b v = .ok b' ∧ BBox.hullStep B w = .ok B' ∧ b'.Is B' := by
  have c : checkNaNVec v = .ok () :=
    Vec.IsFin.check ⟨⟨_, hv.1⟩, ⟨_, hv.2.1⟩, ⟨_, hv.2.2⟩⟩
  have c' : checkNaNVec w = .ok () := by simp [checkNaNVec]
  obtain ⟨⟨h1, h2, h3⟩, h4, h5, h6⟩ := hb
  obtain ⟨v1, v2, v3⟩ := hv
  refine ⟨⟨⟨_, _, _⟩, ⟨_, _, _⟩⟩, ⟨⟨_, _, _⟩, ⟨_, _, _⟩⟩, ?_, ?_, ⟨h1.lower v1, h2.lower v2, h3.lower v3⟩, h4.upper v1, h5.upper v2, h6.upper v3⟩
  · simp only [BBox.hullStep, c, ok_bind]; rfl
  · simp only [BBox.hullStep, c', ok_bind]; rfl

theorem BBox.fold_is (l : List (Vec Ext)) (L : List (Vec ℝ)) (hl : List.Forall₂ Vec.Is l L)
    (b : BBox Ext) (B : BBox ℝ) (hb : b.Is B) :
    ∃ b' B', l.foldlM BBox.hullStep b = .ok b' ∧ L.foldlM BBox.hullStep B = .ok B' ∧ b'.Is B' := by
  induction hl generalizing b B with
  | nil => exact ⟨b, B, rfl, rfl, hb⟩
  | cons h _ ih =>
    obtain ⟨b1, B1, e1, e2, h1⟩ := BBox.hullStep_is hb h
    obtain ⟨b2, B2, e3, e4, h2⟩ := ih b1 B1 h1
    refine ⟨b2, B2, ?_, ?_, h2⟩
    · rw [List.foldlM_cons, e1, ok_bind, e3]
    · rw [List.foldlM_cons, e2, ok_bind, e4]

theorem BBox.fromHull_is (l : List (Vec Ext)) (L : List (Vec ℝ)) (hl : List.Forall₂ Vec.Is l L)
    (hne : l ≠ []) :
    ∃ b B, BBox.fromHull l = .ok b ∧ BBox.fromHull L = .ok B ∧ b.Is B := by
  cases hl with
  | nil => exact absurd rfl hne
  | @cons v w l L h t =>
    obtain ⟨b, B, e1, e2, hb⟩ := BBox.fold_is (v :: l) (w :: L) (.cons h t) ⟨v, v⟩ ⟨w, w⟩ ⟨h, h⟩
    have c1 : checkNaNVec b.min = .ok () :=
      Vec.IsFin.check ⟨⟨_, hb.1.1⟩, ⟨_, hb.1.2.1⟩, ⟨_, hb.1.2.2⟩⟩
    have c2 : checkNaNVec b.max = .ok () :=
      Vec.IsFin.check ⟨⟨_, hb.2.1⟩, ⟨_, hb.2.2.1⟩, ⟨_, hb.2.2.2⟩⟩
    have c' : ∀ w : Vec ℝ, checkNaNVec w = .ok () := fun w => by simp [checkNaNVec]
    refine ⟨b, B, ?_, ?_, hb⟩
    · simp only [BBox.fromHull, e1, ok_bind, c1, c2]; rfl
    · simp only [BBox.fromHull, e2, ok_bind, c']; rfl

theorem BBox.transform_is {b : BBox Ext} {B : BBox ℝ} {t : Affine Ext} {T : Affine ℝ} (hb : b.Is B)
    (ht : t.Is T) : ∃ b' B', b.transform t = .ok b' ∧ B.transform T = .ok B' ∧ b'.Is B' := by
  obtain ⟨⟨h1, h2, h3⟩, h4, h5, h6⟩ := hb
  refine BBox.fromHull_is _ _ ?_ (by simp [BBox.hull])
  have hp : ∀ {v : Vec Ext} {w : Vec ℝ}, v.Is w → (t.point v).Is (T.point w) := fun h => ht.point h
  simp only [BBox.hull, List.map]
  exact .cons (hp ⟨h1, h2, h3⟩) (.cons (hp ⟨h1, h2, h6⟩) (.cons (hp ⟨h1, h5, h3⟩)
    (.cons (hp ⟨h1, h5, h6⟩) (.cons (hp ⟨h4, h2, h3⟩) (.cons (hp ⟨h4, h2, h6⟩)
    (.cons (hp ⟨h4, h5, h3⟩) (.cons (hp ⟨h4, h5, h6⟩) .nil)))))))

theorem BBox.center_is {b : BBox Ext} {B : BBox ℝ} (hb : b.Is B) : b.center.Is B.mid := by
  have hs : ∀ {p q : Ext} {x y : ℝ}, p.Is x → q.Is y → (BBox.safeAvg p q).Is ((x + y) / 2) := by
    intro p q x y hp hq
    have : (p ==. -GoFloat.inf) = false := by obtain ⟨s, rfl⟩ := hp; simp
    simp only [BBox.safeAvg, this, Bool.false_and, Bool.false_eq_true, if_false]
    have := (Ext.Is.lit (1 / 2)).mul (hp.add hq)
    convert this using 1
    push_cast; ring
  exact ⟨hs hb.1.1 hb.2.1, hs hb.1.2.1 hb.2.2.1, hs hb.1.2.2 hb.2.2.2⟩

end BR
