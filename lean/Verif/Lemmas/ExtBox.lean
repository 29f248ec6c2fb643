import Verif.Lemmas.ExtIs
import Verif.Lemmas.Mesh

/-! Finite vectors, boxes and transforms over the extended numbers stay finite. -/

namespace BR

/-- `e` is a finite number. -/
def Ext.IsFin (e : Ext) : Prop := ∃ x, e.Is x

/-- All components are finite. -/
def Vec.IsFin (v : Vec Ext) : Prop := v.x.IsFin ∧ v.y.IsFin ∧ v.z.IsFin

/-- All coordinates are finite. -/
def BBox.IsFin (b : BBox Ext) : Prop := b.min.IsFin ∧ b.max.IsFin

/-- All entries are finite. -/
def Matrix.IsFin (m : Matrix Ext) : Prop := m.c0.IsFin ∧ m.c1.IsFin ∧ m.c2.IsFin

/-- All entries are finite. -/
def Affine.IsFin (t : Affine Ext) : Prop := t.A.IsFin ∧ t.B.IsFin

namespace Ext.IsFin

variable {a b : Ext}

theorem add (ha : a.IsFin) (hb : b.IsFin) : (a + b).IsFin := by
  obtain ⟨x, ha⟩ := ha; obtain ⟨y, hb⟩ := hb; exact ⟨_, ha.add hb⟩

theorem sub (ha : a.IsFin) (hb : b.IsFin) : (a - b).IsFin := by
  obtain ⟨x, ha⟩ := ha; obtain ⟨y, hb⟩ := hb; exact ⟨_, ha.sub hb⟩

theorem mul (ha : a.IsFin) (hb : b.IsFin) : (a * b).IsFin := by
  obtain ⟨x, ha⟩ := ha; obtain ⟨y, hb⟩ := hb; exact ⟨_, ha.mul hb⟩

theorem neg (ha : a.IsFin) : (-a).IsFin := by
  obtain ⟨x, ha⟩ := ha; exact ⟨_, ha.neg⟩

theorem lit (q : ℚ) : (BR.lit q : Ext).IsFin := ⟨_, Ext.Is.lit q⟩

theorem half (ha : a.IsFin) : (a / BR.lit 2).IsFin := by
  obtain ⟨x, ha⟩ := ha; exact ⟨_, ha.div (Ext.Is.lit 2) (by norm_num)⟩

theorem notNaN (ha : a.IsFin) : GoFloat.isNaN a = false := by
  obtain ⟨x, s, rfl⟩ := ha; rfl

theorem fmax_inf (ha : a.IsFin) : fmax a (-GoFloat.inf) = a := by
  obtain ⟨x, s, rfl⟩ := ha; simp [fmax]

theorem fmin_inf (ha : a.IsFin) : fmin a GoFloat.inf = a := by
  obtain ⟨x, s, rfl⟩ := ha; simp [fmin]

theorem fmax (ha : a.IsFin) (hb : b.IsFin) : (BR.fmax a b).IsFin := by
  unfold BR.fmax; split_ifs <;> assumption

theorem fmin (ha : a.IsFin) (hb : b.IsFin) : (BR.fmin a b).IsFin := by
  unfold BR.fmin; split_ifs <;> assumption

theorem lower (ha : a.IsFin) (hb : b.IsFin) : (BBox.lower a b).IsFin := by
  unfold BBox.lower; split_ifs <;> assumption

theorem upper (ha : a.IsFin) (hb : b.IsFin) : (BBox.upper a b).IsFin := by
  unfold BBox.upper; split_ifs <;> assumption

end Ext.IsFin

namespace Vec.IsFin

variable {a b : Vec Ext} {s : Ext}

theorem add (ha : a.IsFin) (hb : b.IsFin) : (a.add b).IsFin :=
  ⟨ha.1.add hb.1, ha.2.1.add hb.2.1, ha.2.2.add hb.2.2⟩

theorem sub (ha : a.IsFin) (hb : b.IsFin) : (a.sub b).IsFin :=
  ⟨ha.1.sub hb.1, ha.2.1.sub hb.2.1, ha.2.2.sub hb.2.2⟩

theorem check (ha : a.IsFin) : checkNaNVec a = .ok () := by
  simp [checkNaNVec, ha.1.notNaN, ha.2.1.notNaN, ha.2.2.notNaN]

end Vec.IsFin

theorem Affine.IsFin.point {t : Affine Ext} {p : Vec Ext} (ht : t.IsFin) (hp : p.IsFin) :
    (t.point p).IsFin := by
  obtain ⟨⟨⟨a1, a2, a3⟩, ⟨b1, b2, b3⟩, ⟨c1, c2, c3⟩⟩, d⟩ := ht
  obtain ⟨p1, p2, p3⟩ := hp
  unfold Affine.point Matrix.mulVec
  refine Vec.IsFin.add ⟨?_, ?_, ?_⟩ d
  all_goals
    dsimp only
    first
      | exact ((a1.mul p1).add (b1.mul p2)).add (c1.mul p3)
      | exact ((a2.mul p1).add (b2.mul p2)).add (c2.mul p3)
      | exact ((a3.mul p1).add (b3.mul p2)).add (c3.mul p3)

theorem BBox.fold_fin (l : List (Vec Ext)) (hl : ∀ v ∈ l, v.IsFin) (b : BBox Ext) (hb : b.IsFin) :
    ∃ b', l.foldlM BBox.hullStep b = .ok b' ∧ b'.IsFin := by
  induction l generalizing b with
  | nil => exact ⟨b, rfl, hb⟩
  | cons v l ih =>
    have hv := hl v (by simp)
    obtain ⟨⟨h1, h2, h3⟩, h4, h5, h6⟩ := hb
    obtain ⟨v1, v2, v3⟩ := hv
    rw [List.foldlM_cons, BBox.hullStep, Vec.IsFin.check ⟨v1, v2, v3⟩, ok_bind, pure_bind']
    exact ih (fun w hw => hl w (by simp [hw])) _
      ⟨⟨h1.lower v1, h2.lower v2, h3.lower v3⟩, h4.upper v1, h5.upper v2, h6.upper v3⟩

/-- The box of finitely many finite points exists and is finite. -/
theorem BBox.fromHull_fin (l : List (Vec Ext)) (hne : l ≠ []) (hl : ∀ v ∈ l, v.IsFin) :
    ∃ b, BBox.fromHull l = .ok b ∧ b.IsFin := by
  cases l with
  | nil => exact absurd rfl hne
  | cons v l =>
    obtain ⟨b, hb, hf⟩ := BBox.fold_fin (v :: l) hl ⟨v, v⟩ ⟨hl v (by simp), hl v (by simp)⟩
    refine ⟨b, ?_, hf⟩
    rw [BBox.fromHull, hb, ok_bind, hf.1.check, ok_bind, hf.2.check, ok_bind]
    rfl

/-- A finite box transformed by a finite transform. -/
theorem BBox.transform_fin (b : BBox Ext) (t : Affine Ext) (hb : b.IsFin) (ht : t.IsFin) :
    ∃ b', b.transform t = .ok b' ∧ b'.IsFin := by
  obtain ⟨⟨h1, h2, h3⟩, h4, h5, h6⟩ := hb
  refine BBox.fromHull_fin _ (by simp [BBox.hull]) ?_
  intro v hv
  obtain ⟨w, hw, rfl⟩ := List.mem_map.1 hv
  refine ht.point ?_
  simp only [BBox.hull, List.mem_cons, List.not_mem_nil, or_false] at hw
  rcases hw with rfl | rfl | rfl | rfl | rfl | rfl | rfl | rfl <;> exact ⟨by assumption, by assumption, by assumption⟩

variable {M : Type}

/-- The bounding box of finite triangles is finite. -/
theorem faces_box_fin (fs : List (Obj Ext M)) (hne : fs ≠ [])
    (hf : ∀ o ∈ fs, ∃ b, o.bounds = .ok b ∧ b.IsFin) : ∃ b, makeBoundingBox fs = .ok b ∧ b.IsFin := by
  have h : ∃ bs, fs.mapM Obj.bounds = .ok bs ∧ bs.length = fs.length ∧ ∀ b ∈ bs, b.IsFin := by
    clear hne
    induction fs with
    | nil => exact ⟨[], rfl, rfl, by simp⟩
    | cons o fs ih =>
      obtain ⟨b, hb, hbf⟩ := hf o (by simp)
      obtain ⟨bs, hbs, hlen, hall⟩ := ih (fun o ho => hf o (by simp [ho]))
      refine ⟨b :: bs, ?_, by simp [hlen], ?_⟩
      · rw [List.mapM_cons, hb, ok_bind, hbs, ok_bind]; rfl
      · intro c hc
        rcases List.mem_cons.1 hc with rfl | hc
        · exact hbf
        · exact hall c hc
  obtain ⟨bs, hbs, hlen, hall⟩ := h
  rw [makeBoundingBox, hbs, ok_bind]
  apply BBox.fromHull_fin
  · cases bs with
    | nil => simp at hlen; exact absurd (List.length_eq_zero_iff.1 hlen.symm) hne
    | cons b bs => simp
  · intro v hv
    obtain ⟨b, hb, hv⟩ := List.mem_flatMap.1 hv
    have := hall b hb
    simp only [List.mem_cons, List.not_mem_nil, or_false] at hv
    rcases hv with rfl | rfl
    · exact this.1
    · exact this.2

theorem face_box_fin (a b c : Vertex Ext) (ha : a.pos.IsFin) (hb : b.pos.IsFin) (hc : c.pos.IsFin) :
    ∃ bb, (Obj.face a b c : Obj Ext M).bounds = .ok bb ∧ bb.IsFin := by
  rw [Obj.bounds, Face.bounds]
  apply BBox.fromHull_fin _ (by simp)
  intro v hv
  simp only [List.mem_cons, List.not_mem_nil, or_false] at hv
  rcases hv with rfl | rfl | rfl <;> assumption

/-- A quadrilateral with finite corners can be constructed and has a finite bounding box. -/
theorem quad_fin (S : Sorter (Obj Ext M)) (m : Option M) (a b c d : Vec Ext) (ha : a.IsFin) (hb : b.IsFin)
    (hc : c.IsFin) (hd : d.IsFin) :
    ∃ o bb, quadrilateral S m a b c d = .ok (.withMaterial m o) ∧ o.bounds = .ok bb ∧ bb.IsFin := by
  obtain ⟨na, nb, nc, nd, e⟩ := quad_spec S m a b c d
  dsimp only at e
  obtain ⟨bb, hbb, hfin⟩ := faces_box_fin (M := M)
    [.face ⟨a, na, lit 0, lit 0⟩ ⟨b, nb, lit 1, lit 0⟩ ⟨d, nd, lit 0, lit 1⟩,
      .face ⟨c, nc, lit 1, lit 1⟩ ⟨d, nd, lit 0, lit 1⟩ ⟨b, nb, lit 1, lit 0⟩] (by simp) (by
      intro o ho
      simp only [List.mem_cons, List.not_mem_nil, or_false] at ho
      rcases ho with rfl | rfl
      · exact face_box_fin _ _ _ ha hb hd
      · exact face_box_fin _ _ _ hc hd hb)
  rw [e, hbb, ok_bind]
  refine ⟨_, bb.toF, rfl, rfl, hfin⟩

end BR
