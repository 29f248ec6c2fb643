import Verif.Lemmas.ExtFace
import Verif.Lemmas.ExtHull
import Verif.Lemmas.Mesh
import Verif.Props.C21_TreeNearest

/-! Intersection with meshes in extended numbers. -/

namespace BR

variable {M : Type}

/-- The point lies on one of the triangles given by index triples. -/
def OnTris (V : List (Vec ℝ)) (faces : List Tri) (p : Vec ℝ) : Prop :=
  ∃ f ∈ faces, ∃ a b c, V[f.1]? = some a ∧ V[f.2.1]? = some b ∧ V[f.2.2]? = some c ∧ InTriangle a b c p

/-- The point lies on one of the triangles given by index triples, not counting triangles that have no area or are
parallel to the direction. -/
def OnTrisAcross (V : List (Vec ℝ)) (faces : List Tri) (d p : Vec ℝ) : Prop :=
  ∃ f ∈ faces, ∃ a b c, V[f.1]? = some a ∧ V[f.2.1]? = some b ∧ V[f.2.2]? = some c ∧ Transverse a b c d ∧
    InTriangle a b c p

theorem OnTrisAcross.onTris {V : List (Vec ℝ)} {faces : List Tri} {d p : Vec ℝ} (h : OnTrisAcross V faces d p) :
    OnTris V faces p := by
  obtain ⟨f, hf, a, b, c, ha, hb, hc, -, hp⟩ := h
  exact ⟨f, hf, a, b, c, ha, hb, hc, hp⟩

/-- Rays that start clear of points start clear of the boxes of these points. -/
theorem StartsClear.clearOf {V : List (Vec ℝ)} {R : Ray ℝ} (h : StartsClear V R) {P : BBox ℝ → Prop}
    (hP : ∀ B, P B → ∃ l, (∀ q ∈ l, q ∈ V) ∧ B.Spans l) : ClearOf P R := by
  rcases h with h | ⟨hb, hc⟩
  · refine .inl fun B hB hf => ?_
    obtain ⟨l, hl, hs⟩ := hP B hB
    exact h ((hs.face hf).mono hl)
  · refine .inr ⟨?_, ?_⟩
    · rcases hb with hb | hb | hb | hb | hb | hb
      · refine .inl fun B hB => ?_
        obtain ⟨l, hl, -, ⟨q, hq, e⟩, -⟩ := hP B hB
        rw [e]; exact hb q (hl q hq)
      · refine .inr (.inl fun B hB => ?_)
        obtain ⟨l, hl, -, -, ⟨q, hq, e⟩, -⟩ := hP B hB
        rw [e]; exact hb q (hl q hq)
      · refine .inr (.inr (.inl fun B hB => ?_))
        obtain ⟨l, hl, -, -, -, ⟨q, hq, e⟩, -⟩ := hP B hB
        rw [e]; exact hb q (hl q hq)
      · refine .inr (.inr (.inr (.inl fun B hB => ?_)))
        obtain ⟨l, hl, -, -, -, -, ⟨q, hq, e⟩, -⟩ := hP B hB
        rw [e]; exact hb q (hl q hq)
      · refine .inr (.inr (.inr (.inr (.inl fun B hB => ?_))))
        obtain ⟨l, hl, -, -, -, -, -, ⟨q, hq, e⟩, -⟩ := hP B hB
        rw [e]; exact hb q (hl q hq)
      · refine .inr (.inr (.inr (.inr (.inr fun B hB => ?_))))
        obtain ⟨l, hl, -, -, -, -, -, -, q, hq, e⟩ := hP B hB
        rw [e]; exact hb q (hl q hq)
    · intro B hB
      obtain ⟨l, hl, -, ⟨q1, m1, e1⟩, ⟨q2, m2, e2⟩, ⟨q3, m3, e3⟩, ⟨q4, m4, e4⟩, ⟨q5, m5, e5⟩, q6, m6, e6⟩ := hP B hB
      refine ⟨fun h => ⟨?_, ?_⟩, fun h => ⟨?_, ?_⟩, fun h => ⟨?_, ?_⟩⟩
      · rw [e1]; exact (hc q1 (hl q1 m1)).1 h
      · rw [e2]; exact (hc q2 (hl q2 m2)).1 h
      · rw [e3]; exact (hc q3 (hl q3 m3)).2.1 h
      · rw [e4]; exact (hc q4 (hl q4 m4)).2.1 h
      · rw [e5]; exact (hc q5 (hl q5 m5)).2.2 h
      · rw [e6]; exact (hc q6 (hl q6 m6)).2.2 h

/-- The face object belongs to the index triple: its corners are at the positions given by the triple. -/
def FaceOf (P : List (Vec Ext)) (f : Tri) (o : Obj Ext M) : Prop :=
  ∃ a b c, o = .face a b c ∧ P[f.1]? = some a.pos ∧ P[f.2.1]? = some b.pos ∧ P[f.2.2]? = some c.pos

theorem calcNormals_pos {F : Type} [Add F] [Sub F] [Mul F] [Div F] [Neg F] [GoFloat F] (vs : List (Vertex F))
    (faces : List Tri) : (calcNormals vs faces).map Vertex.pos = vs.map Vertex.pos := by
  have h := calcNormals_strip vs faces
  have e : (Vertex.pos : Vertex F → Vec F) = Prod.fst ∘ Vertex.strip := by funext v; rfl
  rw [e, ← List.map_map, h, List.map_map]

theorem meshObj_spec (S : Sorter (Obj Ext M)) (m : Option M) (vs : List (Vertex Ext)) (faces : List Tri)
    (o : Obj Ext M) (h : meshObj S m vs faces = .ok o) :
    ∃ n fs l, o = .withMaterial m (.tree n) ∧ buildTree S fs = .ok (n, l) ∧
      List.Forall₂ (FaceOf (vs.map Vertex.pos)) faces fs := by
  rw [meshObj] at h
  obtain ⟨fs, hfs, h⟩ := bind_eq_ok.1 h
  obtain ⟨⟨t, l⟩, ht, h⟩ := bind_eq_ok.1 h
  obtain ⟨⟨n, l'⟩, hn, ht⟩ := bind_eq_ok.1 ht
  cases ht
  cases h
  refine ⟨n, fs, l, rfl, hn, ?_⟩
  refine (mapM_spec _ _ _ hfs).imp ?_
  intro f o h
  rw [← calcNormals_pos vs faces]
  unfold faceObj at h
  split at h
  · next a b c ha hb hc =>
    cases h
    exact ⟨a, b, c, rfl, by simp [ha], by simp [hb], by simp [hc]⟩
  · cases h

private theorem forall₂_get {α β : Type} {R : α → β → Prop} {l : List α} {r : List β} (h : List.Forall₂ R l r)
    (i : Nat) : ∀ a, l[i]? = some a → ∃ b, r[i]? = some b ∧ R a b := by
  induction h generalizing i with
  | nil => intro a ha; simp at ha
  | cons hab _ ih =>
    intro a ha
    cases i with
    | zero => exact ⟨_, rfl, by simp at ha; exact ha ▸ hab⟩
    | succ i => exact ih i a (by simpa using ha)

/-- The number represented by a finite extended number. -/
private noncomputable def val : Ext → ℝ
  | .num x _ => x
  | _ => 0

private theorem val_is {a : Ext} {x : ℝ} (h : a.Is x) : val a = x := by
  obtain ⟨s, rfl⟩ := h; rfl

private noncomputable def vval (v : Vec Ext) : Vec ℝ := ⟨val v.x, val v.y, val v.z⟩

private theorem vval_is {v : Vec Ext} {w : Vec ℝ} (h : v.Is w) : vval v = w := by
  obtain ⟨h1, h2, h3⟩ := h
  unfold vval
  rw [val_is h1, val_is h2, val_is h3]

private noncomputable def bval : Obj Ext M → BBox ℝ
  | .face a b c => match Face.bounds a b c with
    | .ok b => ⟨vval b.min, vval b.max⟩
    | .error _ => ⟨⟨0, 0, 0⟩, ⟨0, 0, 0⟩⟩
  | _ => ⟨⟨0, 0, 0⟩, ⟨0, 0, 0⟩⟩

private theorem bval_is {b : BBox Ext} {B : BBox ℝ} (h : b.Is B) : (⟨vval b.min, vval b.max⟩ : BBox ℝ) = B := by
  obtain ⟨⟨h1, h2, h3⟩, h4, h5, h6⟩ := h
  unfold vval
  rw [val_is h1, val_is h2, val_is h3, val_is h4, val_is h5, val_is h6]

/-- The record of a face. -/
noncomputable def faceRecord (r : Ray Ext) : Obj Ext M → HitRecord Ext M
  | .face a b c => Face.hit a b c r
  | _ => HitRecord.miss

theorem sent_pos : ((lit 0 : Ext) <. lit (9 * 10 ^ 99)) = true := by
  rw [(Ext.Is.lit 0).lt (Ext.Is.lit (9 * 10 ^ 99))]
  simp

/-- The corners of a face object and its index triple. -/
theorem FaceOf.real {P : List (Vec Ext)} {V : List (Vec ℝ)} (hV : List.Forall₂ Vec.Is P V) {f : Tri} {o : Obj Ext M}
    (h : FaceOf P f o) : ∃ va vb vc a b c, o = .face va vb vc ∧ va.pos.Is a ∧ vb.pos.Is b ∧ vc.pos.Is c ∧
      V[f.1]? = some a ∧ V[f.2.1]? = some b ∧ V[f.2.2]? = some c := by
  obtain ⟨va, vb, vc, rfl, ha, hb, hc⟩ := h
  obtain ⟨a, ha, ia⟩ := forall₂_get hV _ _ ha
  obtain ⟨b, hb, ib⟩ := forall₂_get hV _ _ hb
  obtain ⟨c, hc, ic⟩ := forall₂_get hV _ _ hc
  exact ⟨va, vb, vc, a, b, c, rfl, ia, ib, ic, ha, hb, hc⟩

/-- Hits of a face object are crossings with its triangle. -/
theorem FaceOf.sound {P : List (Vec Ext)} {V : List (Vec ℝ)} (hV : List.Forall₂ Vec.Is P V) {f : Tri} {o : Obj Ext M}
    (h : FaceOf P f o) {r : Ray Ext} {R : Ray ℝ} (hr : r.Is R)
    (htr : ∀ a b c, V[f.1]? = some a → V[f.2.1]? = some b → V[f.2.2]? = some c → Transverse a b c R.dir)
    (hp : (lit 0 <. (faceRecord r o).t) = true) :
    ∃ T : ℝ, (faceRecord r o).t.Is T ∧ 0 < T ∧ OnTris V [f] (R.at T) := by
  obtain ⟨va, vb, vc, a, b, c, rfl, ia, ib, ic, ha, hb, hc⟩ := h.real hV
  obtain ⟨T, h1, h2, h3⟩ := face_hit_sound ia ib ic hr (htr a b c ha hb hc) hp
  exact ⟨T, h1, h2, f, by simp, a, b, c, ha, hb, hc, h3⟩

/-- From the records of the faces to crossings with triangles. -/
theorem tris_nearest_of (S : Sorter (Obj Ext M)) (P : List (Vec Ext)) (V : List (Vec ℝ))
    (hV : List.Forall₂ Vec.Is P V) (faces : List Tri) (fs : List (Obj Ext M))
    (hfs : List.Forall₂ (FaceOf P) faces fs) (n : Node Ext M) (l : List (Obj Ext M))
    (hn : buildTree S fs = .ok (n, l)) (r : Ray Ext) (R : Ray ℝ) (hr : r.Is R)
    (htr : ∀ f ∈ faces, ∀ a b c, V[f.1]? = some a → V[f.2.1]? = some b → V[f.2.2]? = some c →
      Transverse a b c R.dir)
    (hsome : ¬ NoneHit (faceRecord r) fs → ∃ hit, (Obj.tree n).intersect r = .ok (hit, r) ∧
      NearestOf (faceRecord r) fs hit) :
    ∃ hit, (Obj.tree n).intersect r = .ok (hit, r) ∧
      ((∃ T, hit.t.Is T ∧ 0 < T ∧ OnTris V faces (R.at T) ∧ (∀ T' > 0, OnTris V faces (R.at T') → T ≤ T') ∧
        ∃ o ∈ fs, hit = faceRecord r o) ∨
       ((∀ T > 0, ¬ OnTris V faces (R.at T)) ∧ ((lit 0 <. hit.t) = false ∨
         faces.length ≤ 7 ∧ (n.bb.intersect r <=. lit 0) = false ∧ hit.t = lit (9 * 10 ^ 99)))) := by
  have z : (lit 0 : Ext).Is 0 := by simpa using Ext.Is.lit 0
  -- the corners of a face object
  have hface : ∀ (f : Tri) (o : Obj Ext M), f ∈ faces → FaceOf P f o → ∃ va vb vc a b c, o = .face va vb vc ∧ va.pos.Is a ∧ vb.pos.Is b ∧
      vc.pos.Is c ∧ V[f.1]? = some a ∧ V[f.2.1]? = some b ∧ V[f.2.2]? = some c ∧ Transverse a b c R.dir := by
    rintro f o hf ⟨va, vb, vc, rfl, ha, hb, hc⟩
    obtain ⟨a, ha, ia⟩ := forall₂_get hV _ _ ha
    obtain ⟨b, hb, ib⟩ := forall₂_get hV _ _ hb
    obtain ⟨c, hc, ic⟩ := forall₂_get hV _ _ hc
    exact ⟨va, vb, vc, a, b, c, rfl, ia, ib, ic, ha, hb, hc, htr f hf a b c ha hb hc⟩
  have hok : ∀ o ∈ fs, o.intersect r = .ok (faceRecord r o, r) := by
    intro o ho
    obtain ⟨f, hf, va, vb, vc, rfl, -⟩ := forall₂_right hfs o ho
    rfl
  -- hits of a member are crossings
  have hcross : ∀ o ∈ fs, (lit 0 <. (faceRecord r o).t) = true →
      ∃ T : ℝ, (faceRecord r o).t.Is T ∧ 0 < T ∧ OnTris V faces (R.at T) := by
    intro o ho hp
    obtain ⟨f, hf, hof⟩ := forall₂_right hfs o ho
    obtain ⟨T, h1, h2, g, hg, h3⟩ := hof.sound hV hr (htr f hf) hp
    rw [List.mem_singleton] at hg
    subst hg
    exact ⟨T, h1, h2, g, hf, h3⟩
  -- crossings are hits of a member
  have hconv : ∀ T > 0, OnTris V faces (R.at T) → ∃ o ∈ fs, (faceRecord r o).t.Is T := by
    rintro T hT ⟨f, hf, a, b, c, ha, hb, hc, hin⟩
    obtain ⟨o, ho, hof⟩ := forall₂_left hfs f hf
    obtain ⟨va, vb, vc, a', b', c', rfl, ia, ib, ic, ha', hb', hc', ht⟩ := hface f o hf hof
    rw [ha] at ha'; rw [hb] at hb'; rw [hc] at hc'
    cases ha'; cases hb'; cases hc'
    exact ⟨_, ho, face_hit_is ia ib ic hr ht hT hin⟩
  have hpos : ∀ o ∈ fs, ∀ T > 0, (faceRecord r o).t.Is T → (lit 0 <. (faceRecord r o).t) = true := by
    intro o _ T hT h
    rw [z.lt h, decide_eq_true_eq]; exact hT
  by_cases hnone : NoneHit (faceRecord r) fs
  · have hno : ∀ T > 0, ¬ OnTris V faces (R.at T) := by
      intro T hT h
      obtain ⟨o, ho, hi⟩ := hconv T hT h
      have := hpos o ho T hT hi
      rw [hnone o ho] at this; cases this
    by_cases hlen : fs.length ≤ 7
    · obtain ⟨hit, e, h⟩ := C21_none_partial sent_pos S fs hlen n l hn r (faceRecord r) hok hnone
      refine ⟨hit, e, .inr ⟨hno, ?_⟩⟩
      rcases h with h | h
      · exact .inl h
      · exact .inr ⟨hfs.length_eq ▸ hlen, h⟩
    · obtain ⟨hit, e, h⟩ := C21_nearest_partial sent_pos S fs n l hn r (faceRecord r) hok
        (fun o ho h => by rw [hnone o ho] at h; cases h) (by
          rintro x hx ⟨o, ho, h⟩
          obtain ⟨-, -, hbx⟩ := buildTree_boxes S fs n l hn
          obtain ⟨_, _, _, _, _, hmem⟩ := hbx x hx
          rw [hnone o (hmem o ho)] at h; cases h) (.inl (not_le.1 hlen))
      refine ⟨hit, e, .inr ⟨hno, .inl ?_⟩⟩
      rcases h with ⟨⟨o, ho, rfl⟩, h, -⟩ | ⟨-, h⟩
      · rw [hnone o ho] at h; cases h
      · exact h
  · obtain ⟨hit, e, h⟩ := hsome hnone
    refine ⟨hit, e, .inl ?_⟩
    obtain ⟨⟨o, ho, rfl⟩, h1, h2⟩ := h
    obtain ⟨T, t1, t2, t3⟩ := hcross o ho h1
    refine ⟨T, t1, t2, t3, ?_, o, ho, rfl⟩
    intro T' hT' hon
    obtain ⟨o', ho', hi⟩ := hconv T' hT' hon
    have := h2 o' ho' (hpos o' ho' T' hT' hi)
    rw [t1.le hi, decide_eq_true_eq] at this
    exact this

/-- The box of a tree of triangles: it holds the triangles, and is the smallest box around their corners. -/
theorem tris_box (S : Sorter (Obj Ext M)) (P : List (Vec Ext)) (V : List (Vec ℝ))
    (hV : List.Forall₂ Vec.Is P V) (faces : List Tri) (fs : List (Obj Ext M))
    (hfs : List.Forall₂ (FaceOf P) faces fs) (n : Node Ext M) (l : List (Obj Ext M))
    (hn : buildTree S fs = .ok (n, l)) :
    ∃ B : BBox ℝ, n.bb.Is B ∧ B.Proper ∧ (∀ p, OnTris V faces p → B.Mem p) ∧
      ∃ l, (∀ q ∈ l, q ∈ V) ∧ B.Spans l := by
  have hface : ∀ o ∈ fs, ∃ f ∈ faces, ∃ va vb vc a b c bb B, o = .face va vb vc ∧ V[f.1]? = some a ∧
      V[f.2.1]? = some b ∧ V[f.2.2]? = some c ∧ o.bounds = .ok bb ∧ bb.Is B ∧ B.Spans [a, b, c] ∧ bval o = B := by
    intro o ho
    obtain ⟨f, hf, hof⟩ := forall₂_right hfs o ho
    obtain ⟨va, vb, vc, a, b, c, rfl, ia, ib, ic, ha, hb, hc⟩ := hof.real hV
    obtain ⟨bb, B, e, hB, hs⟩ := fromHull_is [va.pos, vb.pos, vc.pos] [a, b, c] (by simp)
      (.cons ia (.cons ib (.cons ic .nil)))
    refine ⟨f, hf, va, vb, vc, a, b, c, bb, B, rfl, ha, hb, hc, e, hB, hs, ?_⟩
    simp only [bval, Face.bounds, e]; exact bval_is hB
  obtain ⟨-, ⟨bb, hbb, e⟩, -⟩ := buildTree_boxes S fs n l hn
  obtain ⟨B, h1, h2, h3, s1, s2, s3, s4, s5, s6⟩ := common_box_faces fs bb hbb bval (by
    intro o ho
    obtain ⟨f, hf, va, vb, vc, a, b, c, bb, B, rfl, ha, hb, hc, e, hB, hs, hbv⟩ := hface o ho
    exact ⟨bb, e, hbv ▸ hB, hbv ▸ hs.proper⟩)
  refine ⟨B, by rw [e]; exact h1, h2, ?_, ?_⟩
  · rintro p ⟨f, hf, a, b, c, ha, hb, hc, hp⟩
    obtain ⟨o, ho, hof⟩ := forall₂_left hfs f hf
    refine h3 o ho p ?_
    obtain ⟨va, vb, vc, a', b', c', rfl, ia, ib, ic, ha', hb', hc'⟩ := hof.real hV
    rw [ha] at ha'; rw [hb] at hb'; rw [hc] at hc'
    cases ha'; cases hb'; cases hc'
    obtain ⟨bb, B, e, hB, hs⟩ := fromHull_is [va.pos, vb.pos, vc.pos] [a, b, c] (by simp)
      (.cons ia (.cons ib (.cons ic .nil)))
    have : bval (.face va vb vc : Obj Ext M) = B := by
      simp only [bval, Face.bounds, e]; exact bval_is hB
    rw [this]
    exact BBox.mem_triangle (hs.1 a (by simp)) (hs.1 b (by simp)) (hs.1 c (by simp)) hp
  · set l : List (Vec ℝ) := fs.flatMap fun o => match o with
      | .face a b c => [vval a.pos, vval b.pos, vval c.pos]
      | _ => [] with hl
    have corner : ∀ o ∈ fs, ∃ f ∈ faces, ∃ va vb vc a b c B, o = .face va vb vc ∧ V[f.1]? = some a ∧ V[f.2.1]? = some b ∧
        V[f.2.2]? = some c ∧ vval va.pos = a ∧ vval vb.pos = b ∧ vval vc.pos = c ∧ B.Spans [a, b, c] ∧ bval o = B := by
      intro o ho
      obtain ⟨f, hf, hof⟩ := forall₂_right hfs o ho
      obtain ⟨va, vb, vc, a, b, c, rfl, ia, ib, ic, ha, hb, hc⟩ := hof.real hV
      obtain ⟨bb, B, e, hB, hs⟩ := fromHull_is [va.pos, vb.pos, vc.pos] [a, b, c] (by simp)
        (.cons ia (.cons ib (.cons ic .nil)))
      refine ⟨f, hf, va, vb, vc, a, b, c, B, rfl, ha, hb, hc, vval_is ia, vval_is ib, vval_is ic, hs, ?_⟩
      simp only [bval, Face.bounds, e]; exact bval_is hB
    have hlm : ∀ o ∈ fs, ∀ va vb vc a b c, o = Obj.face va vb vc → vval va.pos = a →
        vval vb.pos = b → vval vc.pos = c → ∀ q ∈ [a, b, c], q ∈ l := by
      intro o ho va vb vc a b c e ea eb ec q hq
      refine List.mem_flatMap.2 ⟨o, ho, ?_⟩
      rw [e]; dsimp only; rw [ea, eb, ec]; exact hq
    refine ⟨l, ?_, ?_⟩
    · intro q hq
      obtain ⟨o, ho, hq⟩ := List.mem_flatMap.1 hq
      obtain ⟨f, hf, va, vb, vc, a, b, c, B, rfl, ha, hb, hc, ea, eb, ec, -, -⟩ := corner o ho
      simp only [ea, eb, ec, List.mem_cons, List.not_mem_nil, or_false] at hq
      rcases hq with rfl | rfl | rfl
      · exact List.mem_of_getElem? ha
      · exact List.mem_of_getElem? hb
      · exact List.mem_of_getElem? hc
    · have side : ∀ (x : ℝ) (g : Vec ℝ → ℝ), (∀ (B : BBox ℝ) (m : List (Vec ℝ)), B.Spans m →
          (∃ q ∈ m, g B.min = g q) ∧ ∃ q ∈ m, g B.max = g q) →
          (∃ o ∈ fs, x = g (bval o).min ∨ x = g (bval o).max) → ∃ q ∈ l, x = g q := by
        rintro x g hg ⟨o, ho, hx⟩
        obtain ⟨f, hf, va, vb, vc, a, b, c, B, eo, ha, hb, hc, ea, eb, ec, hs, hB⟩ := corner o ho
        obtain ⟨⟨q, hq, e1⟩, q', hq', e2⟩ := hg B _ hs
        rw [hB] at hx
        rcases hx with hx | hx
        · exact ⟨q, hlm o ho va vb vc a b c eo ea eb ec q hq, hx.trans e1⟩
        · exact ⟨q', hlm o ho va vb vc a b c eo ea eb ec q' hq', hx.trans e2⟩
      have gx : ∀ (B : BBox ℝ) (m : List (Vec ℝ)), B.Spans m → (∃ q ∈ m, B.min.x = q.x) ∧ ∃ q ∈ m, B.max.x = q.x :=
        fun B m h => ⟨h.2.1, h.2.2.1⟩
      have gy : ∀ (B : BBox ℝ) (m : List (Vec ℝ)), B.Spans m → (∃ q ∈ m, B.min.y = q.y) ∧ ∃ q ∈ m, B.max.y = q.y :=
        fun B m h => ⟨h.2.2.2.1, h.2.2.2.2.1⟩
      have gz : ∀ (B : BBox ℝ) (m : List (Vec ℝ)), B.Spans m → (∃ q ∈ m, B.min.z = q.z) ∧ ∃ q ∈ m, B.max.z = q.z :=
        fun B m h => ⟨h.2.2.2.2.2.1, h.2.2.2.2.2.2⟩
      refine ⟨?_, side _ Vec.x gx s1, side _ Vec.x gx s2, side _ Vec.y gy s3, side _ Vec.y gy s4, side _ Vec.z gz s5,
        side _ Vec.z gz s6⟩
      intro q hq
      obtain ⟨o, ho, hq⟩ := List.mem_flatMap.1 hq
      refine h3 o ho q ?_
      obtain ⟨f, hf, va, vb, vc, a, b, c, B, rfl, ha, hb, hc, ea, eb, ec, hs, hB⟩ := corner o ho
      rw [hB]
      simp only [ea, eb, ec] at hq
      exact hs.1 q hq

/-- A tree of surfaces: every member reports the first crossing with its surface, or, where there is none, a miss or
a distance that is not below `9e99`. `Part o s` says that `s` is the surface of the member `o`. -/
theorem tree_of_surfaces (S : Sorter (Obj Ext M)) (ch : List (Obj Ext M)) (n : Node Ext M)
    (l : List (Obj Ext M)) (h : buildTree S ch = .ok (n, l)) (r : Ray Ext) (R : Ray ℝ) (hr : r.Is R)
    (hd : R.dir ≠ ⟨0, 0, 0⟩) (Part : Obj Ext M → (Vec ℝ → Prop) → Prop) (hpart : ∀ o ∈ ch, ∃ s, Part o s)
    (hon : ∀ o ∈ ch, ∀ s, Part o s → ∃ hit, o.intersect r = .ok (hit, r) ∧
      ((∃ T, hit.t.Is T ∧ 0 < T ∧ s (R.at T) ∧ ∀ T' > 0, s (R.at T') → T ≤ T') ∨
        ((∀ T > 0, ¬ s (R.at T)) ∧ ((lit 0 <. hit.t) = false ∨ (hit.t <. (lit (9 * 10 ^ 99) : Ext)) = false))))
    (hb : ∀ o ∈ ch, ∀ s, Part o s → ∃ b B, o.bounds = .ok b ∧ b.Is B ∧ B.Proper ∧ ∀ p, s p → B.Mem p)
    (hclear : ClearOf (fun B => ∃ o ∈ ch, ∃ b, o.bounds = .ok b ∧ b.Is B) R)
    (hfar : ∀ o ∈ ch, ∀ s, Part o s → ∀ T, s (R.at T) → T < 9 * 10 ^ 99) :
    ∃ hit, (Obj.tree n).intersect r = .ok (hit, r) ∧
      ((∃ T, ∃ o ∈ ch, ∃ s, Part o s ∧ hit.t.Is T ∧ 0 < T ∧ s (R.at T) ∧ o.intersect r = .ok (hit, r) ∧
          ∀ o' ∈ ch, ∀ s', Part o' s' → ∀ T' > 0, s' (R.at T') → T ≤ T') ∨
        ((∀ o ∈ ch, ∀ s, Part o s → ∀ T > 0, ¬ s (R.at T)) ∧
          ((lit 0 <. hit.t) = false ∨ ch.length ≤ 7 ∧ (n.bb.intersect r <=. lit 0) = false ∧ hit = noHit) ∧
          (ch.length ≤ 7 → (n.bb.intersect r <=. lit 0) = false → hit = noHit))) := by
  set hits : Obj Ext M → HitRecord Ext M := fun o =>
    match o.intersect r with
    | .ok (h, _) => if (h.t <. (lit (9 * 10 ^ 99) : Ext)) = true then h else HitRecord.miss
    | .error _ => HitRecord.miss with hhits
  set bounds : Obj Ext M → BBox ℝ := fun o =>
    match o.bounds with
    | .ok b => ⟨vval b.min, vval b.max⟩
    | .error _ => ⟨⟨0, 0, 0⟩, ⟨0, 0, 0⟩⟩ with hbounds
  have z : Ext.Is (lit 0) 0 := by simpa using Ext.Is.lit 0
  have big : Ext.Is (lit (9 * 10 ^ 99)) (9 * 10 ^ 99) := ⟨false, by rw [Ext.lit_ext]; push_cast; rfl⟩
  have hmiss : ((lit 0 : Ext) <. (HitRecord.miss : HitRecord Ext M).t) = false := by
    change ((lit 0 : Ext) <. lit 0) = false
    rw [z.lt z]; simp
  have hb' : ∀ o ∈ ch, ∀ s, Part o s → ∃ b, o.bounds = .ok b ∧ b.Is (bounds o) ∧ (bounds o).Proper ∧
      ∀ p, s p → (bounds o).Mem p := by
    intro o ho s hs
    obtain ⟨b, B, e, h1, h2, h3⟩ := hb o ho s hs
    have : bounds o = B := by rw [hbounds]; simp only [e]; exact bval_is h1
    rw [this]
    exact ⟨b, e, h1, h2, h3⟩
  -- the record of a member
  have key : ∀ o ∈ ch, ∀ s, Part o s → ∃ hit, o.intersect r = .ok (hit, r) ∧
      ((∃ T, hit.t.Is T ∧ 0 < T ∧ s (R.at T) ∧ (∀ T' > 0, s (R.at T') → T ≤ T') ∧ hits o = hit) ∨
        ((∀ T > 0, ¬ s (R.at T)) ∧ (lit 0 <. (hits o).t) = false)) ∧ TellsOrFar hits r o := by
    intro o ho s hs
    obtain ⟨hit, e, hc⟩ := hon o ho s hs
    have eh : hits o = if (hit.t <. (lit (9 * 10 ^ 99) : Ext)) = true then hit else HitRecord.miss := by
      rw [hhits]; simp only [e]
    refine ⟨hit, e, ?_, hit, e, ?_⟩
    · rcases hc with ⟨T, h1, h2, h3, h4⟩ | ⟨h1, h2⟩
      · refine .inl ⟨T, h1, h2, h3, h4, ?_⟩
        rw [eh, if_pos]
        rw [h1.lt big, decide_eq_true_eq]
        exact hfar o ho s hs T h3
      · refine .inr ⟨h1, ?_⟩
        rw [eh]
        rcases h2 with h2 | h2
        · split
          · exact h2
          · exact hmiss
        · rw [if_neg (by rw [h2]; simp)]
          exact hmiss
    · rw [eh]
      by_cases hc : (hit.t <. (lit (9 * 10 ^ 99) : Ext)) = true
      · rw [if_pos hc]; exact .inl rfl
      · rw [if_neg hc]; exact .inr ⟨hmiss, by simpa using hc⟩
  have hcross : ∀ o ∈ ch, ∀ s, Part o s → (lit 0 <. (hits o).t) = true → ∃ T, (hits o).t.Is T ∧ 0 < T ∧ s (R.at T) ∧
      o.intersect r = .ok (hits o, r) := by
    intro o ho s hs hp
    obtain ⟨hit, e, hc | hc, -⟩ := key o ho s hs
    · obtain ⟨T, h1, h2, h3, h4, h5⟩ := hc
      exact ⟨T, h5 ▸ h1, h2, h3, h5 ▸ e⟩
    · rw [hc.2] at hp; cases hp
  have hconv : ∀ o ∈ ch, ∀ s, Part o s → ∀ T > 0, s (R.at T) →
      ∃ T' ≤ T, (hits o).t.Is T' ∧ (lit 0 <. (hits o).t) = true := by
    intro o ho s hs T hT h
    obtain ⟨hit, e, hc | hc, -⟩ := key o ho s hs
    · obtain ⟨T', h1, h2, h3, h4, rfl⟩ := hc
      refine ⟨T', h4 T hT h, h1, ?_⟩
      rw [z.lt h1, decide_eq_true_eq]; exact h2
    · exact absurd h (hc.1 T hT)
  have hrep : ∀ o ∈ ch, TellsOrFar hits r o := by
    intro o ho
    obtain ⟨s, hs⟩ := hpart o ho
    obtain ⟨_, _, _, h⟩ := key o ho s hs
    exact h
  have first : ∀ hit, NearestOf hits ch hit → ∃ T, ∃ o ∈ ch, ∃ s, Part o s ∧ hit.t.Is T ∧ 0 < T ∧ s (R.at T) ∧
      o.intersect r = .ok (hit, r) ∧ ∀ o' ∈ ch, ∀ s', Part o' s' → ∀ T' > 0, s' (R.at T') → T ≤ T' := by
    rintro hit ⟨⟨o, ho, rfl⟩, h1, h2⟩
    obtain ⟨s, hs⟩ := hpart o ho
    obtain ⟨T, t1, t2, t3, t4⟩ := hcross o ho s hs h1
    refine ⟨T, o, ho, s, hs, t1, t2, t3, t4, ?_⟩
    intro o' ho' s' hs' T' hT' hon'
    obtain ⟨T'', hle, hi, hp⟩ := hconv o' ho' s' hs' T' hT' hon'
    have := h2 o' ho' hp
    rw [t1.le hi, decide_eq_true_eq] at this
    exact this.trans hle
  have hno : NoneHit hits ch → ∀ o ∈ ch, ∀ s, Part o s → ∀ T > 0, ¬ s (R.at T) := by
    intro hn o ho s hs T hT h
    obtain ⟨T', -, -, hp⟩ := hconv o ho s hs T hT h
    rw [hn o ho] at hp; cases hp
  by_cases hlen : 7 < ch.length ∨ ¬ NoneHit hits ch
  · obtain ⟨hit, e, hh⟩ := tree_reports_exact S ch n l h r R hr hd hits hrep bounds (by
      intro o ho
      obtain ⟨s, hs⟩ := hpart o ho
      obtain ⟨b, h1, h2, h3, -⟩ := hb' o ho s hs
      exact ⟨b, h1, h2, h3⟩) (by
      intro o ho hp
      obtain ⟨s, hs⟩ := hpart o ho
      obtain ⟨T, h1, h2, h3, -⟩ := hcross o ho s hs hp
      obtain ⟨b, -, -, -, h4⟩ := hb' o ho s hs
      exact ⟨T, h1, hfar o ho s hs T h3, h4 _ h3⟩) (by
      have sub : ∀ B, (∃ o ∈ ch, B = bounds o) → ∃ o ∈ ch, ∃ b, o.bounds = .ok b ∧ b.Is B := by
        rintro B ⟨o, ho, rfl⟩
        obtain ⟨s, hs⟩ := hpart o ho
        obtain ⟨b, h1, h2, -⟩ := hb' o ho s hs
        exact ⟨o, ho, b, h1, h2⟩
      exact hclear.mono sub) hlen
    refine ⟨hit, e, ?_⟩
    rcases hh with hh | ⟨hh, hm⟩
    · exact .inl (first hit hh)
    · refine .inr ⟨hno hh, .inl hm, fun hl => ?_⟩
      rcases hlen with hlen | hlen
      · exact absurd hl (not_le.2 hlen)
      · exact absurd hh hlen
  · push Not at hlen
    obtain ⟨hlen, hn⟩ := hlen
    have e := tree_none sent_pos S ch hlen n l h r hits hrep hn
    refine ⟨_, e, .inr ⟨hno hn, ?_⟩⟩
    by_cases hc : (n.bb.intersect r <=. (lit 0 : Ext)) = true
    · rw [if_pos hc]; exact ⟨.inl hmiss, fun _ h => absurd hc (by rw [h]; simp)⟩
    · rw [if_neg hc]; exact ⟨.inr ⟨hlen, by simpa using hc, rfl⟩, fun _ _ => rfl⟩

/-- A tree of triangles reports the first crossing with one of them, not counting those that have no area or are
parallel to the ray. If there is none it reports a miss, or, in trees of at most 7 triangles, a hit at `9e99`. -/
theorem tris_nearest (S : Sorter (Obj Ext M)) (P : List (Vec Ext)) (V : List (Vec ℝ))
    (hV : List.Forall₂ Vec.Is P V) (faces : List Tri) (fs : List (Obj Ext M))
    (hfs : List.Forall₂ (FaceOf P) faces fs) (n : Node Ext M) (l : List (Obj Ext M))
    (hn : buildTree S fs = .ok (n, l)) (r : Ray Ext) (R : Ray ℝ) (hr : r.Is R)
    (hd : R.dir ≠ ⟨0, 0, 0⟩) (hgen : StartsClear V R)
    (hfar : ∀ T, OnTrisAcross V faces R.dir (R.at T) → T < 9 * 10 ^ 99) :
    ∃ hit, (Obj.tree n).intersect r = .ok (hit, r) ∧
      ((∃ T, hit.t.Is T ∧ 0 < T ∧ OnTrisAcross V faces R.dir (R.at T) ∧
        (∀ T' > 0, OnTrisAcross V faces R.dir (R.at T') → T ≤ T') ∧ ∃ o ∈ fs, hit = faceRecord r o) ∨
       ((∀ T > 0, ¬ OnTrisAcross V faces R.dir (R.at T)) ∧ ((lit 0 <. hit.t) = false ∨
         faces.length ≤ 7 ∧ (n.bb.intersect r <=. lit 0) = false ∧ hit.t = lit (9 * 10 ^ 99)))) := by
  have z : (lit 0 : Ext).Is 0 := by simpa using Ext.Is.lit 0
  have hface : ∀ o ∈ fs, ∃ f ∈ faces, FaceOf P f o := fun o ho => forall₂_right hfs o ho
  have spans : ∀ (f : Tri) (o : Obj Ext M), FaceOf P f o → ∃ b B l, o.bounds = .ok b ∧ b.Is B ∧ (∀ q ∈ l, q ∈ V) ∧ B.Spans l ∧
      ∀ p, OnTris V [f] p → B.Mem p := by
    intro f o hof
    obtain ⟨va, vb, vc, a, b, c, rfl, ia, ib, ic, ha, hb, hc⟩ := hof.real hV
    obtain ⟨bb, B, e, hB, hs⟩ := fromHull_is [va.pos, vb.pos, vc.pos] [a, b, c] (by simp)
      (.cons ia (.cons ib (.cons ic .nil)))
    refine ⟨bb, B, [a, b, c], e, hB, ?_, hs, ?_⟩
    · intro q hq
      simp only [List.mem_cons, List.not_mem_nil, or_false] at hq
      rcases hq with rfl | rfl | rfl
      · exact List.mem_of_getElem? ha
      · exact List.mem_of_getElem? hb
      · exact List.mem_of_getElem? hc
    · rintro p ⟨g, hg, a', b', c', ha', hb', hc', hp⟩
      rw [List.mem_singleton] at hg
      subst hg
      rw [ha] at ha'; rw [hb] at hb'; rw [hc] at hc'
      cases ha'; cases hb'; cases hc'
      exact BBox.mem_triangle (hs.1 a (by simp)) (hs.1 b (by simp)) (hs.1 c (by simp)) hp
  have across : ∀ f ∈ faces, ∀ p, OnTrisAcross V [f] R.dir p → OnTrisAcross V faces R.dir p := by
    rintro f hf p ⟨g, hg, h⟩
    rw [List.mem_singleton] at hg
    subst hg
    exact ⟨g, hf, h⟩
  obtain ⟨hit, e, hh⟩ := tree_of_surfaces S fs n l hn r R hr hd
    (fun o s => ∃ f ∈ faces, FaceOf P f o ∧ s = OnTrisAcross V [f] R.dir) (by
      intro o ho
      obtain ⟨f, hf, hof⟩ := hface o ho
      exact ⟨_, f, hf, hof, rfl⟩) (by
      rintro o ho s ⟨f, hf, hof, rfl⟩
      refine ⟨faceRecord r o, ?_, ?_⟩
      · obtain ⟨va, vb, vc, rfl, -⟩ := hof
        rfl
      obtain ⟨va, vb, vc, a, b, c, rfl, ia, ib, ic, ha, hb, hc⟩ := hof.real hV
      have only : ∀ p, OnTrisAcross V [f] R.dir p ↔ Transverse a b c R.dir ∧ InTriangle a b c p := by
        intro p
        constructor
        · rintro ⟨g, hg, a', b', c', ha', hb', hc', h⟩
          rw [List.mem_singleton] at hg
          subst hg
          rw [ha] at ha'; rw [hb] at hb'; rw [hc] at hc'
          cases ha'; cases hb'; cases hc'
          exact h
        · intro h
          exact ⟨f, by simp, a, b, c, ha, hb, hc, h⟩
      simp only [only, faceRecord]
      by_cases ht : Transverse a b c R.dir
      · by_cases hp : (lit 0 <. (Face.hit va vb vc r : HitRecord Ext M).t) = true
        · left
          obtain ⟨T, h1, h2, h3⟩ := face_hit_sound ia ib ic hr ht hp
          refine ⟨T, h1, h2, ⟨ht, h3⟩, ?_⟩
          rintro T' hT' ⟨-, h⟩
          obtain ⟨s, hs⟩ := face_hit_is (M := M) ia ib ic hr ht hT' h
          obtain ⟨s', hs'⟩ := h1
          rw [hs'] at hs
          cases hs; exact le_rfl
        · right
          rw [Bool.not_eq_true] at hp
          refine ⟨?_, .inl hp⟩
          rintro T hT ⟨-, h⟩
          rw [z.lt (face_hit_is (M := M) ia ib ic hr ht hT h), decide_eq_false_iff_not] at hp
          exact hp hT
      · right
        exact ⟨fun T _ h => ht h.1, face_hit_parallel ia ib ic hr ht⟩) (by
      rintro o ho s ⟨f, hf, hof, rfl⟩
      obtain ⟨b, B, l, h1, h2, h3, h4, h5⟩ := spans f o hof
      exact ⟨b, B, h1, h2, h4.proper, fun p hp => h5 p hp.onTris⟩) (by
      refine hgen.clearOf ?_
      rintro B ⟨o, ho, b, h1, h2⟩
      obtain ⟨f, hf, hof⟩ := hface o ho
      obtain ⟨b', B', l, h1', h2', h3, h4, -⟩ := spans f o hof
      rw [h1] at h1'
      cases h1'
      have : B = B' := by rw [← bval_is h2, ← bval_is h2']
      exact ⟨l, h3, this ▸ h4⟩) (by
      rintro o ho s ⟨f, hf, hof, rfl⟩ T hT
      exact hfar T (across f hf _ hT))
  have each : ∀ p, OnTrisAcross V faces R.dir p → ∃ o ∈ fs, ∃ f ∈ faces, FaceOf P f o ∧ OnTrisAcross V [f] R.dir p := by
    rintro p ⟨f, hf, h⟩
    obtain ⟨o, ho, hof⟩ := forall₂_left hfs f hf
    exact ⟨o, ho, f, hf, hof, f, by simp, h⟩
  refine ⟨hit, e, ?_⟩
  rcases hh with ⟨T, o, ho, s, ⟨f, hf, hof, rfl⟩, h1, h2, h3, h4, h5⟩ | ⟨h1, h2, -⟩
  · refine .inl ⟨T, h1, h2, across f hf _ h3, ?_, o, ho, ?_⟩
    · intro T' hT' hon
      obtain ⟨o', ho', f', hf', hof', h⟩ := each _ hon
      exact h5 o' ho' _ ⟨f', hf', hof', rfl⟩ T' hT' h
    · obtain ⟨va, vb, vc, rfl, -⟩ := hof
      rw [Obj.intersect] at h4
      cases h4
      rfl
  · refine .inr ⟨?_, ?_⟩
    · intro T hT hon
      obtain ⟨o', ho', f', hf', hof', h⟩ := each _ hon
      exact h1 o' ho' _ ⟨f', hf', hof', rfl⟩ T hT h
    · rcases h2 with h2 | ⟨h2, h3, rfl⟩
      · exact .inl h2
      · exact .inr ⟨hfs.length_eq ▸ h2, h3, rfl⟩

end BR
