import Verif.Lemmas.ExtNormals
import Verif.Props.C68_Mesh

/-!
C69: smooth shading. The normal at a vertex of a mesh is the direction of the sum of the unit normals of the triangles
that meet there; triangles without area do not disturb it. At a hit, the reported normal and texture coordinates are
those of the three corners, weighted by the barycentric coordinates of the hit point.

Missing from the full property (and false): a vertex at which the normals add up to zero (`C69_violated_two_sided`).
-/

namespace BR

variable {M : Type}

/-- The positions of the vertices are the real points, and their normals are not set yet. -/
def FreshVertices (vs : List (Vertex Ext)) (V : List (Vec ℝ)) : Prop :=
  List.Forall₂ (fun v p => v.pos.Is p ∧ v.normal.Is ⟨0, 0, 0⟩) vs V

private theorem fresh_pos {vs : List (Vertex Ext)} {V : List (Vec ℝ)} (h : FreshVertices vs V) :
    List.Forall₂ Vec.Is (vs.map Vertex.pos) V :=
  List.forall₂_map_left_iff.2 (h.imp fun _ _ h => h.1)

/-- After the first loop. -/
private theorem fresh_sum {vs : List (Vertex Ext)} {V : List (Vec ℝ)} (h : FreshVertices vs V) (faces : List Tri)
    (i : Nat) (hi : i < V.length) :
    ∃ v, (faces.foldl accumNormal vs)[i]? = some v ∧ v.normal.Is (normalSum V faces i) := by
  have hl := h.length_eq
  have hi' : i < vs.length := hl ▸ hi
  have hv := (List.forall₂_iff_get.1 h).2 i hi' hi
  exact accum_is i faces vs vs[i] ⟨0, 0, 0⟩ (fresh_pos h) (List.getElem?_eq_getElem hi') hv.2

/-- The vertex is a corner of one of the triangles. -/
def Used (faces : List Tri) (i : Nat) : Prop := ∃ f ∈ faces, f.1 = i ∨ f.2.1 = i ∨ f.2.2 = i

private theorem used_count {faces : List Tri} {i : Nat} (h : Used faces i) :
    0 < (faces.flatMap Tri.corners).count i := by
  rw [List.count_pos_iff, List.mem_flatMap]
  obtain ⟨f, hf, h⟩ := h
  refine ⟨f, hf, ?_⟩
  simp only [Tri.corners, List.mem_cons, List.not_mem_nil, or_false]
  rcases h with h | h | h <;> simp [h]

/-- The normal of a vertex of a mesh is the direction of the sum of the unit normals of the triangles at the vertex. -/
theorem C69_vertex_partial (vs : List (Vertex Ext)) (V : List (Vec ℝ)) (h : FreshVertices vs V) (faces : List Tri)
    (i : Nat) (hi : i < V.length) (hu : Used faces i) (hs : normalSum V faces i ≠ ⟨0, 0, 0⟩) :
    ∃ v, (calcNormals vs faces)[i]? = some v ∧ v.normal.Is (vertexNormal V faces i) := by
  obtain ⟨v, hv, hN⟩ := fresh_sum h faces i hi
  rw [calcNormals, normalize_all, normalizes_get, hv]
  exact ⟨_, rfl, iterate_norm_is (used_count hu) hN hs⟩

/-- It has length one. -/
theorem C69_unit (V : List (Vec ℝ)) (faces : List Tri) (i : Nat) (hs : normalSum V faces i ≠ ⟨0, 0, 0⟩) :
    (vertexNormal V faces i).len = 1 := by
  have h := unitVec_dot hs
  simp only [Vec.dot] at h
  simp only [Vec.len, vertexNormal, sqrt_real]
  rw [h, Real.sqrt_one]

/-- At a vertex where the normals add up to zero (for example a triangle that is present in both orientations, to be
seen from both sides), the normal is not a number. -/
theorem C69_violated_zero (vs : List (Vertex Ext)) (V : List (Vec ℝ)) (h : FreshVertices vs V) (faces : List Tri)
    (i : Nat) (hi : i < V.length) (hu : Used faces i) (hs : normalSum V faces i = ⟨0, 0, 0⟩) :
    ∃ v, (calcNormals vs faces)[i]? = some v ∧ v.normal = ⟨.nan, .nan, .nan⟩ := by
  obtain ⟨v, hv, hN⟩ := fresh_sum h faces i hi
  rw [hs] at hN
  rw [calcNormals, normalize_all, normalizes_get, hv]
  exact ⟨_, rfl, iterate_norm_zero (used_count hu) hN⟩

/-- A triangle. -/
private def leafR : List (Vec ℝ) := [⟨0, 0, 0⟩, ⟨1, 0, 0⟩, ⟨0, 1, 0⟩]

private def leafV : List (Vertex Ext) :=
  [⟨⟨.fin 0, .fin 0, .fin 0⟩, ⟨.fin 0, .fin 0, .fin 0⟩, .fin 0, .fin 0⟩,
   ⟨⟨.fin 1, .fin 0, .fin 0⟩, ⟨.fin 0, .fin 0, .fin 0⟩, .fin 0, .fin 0⟩,
   ⟨⟨.fin 0, .fin 1, .fin 0⟩, ⟨.fin 0, .fin 0, .fin 0⟩, .fin 0, .fin 0⟩]

private theorem leaf_fresh : FreshVertices leafV leafR := by
  have f : ∀ x : ℝ, (Ext.fin x).Is x := fun x => ⟨false, rfl⟩
  unfold FreshVertices leafV leafR
  refine .cons ⟨⟨f _, f _, f _⟩, ⟨f _, f _, f _⟩⟩ (.cons ⟨⟨f _, f _, f _⟩, ⟨f _, f _, f _⟩⟩
    (.cons ⟨⟨f _, f _, f _⟩, ⟨f _, f _, f _⟩⟩ .nil))

private theorem leaf_front : triNormal (⟨0, 0, 0⟩ : Vec ℝ) ⟨1, 0, 0⟩ ⟨0, 1, 0⟩ = ⟨0, 0, 1⟩ := by
  simp [triNormal, geo]

private theorem leaf_back : triNormal (⟨0, 0, 0⟩ : Vec ℝ) ⟨0, 1, 0⟩ ⟨1, 0, 0⟩ = ⟨0, 0, -1⟩ := by
  simp [triNormal, geo]

private theorem unit_front : unitVec ⟨0, 0, 1⟩ = ⟨0, 0, 1⟩ := by simp [unitVec, geo]

private theorem unit_back : unitVec ⟨0, 0, -1⟩ = ⟨0, 0, -1⟩ := by simp [unitVec, geo]

/-- The normal of a single triangle. -/
example : normalSum leafR [(0, 1, 2)] 0 = ⟨0, 0, 1⟩ ∧
    ∃ v, (calcNormals leafV [(0, 1, 2)])[0]? = some v ∧ v.normal.Is ⟨0, 0, 1⟩ := by
  have h : normalSum leafR [(0, 1, 2)] 0 = ⟨0, 0, 1⟩ := by
    simp [normalSum, cornerNormal, leafR, leaf_front, unit_front, geo]
  refine ⟨h, ?_⟩
  obtain ⟨v, h1, h2⟩ := C69_vertex_partial leafV leafR leaf_fresh [(0, 1, 2)] 0 (by simp [leafR])
    ⟨_, List.mem_singleton_self _, .inl rfl⟩ (by rw [h]; simp)
  refine ⟨v, h1, ?_⟩
  rw [vertexNormal, h, unit_front] at h2
  exact h2

/-- A leaf made of two triangles, one for each side, that share their vertices: no vertex has a normal. -/
theorem C69_violated_two_sided : ∃ (vs : List (Vertex Ext)) (V : List (Vec ℝ)) (faces : List Tri),
    FreshVertices vs V ∧ (∀ f ∈ faces, ∃ a b c, V[f.1]? = some a ∧ V[f.2.1]? = some b ∧ V[f.2.2]? = some c ∧
      triNormal a b c ≠ ⟨0, 0, 0⟩) ∧
    ∀ i < V.length, ∃ v, (calcNormals vs faces)[i]? = some v ∧ v.normal = ⟨.nan, .nan, .nan⟩ := by
  refine ⟨leafV, leafR, [(0, 1, 2), (0, 2, 1)], leaf_fresh, ?_, ?_⟩
  · intro f hf
    simp only [List.mem_cons, List.not_mem_nil, or_false] at hf
    rcases hf with rfl | rfl
    · exact ⟨_, _, _, rfl, rfl, rfl, by rw [leaf_front]; simp⟩
    · exact ⟨_, _, _, rfl, rfl, rfl, by rw [leaf_back]; simp⟩
  · intro i hi
    refine C69_violated_zero leafV leafR leaf_fresh _ i hi ⟨(0, 1, 2), by simp, ?_⟩ ?_
    · simp [leafR] at hi
      dsimp only
      omega
    · simp only [leafR, List.length_cons, List.length_nil] at hi
      obtain rfl | rfl | rfl : i = 0 ∨ i = 1 ∨ i = 2 := by omega
      all_goals simp [normalSum, cornerNormal, leafR, leaf_front, leaf_back, unit_front, unit_back, geo]

/-! ## Shading -/

/-- The texture coordinates of a vertex: those given, or zero if none are. -/
def uvOf (UV : Option (List (Ext × Ext))) (i : Nat) (u v : Ext) : Prop :=
  match UV with
  | none => u = lit 0 ∧ v = lit 0
  | some uv => uv[i]? = some (u, v)

private theorem zipIdx_get {vs : List (Vertex Ext)} {l : List (Vec Ext)} {P : Vec Ext × Nat → Vertex Ext → Prop}
    (h : List.Forall₂ P l.zipIdx vs) (i : Nat) (v : Vertex Ext) (hv : vs[i]? = some v) :
    ∃ p, l[i]? = some p ∧ P (p, i) v := by
  obtain ⟨hl, h⟩ := List.forall₂_iff_get.1 h
  have hi : i < vs.length := (List.getElem?_eq_some_iff.1 hv).1
  have e := h i (by omega) hi
  rw [List.length_zipIdx] at hl
  have hi' : i < l.length := by omega
  refine ⟨l[i], List.getElem?_eq_getElem hi', ?_⟩
  have hv' : vs[i] = v := (List.getElem?_eq_some_iff.1 hv).2
  simpa [hv'] using e

private theorem mkVertices_fresh (vertices : List (Vec Ext)) (V : List (Vec ℝ)) (hV : List.Forall₂ Vec.Is vertices V)
    (UV : Option (List (Ext × Ext))) (vs : List (Vertex Ext)) (h : mkVertices vertices UV = .ok vs) :
    FreshVertices vs V ∧ ∀ (i : Nat) (v : Vertex Ext), vs[i]? = some v → uvOf UV i v.u v.v := by
  have zero : (Vec.zero : Vec Ext).Is ⟨0, 0, 0⟩ := by
    have z : (lit 0 : Ext).Is 0 := by simpa using Ext.Is.lit 0
    exact ⟨z, z, z⟩
  cases UV with
  | none =>
    cases h
    refine ⟨List.forall₂_map_left_iff.2 (hV.imp fun _ _ h => ⟨h, zero⟩), ?_⟩
    intro i v hv
    rw [List.getElem?_map] at hv
    cases e : vertices[i]? with
    | none => rw [e] at hv; cases hv
    | some p => rw [e] at hv; cases hv; exact ⟨rfl, rfl⟩
  | some uv =>
    rw [mkVertices] at h
    have h := (mapM_spec _ _ _ h).imp (S := fun (a : Vec Ext × Nat) (v : Vertex Ext) =>
        v.pos = a.1 ∧ v.normal = Vec.zero ∧ uv[a.2]? = some (v.u, v.v)) (by
      rintro ⟨p, i⟩ v h
      dsimp only at h
      split at h
      · next e => cases h; exact ⟨rfl, rfl, e⟩
      · cases h)
    constructor
    · have hl := h.length_eq
      rw [List.length_zipIdx] at hl
      refine List.forall₂_iff_get.2 ⟨by rw [← hl, hV.length_eq], ?_⟩
      intro i h1 h2
      obtain ⟨p, hp, e1, e2, -⟩ := zipIdx_get h i vs[i] (List.getElem?_eq_getElem h1)
      have := (List.forall₂_iff_get.1 hV).2 i (by omega) h2
      have hp' : vertices[i]'(by omega) = p := (List.getElem?_eq_some_iff.1 hp).2
      refine ⟨?_, ?_⟩
      · show vs[i].pos.Is _
        rw [e1, ← hp']; exact this
      · show vs[i].normal.Is _
        rw [e2]; exact zero
    · intro i v hv
      obtain ⟨p, hp, -, -, e⟩ := zipIdx_get h i v hv
      exact e

/-- What a hit shows: the weighted normals and texture coordinates of the three corners of the triangle that is hit. -/
structure Shaded (V : List (Vec ℝ)) (tris : List Tri) (UV : Option (List (Ext × Ext))) (p : Vec ℝ)
    (hit : HitRecord Ext M) (f : Tri) (a b c : Vec ℝ) (l0 l1 l2 : ℝ) : Prop where
  corner : V[f.1]? = some a ∧ V[f.2.1]? = some b ∧ V[f.2.2]? = some c
  weights : IsWeights l0 l1 l2
  point : p = combine l0 l1 l2 a b c
  normal : normalSum V tris f.1 ≠ ⟨0, 0, 0⟩ → normalSum V tris f.2.1 ≠ ⟨0, 0, 0⟩ →
    normalSum V tris f.2.2 ≠ ⟨0, 0, 0⟩ →
    hit.normal.Is (combine l0 l1 l2 (vertexNormal V tris f.1) (vertexNormal V tris f.2.1) (vertexNormal V tris f.2.2))
  uv : ∀ (u v : Fin 3 → Ext) (U W : Fin 3 → ℝ), (∀ k, (u k).Is (U k) ∧ (v k).Is (W k)) →
    uvOf UV f.1 (u 0) (v 0) → uvOf UV f.2.1 (u 1) (v 1) → uvOf UV f.2.2 (u 2) (v 2) →
    hit.loc.Is ⟨U 0 * l0 + U 1 * l1 + U 2 * l2, W 0 * l0 + W 1 * l1 + W 2 * l2, 0⟩

private theorem uvOf_unique {UV : Option (List (Ext × Ext))} {i : Nat} {u v u' v' : Ext} (h : uvOf UV i u v)
    (h' : uvOf UV i u' v') : u = u' ∧ v = v' := by
  cases UV with
  | none => exact ⟨h.1.trans h'.1.symm, h.2.trans h'.2.symm⟩
  | some uv =>
    have h1 : uv[i]? = some (u, v) := h
    have h2 : uv[i]? = some (u', v') := h'
    rw [h1] at h2
    cases h2
    exact ⟨rfl, rfl⟩

private theorem triRef_eq (n : Nat) (f : Int × Int × Int) (t : Tri) (h : triRef n f = .ok t) :
    t = (f.1.toNat, f.2.1.toNat, f.2.2.toNat) := by
  rw [triRef] at h
  obtain ⟨a, ha, h⟩ := bind_eq_ok.1 h
  obtain ⟨b, hb, h⟩ := bind_eq_ok.1 h
  obtain ⟨c, hc, h⟩ := bind_eq_ok.1 h
  cases h
  unfold vertexRef at ha hb hc
  split_ifs at ha hb hc
  cases ha; cases hb; cases hc
  rfl

/-- **C69.** A hit of a mesh is shaded with the weighted normals and texture coordinates of the corners of the triangle
that is hit. (Rays as in `C68_mesh_partial`.) -/
theorem C69_shading_partial (S : Sorter (Obj Ext M)) (m : Option M) (vertices : List (Vec Ext)) (V : List (Vec ℝ))
    (hV : List.Forall₂ Vec.Is vertices V) (faces : List (Int × Int × Int)) (UV : Option (List (Ext × Ext)))
    (o : Obj Ext M) (h : meshWithUV S m vertices faces UV = .ok o) (r : Ray Ext) (R : Ray ℝ) (hr : r.Is R)
    (hd : R.dir ≠ ⟨0, 0, 0⟩) (hgen : StartsClear V R)
    (hfar : ∀ T, OnMeshAcross V faces R.dir (R.at T) → T < 9 * 10 ^ 99)
    (hhit : ∃ T > 0, OnMeshAcross V faces R.dir (R.at T)) :
    ∃ hit T, o.intersect r = .ok (hit, r) ∧ hit.t.Is T ∧ 0 < T ∧ ∃ f ∈ faces, ∃ a b c l0 l1 l2,
      Shaded V (faces.map fun f => (f.1.toNat, f.2.1.toNat, f.2.2.toNat)) UV (R.at T) hit
        (f.1.toNat, f.2.1.toNat, f.2.2.toNat) a b c l0 l1 l2 := by
  rw [meshWithUV] at h
  obtain ⟨vs, hvs, h⟩ := bind_eq_ok.1 h
  obtain ⟨tris, ht, h⟩ := bind_eq_ok.1 h
  have ht' := (mapM_spec _ _ _ ht).imp (fun f t h => triRef_eq _ f t h)
  have htris : tris = faces.map fun f => (f.1.toNat, f.2.1.toNat, f.2.2.toNat) := by
    have aux : ∀ (fs : List (Int × Int × Int)) (ts : List Tri),
        List.Forall₂ (fun f t => t = (f.1.toNat, f.2.1.toNat, f.2.2.toNat)) fs ts →
        ts = fs.map fun f => (f.1.toNat, f.2.1.toNat, f.2.2.toNat) := by
      intro fs ts h
      induction h with
      | nil => rfl
      | cons h _ ih => rw [List.map_cons, ← ih, h]
    exact aux _ _ ht'
  have hon : ∀ p, OnTrisAcross V tris R.dir p ↔ OnMeshAcross V faces R.dir p := by
    intro p
    constructor
    · rintro ⟨t, ht, a, b, c, ha, hb, hc, hp⟩
      obtain ⟨f, hf, rfl⟩ := forall₂_right ht' t ht
      exact ⟨f, hf, a, b, c, ha, hb, hc, hp⟩
    · rintro ⟨f, hf, a, b, c, ha, hb, hc, hp⟩
      obtain ⟨t, ht, rfl⟩ := forall₂_left ht' f hf
      exact ⟨_, ht, a, b, c, ha, hb, hc, hp⟩
  obtain ⟨hfresh, huv⟩ := mkVertices_fresh vertices V hV UV vs hvs
  -- the faces with their vertices
  rw [meshObj] at h
  obtain ⟨fs, hfs, h⟩ := bind_eq_ok.1 h
  obtain ⟨⟨t, l⟩, htree, h⟩ := bind_eq_ok.1 h
  obtain ⟨⟨n, l'⟩, hn, htree⟩ := bind_eq_ok.1 htree
  cases htree
  cases h
  have hf2 := (mapM_spec _ _ _ hfs).imp (S := fun (f : Tri) (o : Obj Ext M) => ∃ a b c, o = .face a b c ∧
      (calcNormals vs tris)[f.1]? = some a ∧ (calcNormals vs tris)[f.2.1]? = some b ∧
      (calcNormals vs tris)[f.2.2]? = some c) (by
    intro f o h
    unfold faceObj at h
    split at h
    · next a b c ha hb hc => cases h; exact ⟨a, b, c, rfl, ha, hb, hc⟩
    · cases h)
  have hpos := fresh_pos hfresh
  have hfo : List.Forall₂ (FaceOf (vs.map Vertex.pos)) tris fs := by
    refine hf2.imp ?_
    rintro f o ⟨a, b, c, rfl, ha, hb, hc⟩
    rw [← calcNormals_pos vs tris]
    exact ⟨a, b, c, rfl, by simp [ha], by simp [hb], by simp [hc]⟩
  obtain ⟨hit, e, hh⟩ := tris_nearest S _ V hpos tris fs hfo n l hn r R hr hd hgen
    (fun T hT => hfar T ((hon _).1 hT))
  rcases hh with ⟨T, t1, t2, t3, -, ob, hob, rfl⟩ | ⟨hno, -⟩
  swap
  · obtain ⟨T, hT, h⟩ := hhit
    exact absurd ((hon _).2 h) (hno T hT)
  have z : (lit 0 : Ext).Is 0 := by simpa using Ext.Is.lit 0
  obtain ⟨f, hf, va, vb, vc, rfl, ca, cb, cc⟩ := forall₂_right hf2 ob hob
  obtain ⟨va', vb', vc', a, b, c, e', ia, ib, ic, ha, hb, hc⟩ :=
    FaceOf.real (M := M) (f := f) (o := .face va vb vc) hpos
      ⟨va, vb, vc, rfl, by rw [← calcNormals_pos vs tris]; simp [ca], by rw [← calcNormals_pos vs tris]; simp [cb],
        by rw [← calcNormals_pos vs tris]; simp [cc]⟩
  cases e'
  have t1' : (Face.hit va vb vc r : HitRecord Ext M).t.Is T := t1
  have htr : Transverse a b c R.dir := by
    by_contra hc
    rcases face_hit_parallel (M := M) ia ib ic hr hc with h | h
    · rw [z.lt t1', decide_eq_false_iff_not] at h
      exact h t2
    · have big : Ext.Is (lit (9 * 10 ^ 99)) (9 * 10 ^ 99) := ⟨false, by rw [Ext.lit_ext]; push_cast; rfl⟩
      rw [t1'.lt big, decide_eq_false_iff_not] at h
      exact h (hfar T ((hon _).1 t3))
  obtain ⟨T', l0, l1, l2, e0, e1, e2, hw, hT', hp, i0, i1, i2, it, hnrm, hloc⟩ :=
    face_hit_full (M := M) ia ib ic hr htr (by
      rw [z.lt t1']
      exact decide_eq_true t2)
  obtain rfl : T = T' := by
    obtain ⟨s, hs⟩ := t1'
    obtain ⟨s', hs'⟩ := it
    rw [hs] at hs'
    cases hs'; rfl
  obtain ⟨g, hg, hgf⟩ := forall₂_right ht' f hf
  refine ⟨{ (Face.hit va vb vc r : HitRecord Ext M) with mat := m }, T, ?_, t1, t2, g, hg, a, b, c, l0, l1, l2, ?_⟩
  · rw [Obj.intersect, e]; rfl
  rw [← htris, ← hgf]
  have usd : ∀ i, f.1 = i ∨ f.2.1 = i ∨ f.2.2 = i → Used tris i := fun i h => ⟨f, hf, h⟩
  have lt : ∀ {i : Nat} {x}, V[i]? = some x → i < V.length := fun h => (List.getElem?_eq_some_iff.1 h).1
  have uvc : ∀ (i : Nat) (v : Vertex Ext), (calcNormals vs tris)[i]? = some v → uvOf UV i v.u v.v := by
    intro i v hv
    have hl := calcNormals_length vs tris
    have hi : i < vs.length := by rw [← hl]; exact (List.getElem?_eq_some_iff.1 hv).1
    obtain ⟨nn, hnn⟩ := calcNormals_get vs tris i vs[i] (List.getElem?_eq_getElem hi)
    rw [hv] at hnn
    cases hnn
    exact huv i vs[i] (List.getElem?_eq_getElem hi)
  refine ⟨⟨ha, hb, hc⟩, hw, hp, ?_, ?_⟩
  · intro n0 n1 n2
    obtain ⟨v0, g0, k0⟩ := C69_vertex_partial vs V hfresh tris f.1 (lt ha) (usd _ (.inl rfl)) n0
    obtain ⟨v1, g1, k1⟩ := C69_vertex_partial vs V hfresh tris f.2.1 (lt hb) (usd _ (.inr (.inl rfl))) n1
    obtain ⟨v2, g2, k2⟩ := C69_vertex_partial vs V hfresh tris f.2.2 (lt hc) (usd _ (.inr (.inr rfl))) n2
    rw [ca] at g0; cases g0
    rw [cb] at g1; cases g1
    rw [cc] at g2; cases g2
    show (Face.hit va vb vc r : HitRecord Ext M).normal.Is _
    rw [hnrm]
    exact ((k0.mul i0).add (k1.mul i1)).add (k2.mul i2)
  · intro u v U W huw q0 q1 q2
    obtain ⟨a0, b0⟩ := uvOf_unique (uvc _ _ ca) q0
    obtain ⟨a1, b1⟩ := uvOf_unique (uvc _ _ cb) q1
    obtain ⟨a2, b2⟩ := uvOf_unique (uvc _ _ cc) q2
    show (Face.hit va vb vc r : HitRecord Ext M).loc.Is _
    rw [hloc, a0, b0, a1, b1, a2, b2]
    exact ⟨(((huw 0).1.mul i0).add ((huw 1).1.mul i1)).add ((huw 2).1.mul i2),
      (((huw 0).2.mul i0).add ((huw 1).2.mul i1)).add ((huw 2).2.mul i2), z⟩

/-- A triangle seen from above meets the hypotheses. -/
example : normalSum [⟨0, 0, 0⟩, ⟨1, 0, 0⟩, ⟨0, 1, 0⟩] [(0, 1, 2)] 2 ≠ ⟨0, 0, 0⟩ ∧
    StartsClear [⟨0, 0, 0⟩, ⟨1, 0, 0⟩, ⟨0, 1, 0⟩] (⟨⟨1 / 4, 1 / 2, 3⟩, ⟨0, 0, -1⟩⟩ : Ray ℝ) ∧
    OnMeshAcross [⟨0, 0, 0⟩, ⟨1, 0, 0⟩, ⟨0, 1, 0⟩] [(0, 1, 2)] ⟨0, 0, -1⟩ ((⟨⟨1 / 4, 1 / 2, 3⟩, ⟨0, 0, -1⟩⟩ : Ray ℝ).at 3) ∧
    ∀ T, OnMeshAcross [⟨0, 0, 0⟩, ⟨1, 0, 0⟩, ⟨0, 1, 0⟩] [(0, 1, 2)] ⟨0, 0, -1⟩
      ((⟨⟨1 / 4, 1 / 2, 3⟩, ⟨0, 0, -1⟩⟩ : Ray ℝ).at T) →
      T < 9 * 10 ^ 99 := by
  refine ⟨by simp [normalSum, cornerNormal, leaf_front, unit_front, geo], .inl ?_, ?_, ?_⟩
  · rintro ⟨q, hq, h⟩
    simp only [List.mem_cons, List.not_mem_nil, or_false] at hq
    rcases hq with rfl | rfl | rfl <;> norm_num at h
  · refine ⟨(0, 1, 2), by simp, _, _, _, rfl, rfl, rfl, by rw [Transverse, leaf_front]; norm_num [geo], 1 / 4, 1 / 4, 1 / 2, by norm_num [IsWeights], ?_⟩
    simp only [combine, geo]; norm_num
  · rintro T ⟨f, hf, a, b, c, ha, hb, hc, -, l0, l1, l2, ⟨h0, h1, h2, hs⟩, hp⟩
    obtain rfl := List.mem_singleton.1 hf
    simp at ha hb hc
    subst ha hb hc
    simp only [combine, geo] at hp
    have := hp.2.2
    norm_num
    linarith

end BR
