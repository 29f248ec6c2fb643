import Verif.Lemmas.ExtMesh
import Verif.Props.C32_Parametric
import Mathlib.Tactic.NormNum

/-!
C68: meshes show the triangles they are given. A ray that meets one of the triangles of a mesh (given by vertices and
index triples, loaded as polygons, or made from a parametric surface) hits the mesh at the first of these crossings.

Numbers are extended numbers with exact finite arithmetic. Missing from the full property: meshes of at most 7 triangles
report a hit at distance `9e99` for rays that pass beside the triangles but through their bounding box
(`C21_violated_triangle`); triangles that a ray meets edge-on are not seen (`C24_violated_parallel`), which does not
affect the others; and rays that start at a coordinate of a vertex, unless they start beyond all vertices and move along
that axis (`C19_violated_face`).
-/

namespace BR

variable {M : Type}

/-- The point lies on one of the triangles of the mesh. -/
def OnMesh (V : List (Vec ℝ)) (faces : List (Int × Int × Int)) (p : Vec ℝ) : Prop :=
  ∃ f ∈ faces, ∃ a b c, V[f.1.toNat]? = some a ∧ V[f.2.1.toNat]? = some b ∧ V[f.2.2.toNat]? = some c ∧
    InTriangle a b c p

/-- No triangle of the mesh is degenerate or parallel to the direction. -/
def MeshTransverse (V : List (Vec ℝ)) (faces : List (Int × Int × Int)) (d : Vec ℝ) : Prop :=
  ∀ f ∈ faces, ∀ a b c, V[f.1.toNat]? = some a → V[f.2.1.toNat]? = some b → V[f.2.2.toNat]? = some c →
    Transverse a b c d

/-- The point lies on one of the triangles of the mesh, not counting triangles that have no area or are parallel to the
direction. -/
def OnMeshAcross (V : List (Vec ℝ)) (faces : List (Int × Int × Int)) (d p : Vec ℝ) : Prop :=
  ∃ f ∈ faces, ∃ a b c, V[f.1.toNat]? = some a ∧ V[f.2.1.toNat]? = some b ∧ V[f.2.2.toNat]? = some c ∧
    Transverse a b c d ∧ InTriangle a b c p

/-- If no triangle is parallel to the direction then all are counted. -/
theorem onMeshAcross_eq {V : List (Vec ℝ)} {faces : List (Int × Int × Int)} {d : Vec ℝ} (h : MeshTransverse V faces d) :
    OnMeshAcross V faces d = OnMesh V faces := by
  funext p
  apply propext
  constructor
  · rintro ⟨f, hf, a, b, c, ha, hb, hc, -, hp⟩
    exact ⟨f, hf, a, b, c, ha, hb, hc, hp⟩
  · rintro ⟨f, hf, a, b, c, ha, hb, hc, hp⟩
    exact ⟨f, hf, a, b, c, ha, hb, hc, h f hf a b c ha hb hc, hp⟩

private theorem mkVertices_pos (vertices : List (Vec Ext)) (UV : Option (List (Ext × Ext)))
    (vs : List (Vertex Ext)) (h : mkVertices vertices UV = .ok vs) : vs.map Vertex.pos = vertices := by
  cases UV with
  | none => cases h; simp [Function.comp_def]
  | some uv =>
    rw [mkVertices] at h
    have h := (mapM_spec _ _ _ h).imp (S := fun (a : Vec Ext × Nat) (v : Vertex Ext) => v.pos = a.1) (by
      rintro ⟨p, i⟩ v h
      dsimp only at h
      split at h
      · cases h; rfl
      · cases h)
    have key : ∀ (k : Nat) (l : List (Vec Ext)) (vs : List (Vertex Ext)),
        List.Forall₂ (fun (a : Vec Ext × Nat) (v : Vertex Ext) => v.pos = a.1) (l.zipIdx k) vs →
        vs.map Vertex.pos = l := by
      intro k l
      induction l generalizing k with
      | nil => intro vs h; cases h; rfl
      | cons p l ih =>
        intro vs h
        rw [List.zipIdx_cons] at h
        cases h with
        | cons h1 h2 => rw [List.map_cons, ih _ _ h2, h1]
    exact key 0 vertices vs h

private theorem triRef_spec (n : Nat) (f : Int × Int × Int) (t : Tri) (h : triRef n f = .ok t) :
    t = (f.1.toNat, f.2.1.toNat, f.2.2.toNat) := by
  rw [triRef] at h
  obtain ⟨a, ha, h⟩ := bind_eq_ok.1 h
  obtain ⟨b, hb, h⟩ := bind_eq_ok.1 h
  obtain ⟨c, hc, h⟩ := bind_eq_ok.1 h
  cases h
  unfold vertexRef at ha hb hc
  split_ifs at ha hb hc
  cases ha; cases hb; cases hc
  rfl

private theorem onTris_iff {V : List (Vec ℝ)} {faces : List (Int × Int × Int)} {tris : List Tri}
    (h : List.Forall₂ (fun f t => t = (f.1.toNat, f.2.1.toNat, f.2.2.toNat)) faces tris) (p : Vec ℝ) :
    OnTris V tris p ↔ OnMesh V faces p := by
  constructor
  · rintro ⟨t, ht, a, b, c, ha, hb, hc, hp⟩
    obtain ⟨f, hf, rfl⟩ := forall₂_right h t ht
    exact ⟨f, hf, a, b, c, ha, hb, hc, hp⟩
  · rintro ⟨f, hf, a, b, c, ha, hb, hc, hp⟩
    obtain ⟨t, ht, rfl⟩ := forall₂_left h f hf
    exact ⟨_, ht, a, b, c, ha, hb, hc, hp⟩

private theorem onTrisAcross_iff {V : List (Vec ℝ)} {faces : List (Int × Int × Int)} {tris : List Tri}
    (h : List.Forall₂ (fun f t => t = (f.1.toNat, f.2.1.toNat, f.2.2.toNat)) faces tris) (d p : Vec ℝ) :
    OnTrisAcross V tris d p ↔ OnMeshAcross V faces d p := by
  constructor
  · rintro ⟨t, ht, a, b, c, ha, hb, hc, hp⟩
    obtain ⟨f, hf, rfl⟩ := forall₂_right h t ht
    exact ⟨f, hf, a, b, c, ha, hb, hc, hp⟩
  · rintro ⟨f, hf, a, b, c, ha, hb, hc, hp⟩
    obtain ⟨t, ht, rfl⟩ := forall₂_left h f hf
    exact ⟨_, ht, a, b, c, ha, hb, hc, hp⟩

/-- From a mesh object to its tree. -/
private theorem meshObj_nearest (S : Sorter (Obj Ext M)) (m : Option M) (vs : List (Vertex Ext)) (V : List (Vec ℝ))
    (hV : List.Forall₂ Vec.Is (vs.map Vertex.pos) V) (tris : List Tri) (o : Obj Ext M)
    (h : meshObj S m vs tris = .ok o) (r : Ray Ext) (R : Ray ℝ) (hr : r.Is R) (hd : R.dir ≠ ⟨0, 0, 0⟩)
    (hgen : StartsClear V R) (hfar : ∀ T, OnTrisAcross V tris R.dir (R.at T) → T < 9 * 10 ^ 99) :
    ∃ hit, o.intersect r = .ok (hit, r) ∧ hit.mat = m ∧
      ReportsFirst (OnTrisAcross V tris R.dir) R (tris.length ≤ 7) hit := by
  obtain ⟨n, fs, l, rfl, hn, hfs⟩ := meshObj_spec S m vs tris o h
  obtain ⟨hit, e, hh⟩ := tris_nearest S _ V hV tris fs hfs n l hn r R hr hd hgen hfar
  refine ⟨{ hit with mat := m }, ?_, rfl, ?_⟩
  · rw [Obj.intersect, e]; rfl
  · rcases hh with ⟨T, h1, h2, h3, h4, -⟩ | ⟨h1, h | h⟩
    · exact .inl ⟨T, h1, h2, h3, h4⟩
    · exact .inr ⟨h1, .inl h⟩
    · exact .inr ⟨h1, .inr ⟨h.1, h.2.2⟩⟩

/-- **C68.** A mesh made of vertices `V` and index triples: with its material, at the first crossing of the forward ray
with a triangle. Triangles that the ray meets edge-on, or that have no area, do not count. -/
theorem C68_mesh_partial (S : Sorter (Obj Ext M)) (m : Option M) (vertices : List (Vec Ext)) (V : List (Vec ℝ))
    (hV : List.Forall₂ Vec.Is vertices V) (faces : List (Int × Int × Int)) (UV : Option (List (Ext × Ext)))
    (o : Obj Ext M) (h : meshWithUV S m vertices faces UV = .ok o) (r : Ray Ext) (R : Ray ℝ) (hr : r.Is R)
    (hd : R.dir ≠ ⟨0, 0, 0⟩) (hgen : StartsClear V R)
    (hfar : ∀ T, OnMeshAcross V faces R.dir (R.at T) → T < 9 * 10 ^ 99) :
    ∃ hit, o.intersect r = .ok (hit, r) ∧ hit.mat = m ∧
      ReportsFirst (OnMeshAcross V faces R.dir) R (faces.length ≤ 7) hit := by
  rw [meshWithUV] at h
  obtain ⟨vs, hvs, h⟩ := bind_eq_ok.1 h
  obtain ⟨tris, ht, h⟩ := bind_eq_ok.1 h
  have ht' := (mapM_spec _ _ _ ht).imp (fun f t h => triRef_spec _ f t h)
  have hon : OnTrisAcross V tris R.dir = OnMeshAcross V faces R.dir :=
    funext fun p => propext (onTrisAcross_iff ht' R.dir p)
  rw [← hon] at hfar ⊢
  rw [ht'.length_eq]
  refine meshObj_nearest S m vs V ?_ tris o h r R hr hd hgen hfar
  rw [mkVertices_pos _ _ _ hvs]; exact hV

/-- A mesh of at most seven triangles, along any ray that crosses none of them (wherever it starts): it reports a miss, or
something at a distance that is not below `9e99`. -/
theorem C68_mesh_none_partial (S : Sorter (Obj Ext M)) (m : Option M) (vertices : List (Vec Ext)) (V : List (Vec ℝ))
    (hV : List.Forall₂ Vec.Is vertices V) (faces : List (Int × Int × Int)) (UV : Option (List (Ext × Ext)))
    (o : Obj Ext M) (h : meshWithUV S m vertices faces UV = .ok o) (hlen : faces.length ≤ 7) (r : Ray Ext) (R : Ray ℝ)
    (hr : r.Is R) (hno : ∀ T > 0, ¬ OnMeshAcross V faces R.dir (R.at T)) :
    ∃ hit, o.intersect r = .ok (hit, r) ∧
      ((lit 0 <. hit.t) = false ∨ (hit.t <. (lit (9 * 10 ^ 99) : Ext)) = false) := by
  rw [meshWithUV] at h
  obtain ⟨vs, hvs, h⟩ := bind_eq_ok.1 h
  obtain ⟨tris, ht, h⟩ := bind_eq_ok.1 h
  have ht' := (mapM_spec _ _ _ ht).imp (fun f t h => triRef_spec _ f t h)
  have hpos : List.Forall₂ Vec.Is (vs.map Vertex.pos) V := by rw [mkVertices_pos _ _ _ hvs]; exact hV
  obtain ⟨n, fs, l, rfl, hn, hfs⟩ := meshObj_spec S m vs tris o h
  have big : Ext.Is (lit (9 * 10 ^ 99)) (9 * 10 ^ 99) := ⟨false, by rw [Ext.lit_ext]; push_cast; rfl⟩
  have z : (lit 0 : Ext).Is 0 := by simpa using Ext.Is.lit 0
  have hmiss : ((lit 0 : Ext) <. (HitRecord.miss : HitRecord Ext M).t) = false := by
    change ((lit 0 : Ext) <. lit 0) = false
    rw [z.lt z]; simp
  have key : ∀ x ∈ fs, x.intersect r = .ok (faceRecord r x, r) ∧
      ((lit 0 <. (faceRecord r x).t) = false ∨ ((faceRecord r x).t <. (lit (9 * 10 ^ 99) : Ext)) = false) := by
    intro x hx
    obtain ⟨f, hf, hof⟩ := forall₂_right hfs x hx
    obtain ⟨va, vb, vc, a, b, c, rfl, ia, ib, ic, ha, hb, hc⟩ := hof.real hpos
    refine ⟨rfl, ?_⟩
    by_cases htr : Transverse a b c R.dir
    · left
      rw [← Bool.not_eq_true]
      intro hp
      obtain ⟨T, -, h2, h3⟩ := face_hit_sound (M := M) ia ib ic hr htr hp
      exact hno T h2 ((onTrisAcross_iff ht' R.dir _).1 ⟨f, hf, a, b, c, ha, hb, hc, htr, h3⟩)
    · exact face_hit_parallel ia ib ic hr htr
  have e := tree_none sent_pos S fs (by rw [← hfs.length_eq, ← ht'.length_eq]; exact hlen) n l hn r
    (fun x => if ((faceRecord r x).t <. (lit (9 * 10 ^ 99) : Ext)) = true then faceRecord r x else HitRecord.miss) (by
      intro x hx
      refine ⟨_, (key x hx).1, ?_⟩
      dsimp only
      by_cases hc : ((faceRecord r x).t <. (lit (9 * 10 ^ 99) : Ext)) = true
      · rw [if_pos hc]; exact .inl rfl
      · rw [if_neg hc]; exact .inr ⟨hmiss, by simpa using hc⟩) (by
      intro x hx
      dsimp only
      rcases (key x hx).2 with h | h
      · split
        · exact h
        · exact hmiss
      · rw [if_neg (by rw [h]; simp)]
        exact hmiss)
  refine ⟨_, by rw [Obj.intersect, e]; rfl, ?_⟩
  split
  · exact .inl hmiss
  · right
    change ((lit (9 * 10 ^ 99) : Ext) <. lit (9 * 10 ^ 99)) = false
    rw [big.lt big]; simp

/-- The point lies on one of the loaded polygons: the triangle `a b c` or, for four corners, one of the halves `a b c`
and `c d a`. -/
def OnPolygons (V : List (Vec ℝ)) (polys : List (List Int)) (p : Vec ℝ) : Prop :=
  ∃ f ∈ polys, (∃ i j k a b c, f = [i, j, k] ∧ V[i.toNat]? = some a ∧ V[j.toNat]? = some b ∧ V[k.toNat]? = some c ∧
      InTriangle a b c p) ∨
    ∃ i j k l a b c d, f = [i, j, k, l] ∧ V[i.toNat]? = some a ∧ V[j.toNat]? = some b ∧ V[k.toNat]? = some c ∧
      V[l.toNat]? = some d ∧ (InTriangle a b c p ∨ InTriangle c d a p)

/-- No triangle of a polygon is degenerate or parallel to the direction. -/
def PolygonsTransverse (V : List (Vec ℝ)) (polys : List (List Int)) (d : Vec ℝ) : Prop :=
  ∀ f ∈ polys, (∀ i j k a b c, f = [i, j, k] → V[i.toNat]? = some a → V[j.toNat]? = some b →
      V[k.toNat]? = some c → Transverse a b c d) ∧
    ∀ i j k l a b c e, f = [i, j, k, l] → V[i.toNat]? = some a → V[j.toNat]? = some b → V[k.toNat]? = some c →
      V[l.toNat]? = some e → Transverse a b c d ∧ Transverse c e a d

/-- The point lies on one of the loaded polygons, not counting halves that have no area or are parallel to the
direction. -/
def OnPolygonsAcross (V : List (Vec ℝ)) (polys : List (List Int)) (d p : Vec ℝ) : Prop :=
  ∃ f ∈ polys, (∃ i j k a b c, f = [i, j, k] ∧ V[i.toNat]? = some a ∧ V[j.toNat]? = some b ∧ V[k.toNat]? = some c ∧
      Transverse a b c d ∧ InTriangle a b c p) ∨
    ∃ i j k l a b c e, f = [i, j, k, l] ∧ V[i.toNat]? = some a ∧ V[j.toNat]? = some b ∧ V[k.toNat]? = some c ∧
      V[l.toNat]? = some e ∧ (Transverse a b c d ∧ InTriangle a b c p ∨ Transverse c e a d ∧ InTriangle c e a p)

theorem OnPolygonsAcross.onPolygons {V : List (Vec ℝ)} {polys : List (List Int)} {d p : Vec ℝ}
    (h : OnPolygonsAcross V polys d p) : OnPolygons V polys p := by
  obtain ⟨f, hf, ⟨i, j, k, a, b, c, e, ha, hb, hc, -, hp⟩ | ⟨i, j, k, l, a, b, c, d', e, ha, hb, hc, hd, hp⟩⟩ := h
  · exact ⟨f, hf, .inl ⟨i, j, k, a, b, c, e, ha, hb, hc, hp⟩⟩
  · refine ⟨f, hf, .inr ⟨i, j, k, l, a, b, c, d', e, ha, hb, hc, hd, ?_⟩⟩
    rcases hp with hp | hp
    · exact .inl hp.2
    · exact .inr hp.2

/-- If no polygon is parallel to the direction then all are counted. -/
theorem onPolygonsAcross_eq {V : List (Vec ℝ)} {polys : List (List Int)} {d : Vec ℝ}
    (h : PolygonsTransverse V polys d) : OnPolygonsAcross V polys d = OnPolygons V polys := by
  funext p
  apply propext
  refine ⟨fun h => h.onPolygons, ?_⟩
  rintro ⟨f, hf, ⟨i, j, k, a, b, c, e, ha, hb, hc, hp⟩ | ⟨i, j, k, l, a, b, c, d', e, ha, hb, hc, hd, hp⟩⟩
  · exact ⟨f, hf, .inl ⟨i, j, k, a, b, c, e, ha, hb, hc, (h f hf).1 i j k a b c e ha hb hc, hp⟩⟩
  · refine ⟨f, hf, .inr ⟨i, j, k, l, a, b, c, d', e, ha, hb, hc, hd, ?_⟩⟩
    have := (h f hf).2 i j k l a b c d' e ha hb hc hd
    rcases hp with hp | hp
    · exact .inl ⟨this.1, hp⟩
    · exact .inr ⟨this.2, hp⟩

private theorem flatten_length {polys : List (List Int)} {f2 : List (List (Int × Int × Int))}
    (hs : List.Forall₂ (fun f ts => (∃ i j k, f = [i, j, k] ∧ ts = [(i, j, k)]) ∨
      ∃ i j k l, f = [i, j, k, l] ∧ ts = [(i, j, k), (k, l, i)]) polys f2) : polys.length ≤ f2.flatten.length := by
  induction hs with
  | nil => simp
  | cons h _ ih =>
    rw [List.flatten_cons, List.length_append, List.length_cons]
    rcases h with ⟨_, _, _, _, rfl⟩ | ⟨_, _, _, _, _, rfl⟩
    · simp only [List.length_cons, List.length_nil]; omega
    · simp only [List.length_cons, List.length_nil]; omega

private theorem polySplit_cases (f : List Int) (ts : List (Int × Int × Int)) (h : polySplit f = .ok ts) :
    (∃ i j k, f = [i, j, k] ∧ ts = [(i, j, k)]) ∨ ∃ i j k l, f = [i, j, k, l] ∧ ts = [(i, j, k), (k, l, i)] := by
  unfold polySplit at h
  split at h
  · cases h; exact .inl ⟨_, _, _, rfl, rfl⟩
  · cases h; exact .inr ⟨_, _, _, _, rfl, rfl⟩
  · cases h

private theorem plyObj_split (S : Sorter (Obj Ext M)) (m : Option M) (vertices : List (Vec Ext)) (V : List (Vec ℝ))
    (hV : List.Forall₂ Vec.Is vertices V) (polys : List (List Int))
    (o : Obj Ext M) (h : plyObj S m vertices polys = .ok o) : ∃ f2 : List (List (Int × Int × Int)),
      meshWithUV S m vertices f2.flatten none = .ok o ∧
      List.Forall₂ (fun f ts => (∃ i j k, f = [i, j, k] ∧ ts = [(i, j, k)]) ∨
        ∃ i j k l, f = [i, j, k, l] ∧ ts = [(i, j, k), (k, l, i)]) polys f2 ∧
      (∀ f ∈ f2.flatten, (∃ a, V[f.1.toNat]? = some a) ∧ (∃ a, V[f.2.1.toNat]? = some a) ∧
        ∃ a, V[f.2.2.toNat]? = some a) ∧
      ∀ Q : Vec ℝ → Vec ℝ → Vec ℝ → Prop,
        (∃ f ∈ f2.flatten, ∃ a b c, V[f.1.toNat]? = some a ∧ V[f.2.1.toNat]? = some b ∧ V[f.2.2.toNat]? = some c ∧
          Q a b c) ↔
        ∃ f ∈ polys, (∃ i j k a b c, f = [i, j, k] ∧ V[i.toNat]? = some a ∧ V[j.toNat]? = some b ∧
            V[k.toNat]? = some c ∧ Q a b c) ∨
          ∃ i j k l a b c d, f = [i, j, k, l] ∧ V[i.toNat]? = some a ∧ V[j.toNat]? = some b ∧ V[k.toNat]? = some c ∧
            V[l.toNat]? = some d ∧ (Q a b c ∨ Q c d a) := by
  rw [plyObj] at h
  obtain ⟨f2, hf2, h⟩ := bind_eq_ok.1 h
  have hs := (mapM_spec _ _ _ hf2).imp (fun f t h => polySplit_cases f t h)
  have hvalid : ∀ f ∈ f2.flatten, (∃ a, V[f.1.toNat]? = some a) ∧ (∃ a, V[f.2.1.toNat]? = some a) ∧
      ∃ a, V[f.2.2.toNat]? = some a := by
    rw [meshWithUV] at h
    obtain ⟨vs, hvs, h⟩ := bind_eq_ok.1 h
    obtain ⟨tris, ht, h⟩ := bind_eq_ok.1 h
    have hlen : vs.length = V.length := by
      rw [← hV.length_eq, ← mkVertices_pos _ _ _ hvs, List.length_map]
    intro f hf
    obtain ⟨t, -, e⟩ := forall₂_left (mapM_spec _ _ _ ht) f hf
    rw [triRef] at e
    obtain ⟨a, ha, e⟩ := bind_eq_ok.1 e
    obtain ⟨b, hb, e⟩ := bind_eq_ok.1 e
    obtain ⟨c, hc, e⟩ := bind_eq_ok.1 e
    have get : ∀ (i : Int) (k : Nat), vertexRef vs.length i = .ok k → ∃ a, V[i.toNat]? = some a := by
      intro i k hk
      unfold vertexRef at hk
      split_ifs at hk with hi
      exact ⟨V[i.toNat]'(by omega), List.getElem?_eq_getElem _⟩
    exact ⟨get _ _ ha, get _ _ hb, get _ _ hc⟩
  refine ⟨f2, h, hs, hvalid, ?_⟩
  · intro Q
    constructor
    · rintro ⟨t, ht, a, b, c, ha, hb, hc, hp⟩
      obtain ⟨ts, hts, ht⟩ := List.mem_flatten.1 ht
      obtain ⟨f, hf, h | h⟩ := forall₂_right hs ts hts
      · obtain ⟨i, j, k, rfl, rfl⟩ := h
        rw [List.mem_singleton] at ht
        subst ht
        exact ⟨_, hf, .inl ⟨i, j, k, a, b, c, rfl, ha, hb, hc, hp⟩⟩
      · obtain ⟨i, j, k, l, rfl, rfl⟩ := h
        have h1 := hvalid (i, j, k) (List.mem_flatten.2 ⟨_, hts, by simp⟩)
        have h2 := hvalid (k, l, i) (List.mem_flatten.2 ⟨_, hts, by simp⟩)
        obtain ⟨⟨ci, hi⟩, ⟨cj, hj⟩, ⟨ck, hk⟩⟩ := h1
        obtain ⟨-, ⟨cl, hl⟩, -⟩ := h2
        refine ⟨_, hf, .inr ⟨i, j, k, l, ci, cj, ck, cl, rfl, hi, hj, hk, hl, ?_⟩⟩
        simp only [List.mem_cons, List.not_mem_nil, or_false] at ht
        rcases ht with rfl | rfl
        · simp only [hi, hj, hk, Option.some.injEq] at ha hb hc
          subst ha hb hc; exact .inl hp
        · simp only [hi, hl, hk, Option.some.injEq] at ha hb hc
          subst ha hb hc; exact .inr hp
    · rintro ⟨f, hf, ⟨i, j, k, a, b, c, rfl, ha, hb, hc, hp⟩ | ⟨i, j, k, l, a, b, c, d, rfl, ha, hb, hc, hd, hp⟩⟩
      · obtain ⟨ts, hts, ⟨i', j', k', e, rfl⟩ | ⟨i', j', k', l', e, rfl⟩⟩ := forall₂_left hs _ hf
        · cases e
          exact ⟨(i, j, k), List.mem_flatten.2 ⟨_, hts, by simp⟩, a, b, c, ha, hb, hc, hp⟩
        · cases e
      · obtain ⟨ts, hts, ⟨i', j', k', e, rfl⟩ | ⟨i', j', k', l', e, rfl⟩⟩ := forall₂_left hs _ hf
        · cases e
        · cases e
          rcases hp with hp | hp
          · exact ⟨(i, j, k), List.mem_flatten.2 ⟨_, hts, by simp⟩, a, b, c, ha, hb, hc, hp⟩
          · exact ⟨(k, l, i), List.mem_flatten.2 ⟨_, hts, by simp⟩, c, d, a, hc, hd, ha, hp⟩

/-- The box of a mesh holds its triangles, and is the smallest box around some of the vertices. -/
theorem mesh_box (S : Sorter (Obj Ext M)) (m : Option M) (vertices : List (Vec Ext)) (V : List (Vec ℝ))
    (hV : List.Forall₂ Vec.Is vertices V) (faces : List (Int × Int × Int)) (UV : Option (List (Ext × Ext)))
    (o : Obj Ext M) (h : meshWithUV S m vertices faces UV = .ok o) :
    ∃ b B, o.bounds = .ok b ∧ b.Is B ∧ B.Proper ∧ (∀ p, OnMesh V faces p → B.Mem p) ∧
      ∃ l, (∀ q ∈ l, q ∈ V) ∧ B.Spans l := by
  rw [meshWithUV] at h
  obtain ⟨vs, hvs, h⟩ := bind_eq_ok.1 h
  obtain ⟨tris, ht, h⟩ := bind_eq_ok.1 h
  have ht' := (mapM_spec _ _ _ ht).imp (fun f t h => triRef_spec _ f t h)
  obtain ⟨n, fs, l, rfl, hn, hfs⟩ := meshObj_spec S m vs tris o h
  rw [mkVertices_pos _ _ _ hvs] at hfs
  obtain ⟨B, h1, h2, h3, h4⟩ := tris_box S _ V hV tris fs hfs n l hn
  exact ⟨_, B, rfl, h1, h2, fun p hp => h3 p ((onTris_iff ht' p).2 hp), h4⟩

/-- The same for loaded polygons. -/
theorem loaded_box (S : Sorter (Obj Ext M)) (m : Option M) (vertices : List (Vec Ext)) (V : List (Vec ℝ))
    (hV : List.Forall₂ Vec.Is vertices V) (polys : List (List Int))
    (o : Obj Ext M) (h : plyObj S m vertices polys = .ok o) :
    ∃ b B, o.bounds = .ok b ∧ b.Is B ∧ B.Proper ∧ (∀ p, OnPolygons V polys p → B.Mem p) ∧
      ∃ l, (∀ q ∈ l, q ∈ V) ∧ B.Spans l := by
  obtain ⟨f2, h, -, -, hon⟩ := plyObj_split S m vertices V hV polys o h
  obtain ⟨b, B, h1, h2, h3, h4, h5⟩ := mesh_box S m vertices V hV _ _ o h
  exact ⟨b, B, h1, h2, h3, fun p hp => h4 p ((hon fun a b c => InTriangle a b c p).2 hp), h5⟩

/-- Loaded polygons (OBJ files): the mesh shows the polygons that were loaded. Corners exist because building
succeeded. -/
theorem C68_loaded_partial (S : Sorter (Obj Ext M)) (m : Option M) (vertices : List (Vec Ext)) (V : List (Vec ℝ))
    (hV : List.Forall₂ Vec.Is vertices V) (polys : List (List Int))
    (o : Obj Ext M) (h : plyObj S m vertices polys = .ok o) (r : Ray Ext) (R : Ray ℝ) (hr : r.Is R)
    (hd : R.dir ≠ ⟨0, 0, 0⟩)
    (hgen : StartsClear V R) (hfar : ∀ T, OnPolygonsAcross V polys R.dir (R.at T) → T < 9 * 10 ^ 99) :
    ∃ hit, o.intersect r = .ok (hit, r) ∧ hit.mat = m ∧
      ReportsFirst (OnPolygonsAcross V polys R.dir) R (polys.length ≤ 7) hit := by
  obtain ⟨f2, h, hs, hvalid, hon⟩ := plyObj_split S m vertices V hV polys o h
  have hon' : OnMeshAcross V f2.flatten R.dir = OnPolygonsAcross V polys R.dir := funext fun p => propext
    (hon fun a b c => Transverse a b c R.dir ∧ InTriangle a b c p)
  obtain ⟨hit, e, hm, hh⟩ := C68_mesh_partial S m vertices V hV f2.flatten none o h r R hr hd hgen
    (by rw [hon']; exact hfar)
  refine ⟨hit, e, hm, ?_⟩
  rw [hon'] at hh
  rcases hh with h | ⟨h1, h | ⟨h2, h3⟩⟩
  · exact .inl h
  · exact .inr ⟨h1, .inl h⟩
  · refine .inr ⟨h1, .inr ⟨?_, h3⟩⟩
    have := flatten_length hs
    omega

/-- The point lies on one of the triangles of the grid through `G(i/(numU-1), j/(numV-1))`. -/
def OnGrid (numU numV : Nat) (G : ℝ → ℝ → Vec ℝ) (p : Vec ℝ) : Prop :=
  ∃ i j : Nat, i + 1 < numU ∧ j + 1 < numV ∧
    let at' := fun (i j : Nat) => G (i / ((numU : ℝ) - 1)) (j / ((numV : ℝ) - 1))
    InTriangle (at' i j) (at' (i + 1) j) (at' (i + 1) (j + 1)) p ∨
    InTriangle (at' i j) (at' (i + 1) (j + 1)) (at' i (j + 1)) p

/-- No triangle of the grid is degenerate or parallel to the direction. -/
def GridTransverse (numU numV : Nat) (G : ℝ → ℝ → Vec ℝ) (d : Vec ℝ) : Prop :=
  ∀ i j : Nat, i + 1 < numU → j + 1 < numV →
    let at' := fun (i j : Nat) => G (i / ((numU : ℝ) - 1)) (j / ((numV : ℝ) - 1))
    Transverse (at' i j) (at' (i + 1) j) (at' (i + 1) (j + 1)) d ∧
    Transverse (at' i j) (at' (i + 1) (j + 1)) (at' i (j + 1)) d

/-- The point lies on one of the triangles of the grid, not counting triangles that have no area or are parallel to the
direction. -/
def OnGridAcross (numU numV : Nat) (G : ℝ → ℝ → Vec ℝ) (d p : Vec ℝ) : Prop :=
  ∃ i j : Nat, i + 1 < numU ∧ j + 1 < numV ∧
    let at' := fun (i j : Nat) => G (i / ((numU : ℝ) - 1)) (j / ((numV : ℝ) - 1))
    (Transverse (at' i j) (at' (i + 1) j) (at' (i + 1) (j + 1)) d ∧
      InTriangle (at' i j) (at' (i + 1) j) (at' (i + 1) (j + 1)) p) ∨
    (Transverse (at' i j) (at' (i + 1) (j + 1)) (at' i (j + 1)) d ∧
      InTriangle (at' i j) (at' (i + 1) (j + 1)) (at' i (j + 1)) p)

/-- If no triangle of the grid is parallel to the direction then all are counted. -/
theorem onGridAcross_eq {numU numV : Nat} {G : ℝ → ℝ → Vec ℝ} {d : Vec ℝ} (h : GridTransverse numU numV G d) :
    OnGridAcross numU numV G d = OnGrid numU numV G := by
  funext p
  apply propext
  constructor
  · rintro ⟨i, j, hi, hj, ⟨-, h⟩ | ⟨-, h⟩⟩
    · exact ⟨i, j, hi, hj, .inl h⟩
    · exact ⟨i, j, hi, hj, .inr h⟩
  · rintro ⟨i, j, hi, hj, hp | hp⟩
    · exact ⟨i, j, hi, hj, .inl ⟨(h i j hi hj).1, hp⟩⟩
    · exact ⟨i, j, hi, hj, .inr ⟨(h i j hi hj).2, hp⟩⟩

/-- The points of the grid. -/
noncomputable def gridPoints (numU numV : Nat) (G : ℝ → ℝ → Vec ℝ) : List (Vec ℝ) :=
  (List.range numU).flatMap fun i : ℕ => (List.range numV).map fun j : ℕ =>
    G (i / ((numU : ℝ) - 1)) (j / ((numV : ℝ) - 1))

/-- Parametric surfaces: the object shows the triangles of the grid. `f` computes the surface `G`. -/
theorem C68_parametric_partial (S : Sorter (Obj Ext M)) (m : Option M) (numU numV : Nat) (hU : 2 ≤ numU)
    (hV : 2 ≤ numV) (f : Ext → Ext → Vec Ext) (G : ℝ → ℝ → Vec ℝ)
    (hf : ∀ u v x y, u.Is x → v.Is y → (f u v).Is (G x y)) (o : Obj Ext M)
    (h : parametric S m numU numV f = .ok o) (r : Ray Ext) (R : Ray ℝ) (hr : r.Is R) (hd : R.dir ≠ ⟨0, 0, 0⟩)
    (hgen : StartsClear (gridPoints numU numV G) R)
    (hfar : ∀ T, OnGridAcross numU numV G R.dir (R.at T) → T < 9 * 10 ^ 99) :
    ∃ hit, o.intersect r = .ok (hit, r) ∧ hit.mat = m ∧
      ReportsFirst (OnGridAcross numU numV G R.dir) R (2 * (numU - 1) * (numV - 1) ≤ 7) hit := by
  obtain ⟨vs', fs', ev', ef', ep⟩ := C32_parametric S m numU numV hU hV f
  obtain ⟨vs, ev, hvl, hvs⟩ := C32_vertices numU numV f
  obtain ⟨fs, ef, hfl, hfs, -⟩ := C32_faces numU numV
  rw [ev] at ev'
  rw [ef] at ef'
  obtain rfl : vs = vs' := by simpa using ev'
  obtain rfl : fs = fs' := by simpa using ef'
  rw [ep] at h
  let at' := fun (i j : Nat) => G (i / ((numU : ℝ) - 1)) (j / ((numV : ℝ) - 1))
  let V : List (Vec ℝ) := (List.range (numU * numV)).map fun k => at' (k / numV) (k % numV)
  have hVpos : 0 < numV := by omega
  have hVget : ∀ i j, i < numU → j < numV → V[i * numV + j]? = some (at' i j) := by
    intro i j hi hj
    have hlt : i * numV + j < numU * numV := by
      calc i * numV + j < i * numV + numV := by omega
        _ = (i + 1) * numV := by ring
        _ ≤ numU * numV := Nat.mul_le_mul_right _ hi
    simp only [V, List.getElem?_map, List.getElem?_range hlt, Option.map_some]
    rw [Nat.mul_comm i, Nat.mul_add_div hVpos, Nat.div_eq_of_lt hj, Nat.mul_add_mod, Nat.mod_eq_of_lt hj, Nat.add_zero]
  have hIs : List.Forall₂ Vec.Is (vs.map Vertex.pos) V := by
    rw [List.forall₂_iff_get]
    refine ⟨by simp [V, hvl], ?_⟩
    intro k h1 h2
    have hk : k < numU * numV := by simpa [hvl] using h1
    have hi : k / numV < numU := by rw [Nat.div_lt_iff_lt_mul hVpos]; exact hk
    have hj : k % numV < numV := Nat.mod_lt _ hVpos
    have e := hvs _ _ hi hj
    have ek : k / numV * numV + k % numV = k := by rw [Nat.mul_comm]; exact Nat.div_add_mod k numV
    rw [ek, List.getElem?_eq_getElem (by omega), Option.some.injEq] at e
    simp only [List.get_eq_getElem, List.getElem_map, e, V, List.getElem_range]
    have dU : ((numU : ℝ) - 1) ≠ 0 := by
      have : (2 : ℝ) ≤ numU := by exact_mod_cast hU
      linarith
    have dV : ((numV : ℝ) - 1) ≠ 0 := by
      have : (2 : ℝ) ≤ numV := by exact_mod_cast hV
      linarith
    have is : ∀ n : Int, (ofInt n : Ext).Is (n : ℝ) := fun n => ⟨_, rfl⟩
    have i1 := (is ((k / numV : Nat) : Int)).div (is ((numU : Int) - 1)) (by push_cast; exact dU)
    have i2 := (is ((k % numV : Nat) : Int)).div (is ((numV : Int) - 1)) (by push_cast; exact dV)
    have := hf _ _ _ _ i1 i2
    push_cast at this
    exact this
  -- the faces are the triangles of the cells
  have hmem : ∀ t : Tri, t ∈ fs ↔ ∃ i j, i + 1 < numU ∧ j + 1 < numV ∧
      (t = (i * numV + j, (i + 1) * numV + j, (i + 1) * numV + (j + 1)) ∨
       t = (i * numV + j, (i + 1) * numV + (j + 1), i * numV + (j + 1))) := by
    intro t
    constructor
    · intro ht
      obtain ⟨k, hk, rfl⟩ := List.getElem_of_mem ht
      have hV1 : 0 < numV - 1 := by omega
      have hk' : k / 2 < (numU - 1) * (numV - 1) := by
        rw [hfl, Nat.mul_assoc] at hk; omega
      have hi : k / 2 / (numV - 1) < numU - 1 := by rw [Nat.div_lt_iff_lt_mul hV1]; exact hk'
      have hj : k / 2 % (numV - 1) < numV - 1 := Nat.mod_lt _ hV1
      obtain ⟨c0, c1⟩ := hfs _ _ hi hj
      have hdm := Nat.div_add_mod (k / 2) (numV - 1)
      rw [Nat.mul_comm] at hdm
      rw [hdm] at c0 c1
      refine ⟨_, _, Nat.add_lt_of_lt_sub hi, Nat.add_lt_of_lt_sub hj, ?_⟩
      rcases Nat.mod_two_eq_zero_or_one k with hm | hm
      · have : 2 * (k / 2) = k := by omega
        rw [this, List.getElem?_eq_getElem hk, Option.some.injEq] at c0
        exact .inl c0
      · have : 2 * (k / 2) + 1 = k := by omega
        rw [this, List.getElem?_eq_getElem hk, Option.some.injEq] at c1
        exact .inr c1
    · rintro ⟨i, j, hi, hj, rfl | rfl⟩
      · exact List.mem_of_getElem? (hfs i j (by omega) (by omega)).1
      · exact List.mem_of_getElem? (hfs i j (by omega) (by omega)).2
  have hon : ∀ p, OnTrisAcross V fs R.dir p ↔ OnGridAcross numU numV G R.dir p := by
    intro p
    constructor
    · rintro ⟨t, ht, a, b, c, ha, hb, hc, hp⟩
      obtain ⟨i, j, hi, hj, rfl | rfl⟩ := (hmem t).1 ht
      · rw [hVget _ _ (by omega) (by omega)] at ha hb hc
        cases ha; cases hb; cases hc
        exact ⟨i, j, hi, hj, .inl hp⟩
      · rw [hVget _ _ (by omega) (by omega)] at ha hb hc
        cases ha; cases hb; cases hc
        exact ⟨i, j, hi, hj, .inr hp⟩
    · rintro ⟨i, j, hi, hj, hp | hp⟩
      · exact ⟨_, (hmem _).2 ⟨i, j, hi, hj, .inl rfl⟩, _, _, _, hVget _ _ (by omega) (by omega),
          hVget _ _ (by omega) (by omega), hVget _ _ (by omega) (by omega), hp⟩
      · exact ⟨_, (hmem _).2 ⟨i, j, hi, hj, .inr rfl⟩, _, _, _, hVget _ _ (by omega) (by omega),
          hVget _ _ (by omega) (by omega), hVget _ _ (by omega) (by omega), hp⟩
  have hon' : OnTrisAcross V fs R.dir = OnGridAcross numU numV G R.dir := funext fun p => propext (hon p)
  have := meshObj_nearest S m vs V hIs fs o h r R hr hd (by
      refine hgen.mono ?_
      intro q hq
      obtain ⟨k, hk, rfl⟩ := List.mem_map.1 hq
      have h1 : k / numV < numU := by rw [Nat.div_lt_iff_lt_mul hVpos]; exact List.mem_range.1 hk
      have h2 : k % numV < numV := Nat.mod_lt _ hVpos
      exact List.mem_flatMap.2 ⟨_, List.mem_range.2 h1, List.mem_map.2 ⟨_, List.mem_range.2 h2, rfl⟩⟩) (by
      intro T hT
      rw [hon'] at hT
      exact hfar T hT)
  rw [hon', hfl] at this
  exact this

/-! ## A case that meets the hypotheses -/

open Ext

/-- A roof of two triangles. -/
def roofR : List (Vec ℝ) := [⟨0, 0, 0⟩, ⟨2, 0, 0⟩, ⟨0, 2, 2⟩, ⟨2, 2, 2⟩]

/-- A ray that starts in the plane of a side of the bounding box of the roof and leads away from it meets no triangle: the
hypotheses of `C68_mesh_none_partial` are met, though the ray is not clear of the vertices. -/
example : (¬ StartsClear roofR ⟨⟨1, 2, 2⟩, ⟨0, 0, 1⟩⟩) ∧
    ∀ T > 0, ¬ OnMeshAcross roofR [(0, 1, 2), (1, 3, 2)] ⟨0, 0, 1⟩ ((⟨⟨1, 2, 2⟩, ⟨0, 0, 1⟩⟩ : Ray ℝ).at T) := by
  constructor
  · rintro (h | ⟨-, h⟩)
    · exact h ⟨⟨2, 2, 2⟩, by simp [roofR], .inr (.inl rfl)⟩
    · exact (h ⟨2, 2, 2⟩ (by simp [roofR])).2.1 rfl rfl
  · rintro T hT ⟨f, hf, a, b, c, ha, hb, hc, -, l0, l1, l2, ⟨h0, h1, h2, hs⟩, hp⟩
    simp only [List.mem_cons, List.not_mem_nil, or_false] at hf
    rcases hf with rfl | rfl <;>
    · simp [roofR] at ha hb hc
      subst ha hb hc
      simp only [combine, geo] at hp
      have := hp.2.2
      norm_num at this
      linarith

/-- A ray from above that starts level with none of the vertices but at the same `z` as two of them, and moves along `z`
too: it meets the first triangle. -/
example : StartsClear roofR ⟨⟨1 / 2, 5, 0⟩, ⟨0, -19, 1⟩⟩ ∧
    OnMeshAcross roofR [(0, 1, 2), (1, 3, 2)] ⟨0, -19, 1⟩ ((⟨⟨1 / 2, 5, 0⟩, ⟨0, -19, 1⟩⟩ : Ray ℝ).at (1 / 4)) ∧
    ∀ T, OnMeshAcross roofR [(0, 1, 2), (1, 3, 2)] ⟨0, -19, 1⟩ ((⟨⟨1 / 2, 5, 0⟩, ⟨0, -19, 1⟩⟩ : Ray ℝ).at T) →
      T < 9 * 10 ^ 99 := by
  refine ⟨.inr ⟨?_, ?_⟩, ?_, ?_⟩
  · refine .inr (.inr (.inr (.inl ?_)))
    intro q hq
    simp only [roofR, List.mem_cons, List.not_mem_nil, or_false] at hq
    rcases hq with rfl | rfl | rfl | rfl <;> norm_num
  · intro q hq
    simp only [roofR, List.mem_cons, List.not_mem_nil, or_false] at hq
    rcases hq with rfl | rfl | rfl | rfl <;> norm_num
  · refine ⟨(0, 1, 2), by simp, ⟨0, 0, 0⟩, ⟨2, 0, 0⟩, ⟨0, 2, 2⟩, rfl, rfl, rfl, ?_, 5 / 8, 1 / 4, 1 / 8, ?_, ?_⟩
    · simp only [Transverse, triNormal, geo]; norm_num
    · norm_num [IsWeights]
    · simp only [combine, geo]; norm_num
  · rintro T ⟨f, hf, a, b, c, ha, hb, hc, -, l0, l1, l2, ⟨h0, h1, h2, hs⟩, hp⟩
    simp only [List.mem_cons, List.not_mem_nil, or_false] at hf
    rcases hf with rfl | rfl <;>
    · simp [roofR] at ha hb hc
      subst ha hb hc
      simp only [combine, geo] at hp
      have := hp.2.1
      norm_num
      linarith

end BR
