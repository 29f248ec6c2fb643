import Verif.Lemmas.MeshFile
import Verif.Props.C85_Violated

/-!
C93: objects made from OBJ and PLY files. The file is shown as it is written, after the transforms, whatever the order in
which the program visits the materials of an OBJ file.

Numbers are extended numbers with exact finite arithmetic; the value of a decimal numeral is a parameter. Missing from
the full property, as for C68: triangles that a ray meets edge-on, and rays that do not start clear of the vertices. Violated by
OBJ files with at most seven materials: rays that pass the polygons but meet their box crash the program.
-/

namespace BR

open Text Wavefront

variable {M : Type}

/-- The objects of the materials of an OBJ file. -/
private theorem objFile_parts (S : Sorter (Obj Ext M)) (rd : Reader Ext) (mats : List Char → Option (Option M))
    (text : List Char) (items : List (Item Ext)) (hs : ObjSays rd text items) (ts : List (Affine Ext))
    (order : List (List Char)) (o : Obj Ext M) (h : objFile S rd mats (some text) ts order = .ok o) :
    ∃ objects n l, o = .tree n ∧ buildTree S objects = .ok (n, l) ∧
      List.Forall₂ (fun name o => ∃ m, mats name = some m ∧
        plyObj S m (transformVertices ts (verticesOf items)) (facesOf name [] items) = .ok o) order objects := by
  rw [objFile, Option.bind_some, objSays_parse hs] at h
  dsimp only at h
  obtain ⟨objects, ho, h⟩ := bind_eq_ok.1 h
  obtain ⟨⟨t, l⟩, ht, h⟩ := bind_eq_ok.1 h
  obtain ⟨⟨n, l'⟩, hn, ht⟩ := bind_eq_ok.1 ht
  cases ht
  cases h
  refine ⟨objects, n, l, rfl, hn, (mapM_spec _ _ _ ho).imp ?_⟩
  intro name o h
  rw [objPart] at h
  split at h
  · cases h
  · next m hm => exact ⟨m, hm, h⟩

private theorem objFile_hit (S : Sorter (Obj Ext M)) (rd : Reader Ext) (mats : List Char → Option (Option M))
    (text : List Char) (items : List (Item Ext)) (hs : ObjSays rd text items) (V : List (Vec ℝ))
    (hV : List.Forall₂ Vec.Is (verticesOf items) V) (ts : List (Affine Ext)) (Ts : List (Affine ℝ))
    (hts : List.Forall₂ Affine.Is ts Ts) (order : List (List Char))
    (hord : VisitsAll (fun name => facesOf name [] items) order) (o : Obj Ext M)
    (h : objFile S rd mats (some text) ts order = .ok o) (r : Ray Ext) (R : Ray ℝ) (hr : r.Is R)
    (hd : R.dir ≠ ⟨0, 0, 0⟩)
    (hgen : StartsClear (V.map (pointAfter Ts)) R)
    (hfar : ∀ name T, OnPolygonsAcross (V.map (pointAfter Ts)) (facesOf name [] items) R.dir (R.at T) → T < 9 * 10 ^ 99) :
    ∃ hit n, o = .tree n ∧ o.intersect r = .ok (hit, r) ∧
      ((∃ T name m, hit.t.Is T ∧ 0 < T ∧ OnPolygonsAcross (V.map (pointAfter Ts)) (facesOf name [] items) R.dir (R.at T) ∧
          mats name = some m ∧ hit.mat = m ∧
          ∀ name' T', 0 < T' → OnPolygonsAcross (V.map (pointAfter Ts)) (facesOf name' [] items) R.dir (R.at T') → T ≤ T') ∨
        ((∀ name T, 0 < T → ¬ OnPolygonsAcross (V.map (pointAfter Ts)) (facesOf name [] items) R.dir (R.at T)) ∧
          ((lit 0 <. hit.t) = false ∨ order.length ≤ 7 ∧ (n.bb.intersect r <=. lit 0) = false ∧ hit = noHit) ∧
          (order.length ≤ 7 → (n.bb.intersect r <=. lit 0) = false → hit = noHit))) := by
  obtain ⟨objects, n, l, rfl, hn, hparts⟩ := objFile_parts S rd mats text items hs ts order o h
  have hW := transformVertices_is hts hV
  set W := V.map (pointAfter Ts)
  set Part : Obj Ext M → (Vec ℝ → Prop) → Prop := fun o s => ∃ name m, mats name = some m ∧
    plyObj S m (transformVertices ts (verticesOf items)) (facesOf name [] items) = .ok o ∧
    s = OnPolygonsAcross W (facesOf name [] items) R.dir with hPart
  have hnone : ∀ name, name ∉ order → ∀ p, ¬ OnPolygonsAcross W (facesOf name [] items) R.dir p := by
    intro name hname p hp
    have : facesOf name [] items = [] := by
      by_contra hc
      exact hname ((hord.2 name).2 hc)
    rw [this] at hp
    obtain ⟨f, hf, -⟩ := hp
    cases hf
  have hof : ∀ name, (∃ p, OnPolygonsAcross W (facesOf name [] items) R.dir p) →
      ∃ o ∈ objects, Part o (OnPolygonsAcross W (facesOf name [] items) R.dir) := by
    rintro name ⟨p, hp⟩
    have hname : name ∈ order := by
      by_contra hc
      exact hnone name hc p hp
    obtain ⟨o, ho, m, hm, e⟩ := forall₂_left hparts name hname
    exact ⟨o, ho, name, m, hm, e, rfl⟩
  obtain ⟨hit, e, hh⟩ := tree_of_surfaces S objects n l hn r R hr hd Part (by
      intro o ho
      obtain ⟨name, -, m, hm, e⟩ := forall₂_right hparts o ho
      exact ⟨_, name, m, hm, e, rfl⟩) (by
      rintro o ho s ⟨name, m, hm, e, rfl⟩
      obtain ⟨hit, e', -, hh⟩ := C68_loaded_partial S m _ W hW _ o e r R hr hd hgen (hfar name)
      refine ⟨hit, e', ?_⟩
      rcases hh with h | ⟨h1, h | ⟨-, h⟩⟩
      · exact .inl h
      · exact .inr ⟨h1, .inl h⟩
      · refine .inr ⟨h1, .inr ?_⟩
        have big : Ext.Is (lit (9 * 10 ^ 99)) (9 * 10 ^ 99) := ⟨false, by rw [Ext.lit_ext]; push_cast; rfl⟩
        rw [h, big.lt big]; simp) (by
      rintro o ho s ⟨name, m, hm, e, rfl⟩
      obtain ⟨b, B, h1, h2, h3, h4, h5⟩ := loaded_box S m _ W hW _ o e
      exact ⟨b, B, h1, h2, h3, fun p hp => h4 p hp.onPolygons⟩) (by
      refine hgen.clearOf ?_
      rintro B ⟨o, ho, b, hb, hB⟩
      obtain ⟨name, -, m, hm, e⟩ := forall₂_right hparts o ho
      obtain ⟨b', B', h1, h2, -, -, h5⟩ := loaded_box S m _ W hW _ o e
      rw [hb] at h1
      cases h1
      rw [hB.unique h2]
      exact h5) (by
      rintro o ho s ⟨name, m, hm, e, rfl⟩
      exact hfar name)
  refine ⟨hit, n, rfl, e, ?_⟩
  rcases hh with ⟨T, o, ho, s, ⟨name, m, hm, eo, rfl⟩, h1, h2, h3, h4, h5⟩ | ⟨h1, h2⟩
  · left
    obtain ⟨hit', e', hmat, -⟩ := C68_loaded_partial S m _ W hW _ o eo r R hr hd hgen (hfar name)
    rw [h4] at e'
    cases e'
    refine ⟨T, name, m, h1, h2, h3, hm, hmat, ?_⟩
    intro name' T' hT' hp
    obtain ⟨o', ho', hp'⟩ := hof name' ⟨_, hp⟩
    exact h5 o' ho' _ hp' T' hT' hp
  · right
    refine ⟨?_, ?_⟩
    · intro name T hT hp
      obtain ⟨o', ho', hp'⟩ := hof name ⟨_, hp⟩
      exact h1 o' ho' _ hp' T hT hp
    · rw [hparts.length_eq]
      exact h2

/-- **C93, OBJ files.** The object is hit where the forward ray first meets a polygon of the file, with the vertices
moved by the transforms from left to right, and has the material given for the name in the last `usemtl` line before
that polygon. (Halves of polygons that the ray meets edge-on, or that have no area, do not count.) Where no polygon is met nothing is hit, except (files with at most seven materials) at distance
`9e99`. -/
theorem C93_obj_partial (S : Sorter (Obj Ext M)) (rd : Reader Ext) (mats : List Char → Option (Option M))
    (text : List Char) (items : List (Item Ext)) (hs : ObjSays rd text items) (V : List (Vec ℝ))
    (hV : List.Forall₂ Vec.Is (verticesOf items) V) (ts : List (Affine Ext)) (Ts : List (Affine ℝ))
    (hts : List.Forall₂ Affine.Is ts Ts) (order : List (List Char))
    (hord : VisitsAll (fun name => facesOf name [] items) order) (o : Obj Ext M)
    (h : objFile S rd mats (some text) ts order = .ok o) (r : Ray Ext) (R : Ray ℝ) (hr : r.Is R)
    (hd : R.dir ≠ ⟨0, 0, 0⟩)
    (hgen : StartsClear (V.map (pointAfter Ts)) R)
    (hfar : ∀ name T, OnPolygonsAcross (V.map (pointAfter Ts)) (facesOf name [] items) R.dir (R.at T) → T < 9 * 10 ^ 99) :
    ∃ hit, o.intersect r = .ok (hit, r) ∧
      ((∃ T name m, hit.t.Is T ∧ 0 < T ∧ OnPolygonsAcross (V.map (pointAfter Ts)) (facesOf name [] items) R.dir (R.at T) ∧
          mats name = some m ∧ hit.mat = m ∧
          ∀ name' T', 0 < T' → OnPolygonsAcross (V.map (pointAfter Ts)) (facesOf name' [] items) R.dir (R.at T') → T ≤ T') ∨
        ((∀ name T, 0 < T → ¬ OnPolygonsAcross (V.map (pointAfter Ts)) (facesOf name [] items) R.dir (R.at T)) ∧
          ((lit 0 <. hit.t) = false ∨ order.length ≤ 7 ∧ hit.t = lit (9 * 10 ^ 99)))) := by
  obtain ⟨hit, n, -, e, hh⟩ := objFile_hit S rd mats text items hs V hV ts Ts hts order hord o h r R hr hd hgen hfar
  refine ⟨hit, e, ?_⟩
  rcases hh with hh | ⟨h1, h2 | ⟨h2, -, rfl⟩, -⟩
  · exact .inl hh
  · exact .inr ⟨h1, .inl h2⟩
  · exact .inr ⟨h1, .inr ⟨h2, rfl⟩⟩

/-- **C93, PLY files.** The same with one material. -/
theorem C93_ply_partial (S : Sorter (Obj Ext M)) (rd : Reader Ext) (m : Option M) (text : List Char)
    (vs : List (Vec Ext)) (fs : List (Int × Int × Int)) (hs : PlySays rd text vs fs) (V : List (Vec ℝ))
    (hV : List.Forall₂ Vec.Is vs V) (ts : List (Affine Ext)) (Ts : List (Affine ℝ))
    (hts : List.Forall₂ Affine.Is ts Ts) (o : Obj Ext M) (h : plyFile S rd m (some text) ts = .ok o)
    (r : Ray Ext) (R : Ray ℝ) (hr : r.Is R) (hd : R.dir ≠ ⟨0, 0, 0⟩)
    (hgen : StartsClear (V.map (pointAfter Ts)) R)
    (hfar : ∀ T, OnMeshAcross (V.map (pointAfter Ts)) fs R.dir (R.at T) → T < 9 * 10 ^ 99) :
    ∃ hit, o.intersect r = .ok (hit, r) ∧ hit.mat = m ∧
      ReportsFirst (OnMeshAcross (V.map (pointAfter Ts)) fs R.dir) R (fs.length ≤ 7) hit := by
  rw [plyFile, Option.bind_some, plySays_iff.2 hs] at h
  exact C68_mesh_partial S m _ _ (transformVertices_is hts hV) fs none o h r R hr hd hgen hfar

/-- **C93, what can be loaded.** An OBJ file with finite coordinates can be loaded if and only if each line means
something, every material with faces is defined, there is at least one face, and every vertex of a face exists. If not,
the program ends. -/
theorem C93_obj_loads (S : Sorter (Obj Ext M)) (rd : Reader Ext) (mats : List Char → Option (Option M))
    (text : List Char) (ts : List (Affine Ext)) (Ts : List (Affine ℝ)) (hts : List.Forall₂ Affine.Is ts Ts)
    (hfin : ∀ items, ObjSays rd text items → ∃ V : List (Vec ℝ), List.Forall₂ Vec.Is (verticesOf items) V)
    (order : List (List Char))
    (hord : ∀ items, ObjSays rd text items → VisitsAll (fun name => facesOf name [] items) order) :
    (∃ o, objFile S rd mats (some text) ts order = .ok o) ↔
      ∃ items, ObjSays rd text items ∧ (∀ name, facesOf name [] items ≠ [] → mats name ≠ none) ∧
        (∃ name, facesOf name [] items ≠ []) ∧
        ∀ name, ∀ f ∈ facesOf name [] items, ∀ i ∈ f, i < (verticesOf items).length := by
  have hlen : ∀ vs : List (Vec Ext), (transformVertices ts vs).length = vs.length := by
    intro vs
    unfold transformVertices applyTransform
    split <;> simp
  constructor
  · rintro ⟨o, h⟩
    have hp : ∃ x, Wavefront.parse rd text = some x := by
      rw [objFile, Option.bind_some] at h
      split at h
      · cases h
      · next x _ e => exact ⟨_, e⟩
    obtain ⟨x, hx⟩ := hp
    obtain ⟨items, hs⟩ := parse_objSays hx
    obtain ⟨objects, n, l, rfl, hn, hparts⟩ := objFile_parts S rd mats text items hs ts order o h
    have hv := hord items hs
    refine ⟨items, hs, ?_, ?_, ?_⟩
    · intro name hne
      obtain ⟨o, ho, m, hm, -⟩ := forall₂_left hparts name ((hv.2 name).2 hne)
      simp [hm]
    · cases hparts with
      | nil =>
        obtain ⟨e, he⟩ := C22_rejects S ([] : List (Obj Ext M)) (.inl rfl)
        rw [he] at hn; cases hn
      | @cons name _ _ _ _ _ => exact ⟨name, (hv.2 name).1 (by simp)⟩
    · intro name f hf i hi
      by_contra hc
      obtain ⟨o, ho, m, hm, e⟩ := forall₂_left hparts name ((hv.2 name).2 (List.ne_nil_of_mem hf))
      obtain ⟨p, hp⟩ := C33_load_missing_vertex S m (transformVertices ts (verticesOf items)) _ f hf i hi
        (.inr (by rw [hlen]; omega))
      rw [hp] at e; cases e
  · rintro ⟨items, hs, hm, ⟨name0, hne⟩, hi⟩
    obtain ⟨V, hV⟩ := hfin items hs
    have hW := transformVertices_is hts hV
    have hv := hord items hs
    rw [objFile, Option.bind_some, objSays_parse hs]
    dsimp only
    have hload : ∀ name ∈ order, ∃ o, objPart S mats (transformVertices ts (verticesOf items))
        (fun m => facesOf m [] items) name = .ok o ∧ ∃ b B, o.bounds = .ok b ∧ BBox.Is b B := by
      intro name hname
      have hf := (hv.2 name).1 hname
      rw [objPart]
      cases e : mats name with
      | none => exact absurd e (hm name hf)
      | some m =>
        obtain ⟨o, ho⟩ := loaded_loads S m _ _ hW (facesOf name [] items) hf
          (fun f hf => (facesOf_shape hs name f hf).1)
          (fun f hf i hif => ⟨(facesOf_shape hs name f hf).2 i hif, by rw [hlen]; exact hi name f hf i hif⟩)
        obtain ⟨b, B, h1, h2, -⟩ := loaded_box S m _ _ hW _ o ho
        exact ⟨o, ho, b, B, h1, h2⟩
    obtain ⟨objects, ho⟩ := mapM_of_forall (objPart S mats (transformVertices ts (verticesOf items))
      (fun m => facesOf m [] items)) order (fun name hname => let ⟨o, h, _⟩ := hload name hname; ⟨o, h⟩)
    have hparts := mapM_spec _ _ _ ho
    obtain ⟨n, l, hn⟩ := C22_builds S objects (by
      rintro rfl
      cases hparts
      exact absurd ((hv.2 name0).2 hne) (by simp)) (by
      intro o hmem
      obtain ⟨name, hname, e⟩ := forall₂_right hparts o hmem
      obtain ⟨o', e', b, B, h1, h2⟩ := hload name hname
      rw [e] at e'
      cases e'
      exact ⟨b, h1, h2.1.notNaN, h2.2.notNaN⟩)
    rw [ho, ok_bind, mkTree, hn]
    exact ⟨_, rfl⟩

/-- **C93, order.** Go visits the materials in no fixed order. Whatever the order, the same file is loaded or refused,
and rays (with the restrictions above, and if they meet something) hit at the same distance. -/
theorem C93_order_partial (S : Sorter (Obj Ext M)) (rd : Reader Ext) (mats : List Char → Option (Option M))
    (text : List Char) (items : List (Item Ext)) (hs : ObjSays rd text items) (V : List (Vec ℝ))
    (hV : List.Forall₂ Vec.Is (verticesOf items) V) (ts : List (Affine Ext)) (Ts : List (Affine ℝ))
    (hts : List.Forall₂ Affine.Is ts Ts) (order order' : List (List Char))
    (hord : VisitsAll (fun name => facesOf name [] items) order)
    (hord' : VisitsAll (fun name => facesOf name [] items) order') (o : Obj Ext M)
    (h : objFile S rd mats (some text) ts order = .ok o) :
    ∃ o', objFile S rd mats (some text) ts order' = .ok o' ∧
      ∀ (r : Ray Ext) (R : Ray ℝ), r.Is R → R.dir ≠ ⟨0, 0, 0⟩ →
        StartsClear (V.map (pointAfter Ts)) R →
        (∀ name T, OnPolygonsAcross (V.map (pointAfter Ts)) (facesOf name [] items) R.dir (R.at T) → T < 9 * 10 ^ 99) →
        (∃ name, ∃ T > 0, OnPolygonsAcross (V.map (pointAfter Ts)) (facesOf name [] items) R.dir (R.at T)) →
        ∃ hit hit', ∃ T > 0, o.intersect r = .ok (hit, r) ∧ o'.intersect r = .ok (hit', r) ∧ hit.t.Is T ∧ hit'.t.Is T := by
  have same : ∀ it, ObjSays rd text it → verticesOf it = verticesOf items ∧
      ∀ name, facesOf name [] it = facesOf name [] items := by
    intro it hit
    have h1 := objSays_parse hit
    rw [objSays_parse hs] at h1
    simp only [Option.some.injEq, Prod.mk.injEq] at h1
    exact ⟨h1.1.symm, fun name => (congrFun h1.2 name).symm⟩
  have hfin : ∀ it, ObjSays rd text it → ∃ V : List (Vec ℝ), List.Forall₂ Vec.Is (verticesOf it) V :=
    fun it hit => ⟨V, by rw [(same it hit).1]; exact hV⟩
  have visits : ∀ ord, VisitsAll (fun name => facesOf name [] items) ord →
      ∀ it, ObjSays rd text it → VisitsAll (fun name => facesOf name [] it) ord := by
    intro ord hv it hit
    have : (fun name => facesOf name [] it) = fun name => facesOf name [] items := funext (same it hit).2
    rw [this]; exact hv
  obtain ⟨o', h'⟩ := (C93_obj_loads S rd mats text ts Ts hts hfin order' (visits _ hord')).2
    ((C93_obj_loads S rd mats text ts Ts hts hfin order (visits _ hord)).1 ⟨o, h⟩)
  refine ⟨o', h', ?_⟩
  rintro r R hr hd hgen hfar ⟨name, T, hT, hon⟩
  obtain ⟨hit, e, hh⟩ := C93_obj_partial S rd mats text items hs V hV ts Ts hts order hord o h r R hr hd hgen hfar
  obtain ⟨hit', e', hh'⟩ := C93_obj_partial S rd mats text items hs V hV ts Ts hts order' hord' o' h' r R hr hd hgen hfar
  rcases hh with ⟨T1, n1, m1, a1, a2, a3, -, -, a6⟩ | ⟨hh, -⟩
  · rcases hh' with ⟨T2, n2, m2, b1, b2, b3, -, -, b6⟩ | ⟨hh', -⟩
    · have : T1 = T2 := le_antisymm (a6 n2 T2 b2 b3) (b6 n1 T1 a2 a3)
      subst this
      exact ⟨hit, hit', T1, a2, e, e', a1, b1⟩
    · exact absurd hon (hh' name T hT)
  · exact absurd hon (hh name T hT)

/-- **C93, violated.** Take any OBJ file with at most seven materials, with any materials and transforms. If it is the
only object of a scene, and a ray meets the smallest box around it without meeting a polygon (other than edge-on), the program crashes (nil
dereference). -/
theorem C93_violated_beside {St : Type} (S : Sorter (Obj Ext (Mat Ext))) (rd : Reader Ext)
    (mats : List Char → Option (Option (Mat Ext)))
    (text : List Char) (items : List (Item Ext)) (hs : ObjSays rd text items) (V : List (Vec ℝ))
    (hV : List.Forall₂ Vec.Is (verticesOf items) V) (ts : List (Affine Ext)) (Ts : List (Affine ℝ))
    (hts : List.Forall₂ Affine.Is ts Ts) (order : List (List Char))
    (hord : VisitsAll (fun name => facesOf name [] items) order) (hfew : order.length ≤ 7) (o : Obj Ext (Mat Ext))
    (h : objFile S rd mats (some text) ts order = .ok o) (r : Ray Ext) (R : Ray ℝ) (hr : r.Is R) (hd : R.dir ≠ ⟨0, 0, 0⟩)
    (hgen : StartsClear (V.map (pointAfter Ts)) R)
    (hmeets : ∃ T > 0, ∀ B : BBox ℝ,
      (∀ name p, OnPolygons (V.map (pointAfter Ts)) (facesOf name [] items) p → B.Mem p) → B.Mem (R.at T))
    (hbeside : ∀ name T, ¬ OnPolygonsAcross (V.map (pointAfter Ts)) (facesOf name [] items) R.dir (R.at T))
    (rng : Rng Ext St) (f : Field) (c : Ctx Ext St) (h0 : c.depth = 0) :
    (⟨[], [o], [], 5⟩ : Scene Ext).lightField rng 5 f r c = .error .nilDeref := by
  obtain ⟨objects, n, l, rfl, hn, hparts⟩ := objFile_parts S rd mats text items hs ts order o h
  have hW := transformVertices_is hts hV
  -- the box test passes
  have hbox : (lit 0 <. n.bb.intersect r) = true := by
    classical
    obtain ⟨-, ⟨bb, hbbm, e⟩, -⟩ := buildTree_boxes S objects n l hn
    have hbs : ∀ o, ∃ B : BBox ℝ, o ∈ objects → (∃ b, o.bounds = .ok b ∧ b.Is B) ∧ B.Proper ∧
        ∃ l, (∀ q ∈ l, q ∈ V.map (pointAfter Ts)) ∧ B.Spans l := by
      intro o
      by_cases ho : o ∈ objects
      · obtain ⟨name, -, m, -, e⟩ := forall₂_right hparts o ho
        obtain ⟨b, B, h1, h2, h3, -, h5⟩ := loaded_box S m _ _ hW _ o e
        exact ⟨B, fun _ => ⟨⟨b, h1, h2⟩, h3, h5⟩⟩
      · exact ⟨⟨⟨0, 0, 0⟩, ⟨0, 0, 0⟩⟩, fun h => absurd h ho⟩
    choose bounds hbounds using hbs
    have hholds : ∀ o ∈ objects, ∀ name m, plyObj S m (transformVertices ts (verticesOf items)) (facesOf name [] items) =
        .ok o → ∀ p, OnPolygons (V.map (pointAfter Ts)) (facesOf name [] items) p → (bounds o).Mem p := by
      intro o ho name m e p hp
      obtain ⟨b, B, h1, h2, -, h4, -⟩ := loaded_box S m _ _ hW _ o e
      obtain ⟨⟨b', e1, e2⟩, -⟩ := hbounds o ho
      rw [h1] at e1
      cases e1
      rw [e2.unique h2]
      exact h4 p hp
    obtain ⟨B', h1, h2, h3, hni, hs'⟩ := clear_hull (ch := objects) (bounds := bounds) (R := R) (by
      refine hgen.clearOf ?_
      rintro B ⟨o, ho, rfl⟩
      exact (hbounds o ho).2.2) (fun _ h => h) hbbm (by
      intro o ho
      obtain ⟨⟨b, e1, e2⟩, e3, -⟩ := hbounds o ho
      exact ⟨b, e1, e2, e3⟩)
    have ebb : n.bb = bb := by rw [e]; rfl
    rw [ebb]
    refine (C19_off_surface bb B' h1 h2 r R hr hd hni hs').2 ?_
    obtain ⟨T, hT, hm⟩ := hmeets
    refine ⟨T, hT, hm B' ?_⟩
    intro name p hp
    have hname : name ∈ order := by
      refine (hord.2 name).2 ?_
      obtain ⟨f, hf, -⟩ := hp
      exact List.ne_nil_of_mem hf
    obtain ⟨o, ho, m, -, e⟩ := forall₂_left hparts name hname
    exact h3 o ho p (hholds o ho name m e p hp)
  obtain ⟨hit, n', en, e, hh⟩ := objFile_hit S rd mats text items hs V hV ts Ts hts order hord _ h r R hr hd hgen
    (fun name T h => absurd h (hbeside name T))
  cases en
  have hle : (n.bb.intersect r <=. lit 0) = false := by
    by_contra hc
    rw [Bool.not_eq_false] at hc
    obtain ⟨x, y, hx, hy, hxy⟩ := (CmpModel.lt_iff _ _).1 hbox
    obtain ⟨u, v, hu, hv, huv⟩ := (CmpModel.le_iff _ _).1 hc
    rw [hx] at hv; cases hv
    rw [hy] at hu; cases hu
    exact absurd hxy (not_lt.2 huv)
  rcases hh with ⟨T, name, m, -, -, h3, -⟩ | ⟨-, hh⟩
  · exact absurd h3 (hbeside name T)
  · obtain rfl := hh.2 hfew hle
    exact phantom_crash sent_pos (by rfl) _ (⟨[], [.tree n], [], 5⟩ : Scene Ext) rfl rfl
      (show (0 : Int) < 5 by decide) r _ e rfl rfl rng f c h0

/-! ## A case that meets the hypotheses -/

/-- A reader of natural numbers. -/
private def rdN : Reader Ext :=
  ⟨fun w => (digitsValue w).map fun n => .num n false, fun w => (digitsValue w).map fun n => .num n false⟩

private def file : List Char := "v 0 0 0\nv 2 0 0\nv 0 2 2\nusemtl red\nf 1 2 3\n".toList

private def fileItems : List (Item Ext) :=
  [.vertex ⟨.num 0 false, .num 0 false, .num 0 false⟩, .vertex ⟨.num 2 false, .num 0 false, .num 0 false⟩,
    .vertex ⟨.num 0 false, .num 2 false, .num 2 false⟩, .material "red".toList, .face [1, 2, 3]]

private theorem file_says : ObjSays rdN file fileItems := by
  refine ⟨["v 0 0 0".toList, "v 2 0 0".toList, "v 0 2 2".toList, "usemtl red".toList, "f 1 2 3".toList],
    ⟨by decide, .inl (by decide)⟩, by decide, ?_⟩
  have r0 : rdN.read32 "0".toList = some (.num 0 false) := by
    have : digitsValue "0".toList = some 0 := by decide
    simp only [rdN, this]; norm_num
  have r2 : rdN.read32 "2".toList = some (.num 2 false) := by
    have : digitsValue "2".toList = some 2 := by decide
    simp only [rdN, this]; norm_num
  have hi : ∀ w r, parseIndex w = .ok r → IndexWord w (r + 1) := fun w r => (parseIndex_iff w r).1
  refine .cons ⟨["v".toList, "0".toList, "0".toList, "0".toList], fields_iff.1 (by decide), _, _, _, .inl rfl, r0, r0, r0⟩ ?_
  refine .cons ⟨["v".toList, "2".toList, "0".toList, "0".toList], fields_iff.1 (by decide), _, _, _, .inl rfl, r2, r0, r0⟩ ?_
  refine .cons ⟨["v".toList, "0".toList, "2".toList, "2".toList], fields_iff.1 (by decide), _, _, _, .inl rfl, r0, r2, r2⟩ ?_
  refine .cons ⟨["usemtl".toList, "red".toList], fields_iff.1 (by decide), rfl⟩ ?_
  exact .cons ⟨["f".toList, "1".toList, "2".toList, "3".toList], fields_iff.1 (by decide), _, rfl, .inl rfl,
    .cons (hi _ 0 (by decide)) (.cons (hi _ 1 (by decide)) (.cons (hi _ 2 (by decide)) .nil))⟩ .nil

private theorem file_faces (name : List Char) :
    facesOf name [] fileItems = if name = "red".toList then [[0, 1, 2]] else [] := by
  simp only [fileItems, facesOf]
  split <;> rfl

private theorem file_visits : VisitsAll (fun name => facesOf name [] fileItems) ["red".toList] := by
  refine ⟨by simp, fun name => ?_⟩
  simp only [file_faces]
  by_cases h : name = "red".toList <;> simp [h]

private noncomputable def moveE : Affine Ext := Affine.translate ⟨.num 1 false, .num 0 false, .num 0 false⟩

private theorem move_is : List.Forall₂ Affine.Is [moveE] [Affine.translate (⟨1, 0, 0⟩ : Vec ℝ)] :=
  .cons (Affine.Is.translate ⟨⟨_, rfl⟩, ⟨_, rfl⟩, ⟨_, rfl⟩⟩) .nil

private theorem file_vertices : List.Forall₂ Vec.Is (verticesOf fileItems) ([⟨0, 0, 0⟩, ⟨2, 0, 0⟩, ⟨0, 2, 2⟩] : List (Vec ℝ)) :=
  .cons ⟨⟨_, rfl⟩, ⟨_, rfl⟩, ⟨_, rfl⟩⟩ (.cons ⟨⟨_, rfl⟩, ⟨_, rfl⟩, ⟨_, rfl⟩⟩ (.cons ⟨⟨_, rfl⟩, ⟨_, rfl⟩, ⟨_, rfl⟩⟩ .nil))

private theorem file_moved : ([⟨0, 0, 0⟩, ⟨2, 0, 0⟩, ⟨0, 2, 2⟩] : List (Vec ℝ)).map
    (pointAfter [Affine.translate (⟨1, 0, 0⟩ : Vec ℝ)]) = [⟨1, 0, 0⟩, ⟨3, 0, 0⟩, ⟨1, 2, 2⟩] := by
  simp only [List.map_cons, List.map_nil, pointAfter, List.foldl_cons, List.foldl_nil, (C27_translate _ _).1, Vec.add]
  norm_num

private theorem file_loads (S : Sorter (Obj Ext M)) (m : Option M) :
    ∃ o, objFile S rdN (fun name => if name = "red".toList then some m else none) (some file) [moveE] ["red".toList] = .ok o := by
  have same : ∀ it, ObjSays rdN file it → verticesOf it = verticesOf fileItems ∧
      ∀ name, facesOf name [] it = facesOf name [] fileItems := by
    intro it hit
    have h1 := objSays_parse hit
    rw [objSays_parse file_says] at h1
    simp only [Option.some.injEq, Prod.mk.injEq] at h1
    exact ⟨h1.1.symm, fun name => (congrFun h1.2 name).symm⟩
  refine (C93_obj_loads S rdN _ file [moveE] _ move_is
    (fun it hit => ⟨_, by rw [(same it hit).1]; exact file_vertices⟩) _ ?_).2 ⟨fileItems, file_says, ?_, ?_, ?_⟩
  · intro it hit
    have : (fun name => facesOf name [] it) = fun name => facesOf name [] fileItems := funext (same it hit).2
    rw [this]; exact file_visits
  · intro name h
    rw [file_faces] at h
    split at h
    · next e => simp [e]
    · exact absurd rfl h
  · exact ⟨"red".toList, by rw [file_faces]; simp⟩
  · intro name f hf i hi
    rw [file_faces] at hf
    split at hf
    · rw [List.mem_singleton] at hf
      subst hf
      have : (verticesOf fileItems).length = 3 := rfl
      rw [this]
      simp only [List.mem_cons, List.not_mem_nil, or_false] at hi
      rcases hi with rfl | rfl | rfl <;> norm_num
    · cases hf

private theorem file_on (name : List Char) (p : Vec ℝ) (h : OnPolygons [⟨1, 0, 0⟩, ⟨3, 0, 0⟩, ⟨1, 2, 2⟩] (facesOf name [] fileItems) p) :
    name = "red".toList ∧ InTriangle ⟨1, 0, 0⟩ ⟨3, 0, 0⟩ ⟨1, 2, 2⟩ p := by
  rw [file_faces] at h
  obtain ⟨f, hf, h⟩ := h
  split at hf
  · next hn =>
    refine ⟨hn, ?_⟩
    rw [List.mem_singleton] at hf
    subst hf
    rcases h with ⟨i, j, k, a, b, c, e, ha, hb, hc, hp⟩ | ⟨i, j, k, l, a, b, c, d, e, -⟩
    · cases e
      cases ha; cases hb; cases hc
      exact hp
    · cases e
  · cases hf

private theorem file_transverse (name : List Char) :
    PolygonsTransverse [⟨1, 0, 0⟩, ⟨3, 0, 0⟩, ⟨1, 2, 2⟩] (facesOf name [] fileItems) ⟨0, -1, 0⟩ := by
  rw [file_faces]
  intro f hf
  split at hf
  · rw [List.mem_singleton] at hf
    subst hf
    refine ⟨?_, ?_⟩
    · intro i j k a b c e ha hb hc
      cases e
      cases ha; cases hb; cases hc
      norm_num [Transverse, triNormal, geo]
    · intro i j k l a b c d e
      cases e
  · cases hf

/-- A red triangle moved by one to the right: a ray from above hits it at distance 9/2. -/
example (S : Sorter (Obj Ext M)) (m : Option M) :
    ∃ o hit T, objFile S rdN (fun name => if name = "red".toList then some m else none) (some file) [moveE] ["red".toList] = .ok o ∧
      o.intersect ⟨⟨.num (3 / 2) false, .num 5 false, .num (1 / 2) false⟩, ⟨.num 0 false, .num (-1) false, .num 0 false⟩⟩ =
        .ok (hit, ⟨⟨.num (3 / 2) false, .num 5 false, .num (1 / 2) false⟩, ⟨.num 0 false, .num (-1) false, .num 0 false⟩⟩) ∧
      hit.t.Is T ∧ 0 < T ∧ T ≤ 9 / 2 ∧ hit.mat = m := by
  obtain ⟨o, ho⟩ := file_loads S m
  obtain ⟨hit, e, hh⟩ := C93_obj_partial S rdN _ file fileItems file_says _ file_vertices [moveE] _ move_is _ file_visits o ho
    ⟨⟨.num (3 / 2) false, .num 5 false, .num (1 / 2) false⟩, ⟨.num 0 false, .num (-1) false, .num 0 false⟩⟩
    ⟨⟨3 / 2, 5, 1 / 2⟩, ⟨0, -1, 0⟩⟩ ⟨⟨⟨_, rfl⟩, ⟨_, rfl⟩, ⟨_, rfl⟩⟩, ⟨_, rfl⟩, ⟨_, rfl⟩, ⟨_, rfl⟩⟩ (by simp)
    (by rw [file_moved]; exact .inl (by norm_num [SharesCoordinate])) (by
      rw [file_moved]
      intro name T h
      obtain ⟨-, l0, l1, l2, ⟨h0, h1, h2, hs⟩, e⟩ := file_on name _ h.onPolygons
      have := congrArg Vec.y e
      simp only [Ray.at, Vec.madd, combine, Vec.add, Vec.mul] at this
      have b : (5 : ℝ) ≤ 9 * 10 ^ 99 := by norm_num
      nlinarith)
  rw [file_moved] at hh
  simp only [onPolygonsAcross_eq (file_transverse _)] at hh
  have hon : OnPolygons [⟨1, 0, 0⟩, ⟨3, 0, 0⟩, ⟨1, 2, 2⟩] (facesOf "red".toList [] fileItems)
      ((⟨⟨3 / 2, 5, 1 / 2⟩, ⟨0, -1, 0⟩⟩ : Ray ℝ).at (9 / 2)) := by
    rw [file_faces, if_pos rfl]
    refine ⟨_, List.mem_singleton.2 rfl, .inl ⟨0, 1, 2, _, _, _, rfl, rfl, rfl, rfl, 1 / 2, 1 / 4, 1 / 4, ?_, ?_⟩⟩
    · norm_num [IsWeights]
    · norm_num [Ray.at, Vec.madd, combine, Vec.add, Vec.mul]
  rcases hh with ⟨T, name, m', h1, h2, h3, h4, h5, h6⟩ | ⟨h1, -⟩
  · refine ⟨o, hit, T, ho, e, h1, h2, h6 _ _ (by norm_num) hon, ?_⟩
    obtain ⟨rfl, -⟩ := file_on name _ h3
    rw [if_pos rfl, Option.some.injEq] at h4
    rw [h5, h4]
  · exact absurd hon (h1 _ _ (by norm_num))

/-- The same triangle: a ray from above that passes beside it crashes the program. -/
example {St : Type} (S : Sorter (Obj Ext (Mat Ext))) (m : Option (Mat Ext)) (rng : Rng Ext St) (f : Field)
    (c : Ctx Ext St) (h0 : c.depth = 0) :
    ∃ o, objFile S rdN (fun name => if name = "red".toList then some m else none) (some file) [moveE] ["red".toList] = .ok o ∧
      (⟨[], [o], [], 5⟩ : Scene Ext).lightField rng 5 f ⟨⟨.num (29 / 10) false, .num 5 false, .num (19 / 10) false⟩,
        ⟨.num 0 false, .num (-1) false, .num 0 false⟩⟩ c = .error .nilDeref := by
  obtain ⟨o, ho⟩ := file_loads S m
  refine ⟨o, ho, ?_⟩
  refine C93_violated_beside S rdN _ file fileItems file_says _ file_vertices [moveE] _ move_is _ file_visits (by simp) o ho
    _ ⟨⟨29 / 10, 5, 19 / 10⟩, ⟨0, -1, 0⟩⟩ ⟨⟨⟨_, rfl⟩, ⟨_, rfl⟩, ⟨_, rfl⟩⟩, ⟨_, rfl⟩, ⟨_, rfl⟩, ⟨_, rfl⟩⟩ (by simp)
    (by rw [file_moved]; exact .inl (by norm_num [SharesCoordinate])) ⟨4, by norm_num, ?_⟩ ?_ rng f c h0
  · rw [file_moved]
    intro B hB
    have corner : ∀ p : Vec ℝ, InTriangle ⟨1, 0, 0⟩ ⟨3, 0, 0⟩ ⟨1, 2, 2⟩ p → B.Mem p := by
      intro p hp
      refine hB "red".toList p ?_
      rw [file_faces, if_pos rfl]
      exact ⟨_, List.mem_singleton.2 rfl, .inl ⟨0, 1, 2, _, _, _, rfl, rfl, rfl, rfl, hp⟩⟩
    have c1 := corner ⟨1, 0, 0⟩ ⟨1, 0, 0, by norm_num [IsWeights], by norm_num [combine, Vec.add, Vec.mul]⟩
    have c2 := corner ⟨3, 0, 0⟩ ⟨0, 1, 0, by norm_num [IsWeights], by norm_num [combine, Vec.add, Vec.mul]⟩
    have c3 := corner ⟨1, 2, 2⟩ ⟨0, 0, 1, by norm_num [IsWeights], by norm_num [combine, Vec.add, Vec.mul]⟩
    simp only [BBox.Mem] at c1 c2 c3
    simp only [BBox.Mem, Ray.at, Vec.madd]
    refine ⟨?_, ?_, ?_, ?_, ?_, ?_⟩ <;> linarith
  · rw [file_moved]
    intro name T h
    obtain ⟨-, l0, l1, l2, ⟨h0, h1, h2, hs⟩, e⟩ := file_on name _ h.onPolygons
    have ex := congrArg Vec.x e
    have ez := congrArg Vec.z e
    simp only [Ray.at, Vec.madd, combine, Vec.add, Vec.mul] at ex ez
    linarith

end BR
