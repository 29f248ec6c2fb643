import Verif.Model.MeshFile
import Verif.Spec.MeshFile
import Verif.Props.C22_TreeConstruction
import Verif.Props.C27_Affine
import Verif.Props.C33_Quads
import Verif.Props.C34_Obj
import Verif.Props.C35_Ply
import Verif.Props.C68_Mesh
import Verif.Lemmas.Transform

/-! Objects made from mesh files. -/

namespace BR

open Text

variable {M : Type}

theorem composeLR_is {ts : List (Affine Ext)} {Ts : List (Affine ℝ)} (h : List.Forall₂ Affine.Is ts Ts) :
    (Affine.composeLR ts).Is (Affine.composeLR Ts) := by
  have key : ∀ (c : Affine Ext) (C : Affine ℝ), c.Is C →
      (ts.foldl (fun comp t => comp.before t) c).Is (Ts.foldl (fun comp t => comp.before t) C) := by
    induction h with
    | nil => intro c C h; exact h
    | cons ht _ ih => intro c C hc; exact ih _ _ (hc.before ht)
  exact key _ _ Affine.Is.unit

theorem transformVertices_is {ts : List (Affine Ext)} {Ts : List (Affine ℝ)} (h : List.Forall₂ Affine.Is ts Ts)
    {vs : List (Vec Ext)} {V : List (Vec ℝ)} (hV : List.Forall₂ Vec.Is vs V) :
    List.Forall₂ Vec.Is (transformVertices ts vs) (V.map (pointAfter Ts)) := by
  unfold transformVertices
  split
  · rw [applyTransform]
    have hp : pointAfter Ts = (Affine.composeLR Ts).point := funext fun p => (C27_composeLR Ts p).symm
    rw [hp, List.forall₂_map_left_iff, List.forall₂_map_right_iff]
    exact hV.imp fun v w hv => (composeLR_is h).point hv
  · next hn =>
    have : ts = [] := by simpa using hn
    subst this
    cases h
    have : pointAfter [] = id := rfl
    rw [this, List.map_id]
    exact hV

theorem objSays_parse {F : Type} {rd : Reader F} {text : List Char} {items : List (Wavefront.Item F)}
    (h : ObjSays rd text items) :
    Wavefront.parse rd text = some (Wavefront.verticesOf items, fun m => Wavefront.facesOf m [] items) := by
  obtain ⟨lines, ht, hl, hi⟩ := h
  exact (C34_exact rd lines text ht _ _).2 ⟨hl, items, hi, rfl, fun _ => rfl⟩

theorem parse_objSays {F : Type} {rd : Reader F} {text : List Char} {r}
    (h : Wavefront.parse rd text = some r) : ∃ items, ObjSays rd text items := by
  obtain ⟨lines, ht, -⟩ := C34_lines text
  obtain ⟨hl, items, hi, -⟩ := (C34_exact rd lines text ht r.1 r.2).1 h
  exact ⟨items, lines, ht, hl, hi⟩

theorem plySays_iff {F : Type} {rd : Reader F} {text : List Char} {vs : List (Vec F)} {fs : List (Int × Int × Int)} :
    PlyFile.parse rd text = some (vs, fs) ↔ PlySays rd text vs fs := by
  constructor
  · intro h
    obtain ⟨ls, tail, hls, ht, rfl⟩ := exists_unlines text
    obtain ⟨a, b, c, d, e, f, g, i, j, rfl, h2⟩ := (C35_exact rd ls tail hls ht vs fs).1 h
    exact ⟨a, b, c, d, e, f, g, i, j, tail, rfl, hls, ht, h2⟩
  · rintro ⟨a, b, c, d, e, f, g, i, j, tail, rfl, hls, ht, h⟩
    exact (C35_exact rd _ tail hls ht vs fs).2 ⟨a, b, c, d, e, f, g, i, j, rfl, h⟩

theorem Vec.Is.notNaN {v : Vec Ext} {w : Vec ℝ} (h : v.Is w) : v.isNaN = false := by
  obtain ⟨⟨_, h1⟩, ⟨_, h2⟩, ⟨_, h3⟩⟩ := h
  rw [Vec.isNaN, h1, h2, h3]; rfl

theorem BBox.Is.unique {b : BBox Ext} {B C : BBox ℝ} (h : b.Is B) (h' : b.Is C) : B = C := by
  obtain ⟨⟨⟨_, a1⟩, ⟨_, a2⟩, ⟨_, a3⟩⟩, ⟨⟨_, a4⟩, ⟨_, a5⟩, ⟨_, a6⟩⟩⟩ := h
  obtain ⟨⟨⟨_, b1⟩, ⟨_, b2⟩, ⟨_, b3⟩⟩, ⟨⟨_, b4⟩, ⟨_, b5⟩, ⟨_, b6⟩⟩⟩ := h'
  rw [a1] at b1; rw [a2] at b2; rw [a3] at b3; rw [a4] at b4; rw [a5] at b5; rw [a6] at b6
  cases B with | mk mn mx => cases C with | mk mn' mx' =>
  cases mn; cases mx; cases mn'; cases mx'
  simp only [Ext.num.injEq] at b1 b2 b3 b4 b5 b6
  simp [b1.1, b2.1, b3.1, b4.1, b5.1, b6.1]

/-- Meshes with faces, whose vertices exist, can be made. -/
theorem mesh_loads (S : Sorter (Obj Ext M)) (m : Option M) (vertices : List (Vec Ext)) (V : List (Vec ℝ))
    (hV : List.Forall₂ Vec.Is vertices V) (faces : List (Int × Int × Int)) (hne : faces ≠ [])
    (hin : ∀ f ∈ faces, ∀ i, i = f.1 ∨ i = f.2.1 ∨ i = f.2.2 → 0 ≤ i ∧ i < vertices.length) :
    ∃ o, meshWithUV S m vertices faces none = .ok o := by
  rw [meshWithUV, mkVertices, ok_bind]
  set vs : List (Vertex Ext) := vertices.map fun p => ⟨p, Vec.zero, lit 0, lit 0⟩ with hvs
  have hlen : vs.length = vertices.length := by rw [hvs, List.length_map]
  obtain ⟨tris, ht⟩ := mapM_of_forall (triRef vs.length) faces (by
    intro f hf
    have h1 := hin f hf f.1 (.inl rfl)
    have h2 := hin f hf f.2.1 (.inr (.inl rfl))
    have h3 := hin f hf f.2.2 (.inr (.inr rfl))
    refine ⟨(f.1.toNat, f.2.1.toNat, f.2.2.toNat), ?_⟩
    · rw [triRef, vertexRef, if_pos (by omega), ok_bind, vertexRef, if_pos (by omega), ok_bind, vertexRef,
        if_pos (by omega), ok_bind]; rfl)
  rw [ht, ok_bind, meshObj]
  have ht' := mapM_spec _ _ _ ht
  have hpos : (calcNormals vs tris).map Vertex.pos = vertices := by
    rw [calcNormals_pos, hvs, List.map_map]
    exact List.map_id _
  have hl2 : (calcNormals vs tris).length = vertices.length := by rw [← hpos, List.length_map]
  obtain ⟨fs, hfs⟩ := mapM_of_forall (faceObj (M := M) (calcNormals vs tris)) tris (by
    intro t htm
    obtain ⟨f, hf, e⟩ := forall₂_right ht' t htm
    have hi := hin f hf
    rw [triRef] at e
    obtain ⟨a, ha, e⟩ := bind_eq_ok.1 e
    obtain ⟨b, hb, e⟩ := bind_eq_ok.1 e
    obtain ⟨c, hc, e⟩ := bind_eq_ok.1 e
    cases e
    have get : ∀ (i : Int) (k : Nat), vertexRef vs.length i = .ok k → ∃ v, (calcNormals vs tris)[k]? = some v := by
      intro i k hk
      unfold vertexRef at hk
      split_ifs at hk with hi
      cases hk
      exact ⟨_, List.getElem?_eq_getElem (by omega)⟩
    obtain ⟨va, ea⟩ := get _ _ ha
    obtain ⟨vb, eb⟩ := get _ _ hb
    obtain ⟨vc, ec⟩ := get _ _ hc
    exact ⟨.face va vb vc, by simp only [faceObj, ea, eb, ec]⟩)
  dsimp only
  rw [hfs, ok_bind, mkTree]
  have hf' := mapM_spec _ _ _ hfs
  obtain ⟨n, l, hn⟩ := C22_builds S fs (by
      rintro rfl
      cases hf'
      cases ht'
      exact hne rfl) (by
    intro o ho
    obtain ⟨t, htm, e⟩ := forall₂_right hf' o ho
    have hof : FaceOf vertices t o := by
      unfold faceObj at e
      split at e
      · next a b c ha hb hc =>
        cases e
        refine ⟨a, b, c, rfl, ?_⟩
        rw [← hpos]
        exact ⟨by simp [ha], by simp [hb], by simp [hc]⟩
      · cases e
    obtain ⟨va, vb, vc, a, b, c, rfl, ia, ib, ic, -⟩ := hof.real hV
    obtain ⟨bb, B, e, hB, -⟩ := fromHull_is [va.pos, vb.pos, vc.pos] [a, b, c] (by simp)
      (.cons ia (.cons ib (.cons ic .nil)))
    exact ⟨bb, e, hB.1.notNaN, hB.2.notNaN⟩)
  rw [hn]
  exact ⟨_, rfl⟩

/-- Loaded polygons can be made into a mesh. -/
theorem loaded_loads (S : Sorter (Obj Ext M)) (m : Option M) (vertices : List (Vec Ext)) (V : List (Vec ℝ))
    (hV : List.Forall₂ Vec.Is vertices V) (polys : List (List Int)) (hne : polys ≠ [])
    (hlen : ∀ f ∈ polys, f.length = 3 ∨ f.length = 4) (hin : ∀ f ∈ polys, ∀ i ∈ f, 0 ≤ i ∧ i < vertices.length) :
    ∃ o, plyObj S m vertices polys = .ok o := by
  rw [plyObj]
  have hsplit : ∀ f ∈ polys, ∃ ts, polySplit f = .ok ts ∧ ts ≠ [] ∧ ∀ t ∈ ts, t.1 ∈ f ∧ t.2.1 ∈ f ∧ t.2.2 ∈ f := by
    intro f hf
    match f, hlen f hf with
    | [a, b, c], _ => exact ⟨_, rfl, by simp, by simp⟩
    | [a, b, c, d], _ => exact ⟨_, rfl, by simp, by simp⟩
    | [], h => simp at h
    | [_], h => simp at h
    | [_, _], h => simp at h
    | _ :: _ :: _ :: _ :: _ :: _, h => simp at h
  obtain ⟨f2, hf2⟩ := mapM_of_forall polySplit polys fun f hf => let ⟨ts, h, _⟩ := hsplit f hf; ⟨ts, h⟩
  rw [hf2, ok_bind]
  have h2 := mapM_spec _ _ _ hf2
  refine mesh_loads S m vertices V hV _ ?_ ?_
  · intro h0
    cases polys with
    | nil => exact hne rfl
    | cons f polys =>
      cases h2 with
      | cons hh _ =>
        obtain ⟨ts, e, hts, -⟩ := hsplit f (by simp)
        rw [e] at hh
        cases hh
        rw [List.flatten_cons, List.append_eq_nil_iff] at h0
        exact hts h0.1
  · intro t ht i hi
    obtain ⟨ts, hts, ht⟩ := List.mem_flatten.1 ht
    obtain ⟨f, hf, e⟩ := forall₂_right h2 ts hts
    obtain ⟨ts', e', -, hmem⟩ := hsplit f hf
    rw [e] at e'
    cases e'
    obtain ⟨m1, m2, m3⟩ := hmem t ht
    rcases hi with rfl | rfl | rfl
    · exact hin f hf _ m1
    · exact hin f hf _ m2
    · exact hin f hf _ m3

/-- Polygons in an OBJ file have three or four vertices, numbered from zero. -/
theorem facesOf_shape {F : Type} {rd : Reader F} {text : List Char} {items : List (Wavefront.Item F)}
    (h : ObjSays rd text items) (name : List Char) :
    ∀ f ∈ Wavefront.facesOf name [] items, (f.length = 3 ∨ f.length = 4) ∧ ∀ i ∈ f, 0 ≤ i := by
  obtain ⟨lines, -, -, hi⟩ := h
  have key : ∀ cur, ∀ f ∈ Wavefront.facesOf name cur items, (f.length = 3 ∨ f.length = 4) ∧ ∀ i ∈ f, 0 ≤ i := by
    induction hi with
    | nil => intro cur f hf; cases hf
    | @cons l it lines items hm _ ih =>
      intro cur f hf
      obtain ⟨ws, -, hm⟩ := hm
      cases it with
      | vertex v => exact ih cur f hf
      | nothing => exact ih cur f hf
      | material m => exact ih m f hf
      | face idx =>
        rw [Wavefront.facesOf] at hf
        split at hf
        · rcases List.mem_cons.1 hf with rfl | hf
          · obtain ⟨args, -, hlen, hidx⟩ := hm
            refine ⟨by rw [List.length_map, ← hidx.length_eq]; exact hlen, ?_⟩
            intro i hi
            obtain ⟨j, hj, rfl⟩ := List.mem_map.1 hi
            obtain ⟨w, -, _, _, _, _, _, _, h1, -⟩ := forall₂_right hidx j hj
            omega
          · exact ih cur f hf
        · exact ih cur f hf
  exact key []

end BR
