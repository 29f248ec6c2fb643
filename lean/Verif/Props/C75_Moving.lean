import Verif.Lemmas.MovedBuild
import Verif.Model.Api

/-! C75: displacing a whole scene and the camera does not change the image. In arithmetic without rounding, with
infinities, NaN and signed zeros (`Ext`). -/

namespace BR
set_option linter.unusedSectionVars false

variable {S : Type} {d : Vec Ext} (hd : d.Finite)

namespace Moving

/-- The change of the scene. -/
noncomputable def sym (hd : d.Finite) : Sym Ext where
  mvp p := p.add d
  hgt h := h + d.y
  col c := c
  ok := Vec.NotNegZero
  ok_madd _ _ _ h := h.madd _ _
  madd p t n _ := by simp only [Vec.madd, Vec.add, Ext.add_right_comm]
  sub p q h _ := Vec.add_sub_add hd h q
  fog p h hp := Ext.add_sub_add hp.2.1 hd.2.1 h
  mul _ _ := rfl
  mul3 _ _ := rfl
  add _ _ := rfl
  black := rfl
  isZero _ := rfl

theorem sym_mv (r : Ray Ext) : (sym hd).mv r = r.moved d := rfl

theorem map_id {α : Type} (x : GoM α) : x.map (fun a => a) = x := by cases x <;> rfl

theorem sym_mat (m : Mat Ext) : (sym hd).mat m = m := by
  induction m <;> simp only [Sym.mat, *]
  · exact congrArg Mat.flat (funext fun p => map_id _)
  · exact congrArg Mat.func (funext fun r => funext fun h => map_id _)

theorem sym_free (m : Mat Ext) : (sym hd).Free m ↔ m.Placeless d := by
  induction m with
  | reflectFresnel n u ih => exact ih
  | twoSided a b iha ihb => exact and_congr iha ihb
  | blend _ a _ b iha ihb => exact and_congr iha ihb
  | blendMap _ a b iha ihb => exact and_congr iha ihb
  | func f => exact Iff.rfl
  | _ => exact Iff.rfl

theorem sym_hit (h : HitRecord Ext (Mat Ext)) : (sym hd).hit h = h := by
  have e : (sym hd).mat = id := funext (sym_mat hd)
  simp only [Sym.hit, e, Option.map_id, id]

theorem objs (o : Obj Ext (Mat Ext)) (ho : o.Movable) : (sym hd).Objs o (o.moved d) := by
  intro r hr
  rw [sym_mv, Obj.intersect_moved d hd o ho r hr]
  refine congrArg (fun f => (o.intersect r).map f) (funext fun a => ?_)
  simp only [sym_hit, sym_mv]

theorem lights (rng : Rng Ext S) (l : Light Ext) (hl : l.Movable) : (sym hd).Lights rng l (l.moved d) := by
  intro p c hp
  have hp : p.NotNegZero := hp
  cases l with
  | point pos power =>
    have hl : pos.NotNegZero := hl
    simp only [Light.moved, Light.sample, map_ok']
    refine ⟨?_, ?_⟩
    · simp only [Light.pointIntensity]
      have : ((sym hd).mvp p).sub (pos.add d) = p.sub pos := Vec.add_sub_add hd hp pos
      rw [this]; rfl
    · rintro a ⟨⟩; exact hl
  | planar w h center tp o tr =>
    have hc : center.NotNegZero := hl.1
    simp only [Light.moved, Light.sample]
    have e : ∀ uv, Light.samplePos w h (center.add d) tr uv = (Light.samplePos w h center tr uv).add d := by
      intro uv
      simp only [Light.samplePos, Vec.add_assoc]
    refine ⟨?_, ?_⟩
    · rw [map_bind']
      refine bind_congr_ok rfl ?_
      rintro ⟨uv, c1⟩ -
      dsimp only
      rw [e]
      have : Light.planarIntensity ((sym hd).mvp p) ((Light.samplePos w h center tr uv).add d) =
          Light.planarIntensity p (Light.samplePos w h center tr uv) := by
        unfold Light.planarIntensity
        have : ((sym hd).mvp p).sub ((Light.samplePos w h center tr uv).add d) =
          p.sub (Light.samplePos w h center tr uv) := Vec.add_sub_add hd hp _
        rw [this]
      rw [this]; rfl
    · intro a ha
      obtain ⟨⟨uv, c1⟩, -, ha⟩ := bind_eq_ok.1 ha
      cases ha
      exact hc.add' _
  | transformed f i l o =>
    obtain ⟨hB, ⟨δ, rfl, rfl⟩, -⟩ := hl
    have hB : δ.NotNegZero := hB
    simp only [Light.moved, Light.sample, moved_translate]
    have e : (Affine.translate (δ.add d)).inverse.point ((sym hd).mvp p) = (Affine.translate δ).inverse.point p :=
      translate_inverse_point hd δ p hp
    refine ⟨?_, ?_⟩
    · rw [e, map_bind']
      refine bind_congr_ok rfl ?_
      rintro ⟨⟨tp, b⟩, c1⟩ -
      have : (Affine.translate (δ.add d)).point tp = ((Affine.translate δ).point tp).add d :=
        (Vec.add_assoc _ _ _).symm
      dsimp only
      rw [this]; rfl
    · intro a ha
      obtain ⟨⟨⟨tp, b⟩, c1⟩, -, ha⟩ := bind_eq_ok.1 ha
      cases ha
      exact hB.add' _

theorem light_object (l : Light Ext) (hl : l.Movable) : (sym hd).Objs l.object (l.moved d).object := by
  cases l with
  | point pos power =>
    intro r _
    simp only [Light.moved, Light.object, Obj.intersect]
    simp only [ok_bind, pure_ok, map_ok', sym_hit]
  | planar w h c tp o tr => exact objs hd o hl.2
  | transformed f i l o => exact objs hd o hl.2.2

theorem scenes (rng : Rng Ext S) (s : Scene Ext) (hs : s.Movable d) : (sym hd).Scenes rng s (s.moved d) := by
  have e : (sym hd).Free = Mat.Placeless d := funext fun m => propext (sym_free hd m)
  refine Sym.scenes ?_ ?_ (fun o ho => ?_) (fun l hl => ?_) ?_ rfl
  · refine List.forall₂_map_right_iff.2 (List.forall₂_same.2 fun o ho => objs hd o (hs.objects o ho).1)
  · exact List.forall₂_map_right_iff.2 (List.forall₂_same.2 fun l hl =>
      ⟨lights hd rng l (hs.lights l hl).1, light_object hd l (hs.lights l hl).1⟩)
  · rw [e]; exact (hs.objects o ho).2
  · rw [e]; exact (hs.lights l hl).2
  · exact List.map_congr_left fun m _ => by cases m <;> rfl

end Moving

open Moving

include hd

/-- **C75.** Every ray sees in the displaced scene what the ray with the start not displaced sees in the scene, with
the same random numbers and for every depth limit; and one panics if the other does. Missing: objects that are rotated
or scaled (the sign of zeros could change), bare height surfaces and user-defined objects. -/
theorem C75_light_field_partial (rng : Rng Ext S) (s : Scene Ext) (hs : s.Movable d) (fuel : Nat) (f : Field) (r : Ray Ext)
    (hr : r.start.NotNegZero) (ctx : Ctx Ext S) :
    (s.moved d).lightField rng fuel f (r.moved d) ctx = s.lightField rng fuel f r ctx := by
  refine (sim_lightField (scenes hd rng s hs) fuel f r ctx hr).trans ?_
  exact map_id _

/-- **C75.** The displaced camera takes the same picture of the displaced scene. Missing: as above. -/
theorem C75_image_partial (rng : Rng Ext S) (s : Scene Ext) (hs : s.Movable d) (cam : Cam Ext) (hc : cam.pos.NotNegZero) :
    (s.moved d).imageFunc rng (cam.moved d) = s.imageFunc rng cam := by
  funext ctx u v
  refine (sim_imageFunc (scenes hd rng s hs) cam (cam.moved d) (fun ctx u v => ?_) ctx u v).trans (map_id _)
  unfold Cam.rayFrom Cam.moved
  dsimp only
  refine ⟨?_, hc.add' _⟩
  rw [sym_mv]
  simp only [Ray.moved, Vec.add_assoc]

omit hd

/-! The displaced scene is the one that is built with all positions displaced. -/

variable {M : Type}

/-- **C75.** `Sphere` with the displaced centre is the displaced sphere. -/
theorem C75_sphere (m : Option M) (diam : Ext) (c : Vec Ext) (hc : c.NotNegZero) :
    Obj.sphere m diam (c.add d) = (Obj.sphere m diam c).moved d ∧ (Obj.sphere m diam c).Movable := by
  refine ⟨?_, ?_⟩
  · simp only [Obj.sphere, Obj.sphereQ, Obj.moved, ← translated_translated, withMargin_translated]
  · simp only [Obj.sphere, Obj.Movable]
    exact withMargin_ok (translated_ok hc _) _

/-- **C75.** `Box`. -/
theorem C75_box (m : Option M) (w h z : Ext) (c : Vec Ext) (hc : c.NotNegZero) :
    Obj.mkBox m w h z (c.add d) = (Obj.mkBox m w h z c).moved d ∧ (Obj.mkBox m w h z c).Movable := by
  refine ⟨?_, ?_⟩
  · simp only [Obj.mkBox, Obj.moved, ← translated_translated]
  · simp only [Obj.mkBox, Obj.Movable]
    exact translated_ok hc _

/-- **C75.** `BoxWithBounds`. -/
theorem C75_box_with_bounds (m : Option M) (a b : Vec Ext) (ha : a.NotNegZero) (hb : b.NotNegZero) :
    Obj.boxWithBounds m (a.add d) (b.add d) = (Obj.boxWithBounds m a b).moved d ∧ (Obj.boxWithBounds m a b).Movable := by
  simp only [Obj.boxWithBounds, Obj.moved, Obj.Movable]
  exact ⟨rfl, ha, hb⟩

/-- **C75.** `Cylinder`. -/
theorem C75_cylinder (m : Option M) (diam h : Ext) (c : Vec Ext) (hc : c.NotNegZero) :
    Obj.cylinder m diam h (c.add d) = (Obj.cylinder m diam h c).moved d ∧ (Obj.cylinder m diam h c).Movable := by
  refine ⟨?_, ?_⟩
  · simp only [Obj.cylinder, Obj.cylinderQ, Obj.moved, ← translated_translated, withMargin_translated]
  · simp only [Obj.cylinder, Obj.Movable]
    exact withMargin_ok (translated_ok hc _) _

/-- **C75.** `CylinderDir`. -/
theorem C75_cylinder_dir (m : Option M) (dir : Fin 3) (diam h : Ext) (c : Vec Ext) (hc : c.NotNegZero) :
    (.quadric (Obj.cylinderDirQ m dir diam h (c.add d)) : Obj Ext M) =
      (Obj.quadric (Obj.cylinderDirQ m dir diam h c)).moved d ∧
    (Obj.quadric (Obj.cylinderDirQ m dir diam h c)).Movable := by
  refine ⟨?_, ?_⟩
  · simp only [Obj.cylinderDirQ, Obj.moved, ← translated_translated, withMargin_translated]
  · simp only [Obj.Movable]
    exact withMargin_ok (translated_ok hc _) _

/-- **C75.** `CylinderWithCaps`. -/
theorem C75_cylinder_with_caps (m : Option M) (diam h : Ext) (c : Vec Ext) (hc : c.NotNegZero) :
    Obj.cylinderWithCaps m diam h (c.add d) = (Obj.cylinderWithCaps m diam h c).moved d ∧
      (Obj.cylinderWithCaps m diam h c).Movable := by
  simp only [Obj.cylinderWithCaps, Obj.moved, Obj.Movable]
  exact ⟨by rw [(C75_cylinder m diam h c hc).1, (C75_box m diam h diam c hc).1],
    (C75_cylinder (d := d) m diam h c hc).2, (C75_box (d := d) m diam h diam c hc).2⟩

include hd in
/-- **C75.** `Triangle`, `Quadrilateral`, `Mesh`, …: a mesh with displaced vertices is the displaced mesh. If it has more
than seven faces they are sorted, which must be done by comparisons (`Sorter.ByComparison`). -/
theorem C75_mesh (Srt Srt' : Sorter (Obj Ext M)) (m : Option M) (ps : List (Vec Ext)) (hp : ∀ p ∈ ps, p.NotNegZero)
    (idx : List (Int × Int × Int)) (uv : Option (List (Ext × Ext)))
    (hS : maxFacePerLeaf < idx.length → Srt = Srt' ∧ Srt.ByComparison) :
    meshWithUV Srt' m (ps.map (Vec.add · d)) idx uv = (meshWithUV Srt m ps idx uv).map (Obj.moved d) ∧
      ∀ o, meshWithUV Srt m ps idx uv = .ok o → o.Movable := by
  refine ⟨meshWithUV_moved hd Srt Srt' m ps hp idx uv hS, ?_⟩
  intro o e
  obtain ⟨vs, evs, e⟩ := bind_eq_ok.1 e
  obtain ⟨faces, -, e⟩ := bind_eq_ok.1 e
  exact meshObj_movable Srt m vs (mkVertices_ok ps hp uv vs evs) faces o e

include hd in
/-- **C75.** `Rectangle`. -/
theorem C75_rectangle (Srt Srt' : Sorter (Obj Ext M)) (m : Option M) (w h : Ext) (c : Vec Ext) (hc : c.NotNegZero) :
    rectangle Srt' m w h (c.add d) = (rectangle Srt m w h c).map (Obj.moved d) ∧
      ∀ o, rectangle Srt m w h c = .ok o → o.Movable := by
  unfold rectangle rectangleWithVertices quadrilateral
  simp only [← Vec.add_assoc]
  generalize hv0 : (⟨-w / lit 2, lit 0, -h / lit 2⟩ : Vec Ext).add c = v0
  generalize hv1 : (⟨-w / lit 2, lit 0, h / lit 2⟩ : Vec Ext).add c = v1
  generalize hv3 : (⟨w / lit 2, lit 0, -h / lit 2⟩ : Vec Ext).add c = v3
  have h0 : v0.NotNegZero := by rw [← hv0]; exact hc.add' _
  have h1 : v1.NotNegZero := by rw [← hv1]; exact hc.add' _
  have h3 : v3.NotNegZero := by rw [← hv3]; exact hc.add' _
  have e : (v1.add d).add ((v3.add d).sub (v0.add d)) = (v1.add (v3.sub v0)).add d := by
    rw [Vec.add_sub_add hd h3, Vec.add_right_comm]
  rw [e]
  have hps : ∀ p ∈ [v0, v1, v1.add (v3.sub v0), v3], p.NotNegZero := by
    intro p hp
    simp only [List.mem_cons, List.not_mem_nil, or_false] at hp
    rcases hp with rfl | rfl | rfl | rfl
    exacts [h0, h1, h1.add _, h3]
  exact C75_mesh hd Srt Srt' m [v0, v1, v1.add (v3.sub v0), v3] hps quadFaces _ (fun h => absurd h (by decide))

include hd in
/-- **C75.** `Disk`. -/
theorem C75_disk (Srt Srt' : Sorter (Obj Ext M)) (m : Option M) (diam : Ext) (c : Vec Ext) (hc : c.NotNegZero) :
    disk Srt' m diam (c.add d) = (disk Srt m diam c).map (Obj.moved d) ∧
      ∀ o, disk Srt m diam c = .ok o → o.Movable := by
  obtain ⟨h1, h2⟩ := C75_rectangle hd Srt Srt' m diam diam c hc
  refine ⟨?_, ?_⟩
  · unfold disk
    refine map_bind_congr h1 fun r _ => ?_
    simp only [pure_ok, map_ok', Obj.moved, (C75_cylinder (none : Option M) diam _ c hc).1]
  · intro o e
    obtain ⟨r, hr, e⟩ := bind_eq_ok.1 e
    cases e
    simp only [Obj.Movable]
    exact ⟨h2 r hr, (C75_cylinder (d := d) (none : Option M) diam _ c hc).2⟩

include hd in
/-- **C75.** `Tree`: the tree of the displaced objects is the displaced tree. -/
theorem C75_tree (Srt : Sorter (Obj Ext M)) (hS : Srt.ByComparison) (os : List (Obj Ext M)) (ho : ∀ o ∈ os, o.Movable) :
    mkTree Srt (os.map (Obj.moved d)) = (mkTree Srt os).map (fun a => (a.1.moved d, a.2.map (Obj.moved d))) ∧
      ∀ o l, mkTree Srt os = .ok (o, l) → o.Movable := by
  refine ⟨?_, ?_⟩
  · unfold mkTree
    refine map_bind_congr (buildTree_moved hd Srt Srt os (fun _ => sortAlike_comparison hd Srt hS os ho) ho) fun a _ => ?_
    simp only [pure_ok, map_ok', Obj.moved]
  · intro o l e
    obtain ⟨⟨n, l'⟩, en, e⟩ := bind_eq_ok.1 e
    cases e
    simp only [Obj.Movable]
    exact buildTree_movable Srt os ho n _ en

/-- Sorting by comparisons, for example with the merge sort of Lean's library. -/
example : ∃ Srt : Sorter (Obj Ext M), Srt.ByComparison ∧
    ∀ dir l, Srt.sort dir l = (List.range l.length |>.mergeSort fun i j =>
      match l[j]?, l[i]? with
      | some a, some b => match treeLess dir a b with | .ok b => !b | _ => true
      | _, _ => true).filterMap (l[·]?) := by
  have hr : ∀ l : List (Obj Ext M), (List.range l.length).filterMap (l[·]?) = l := by
    intro l
    induction l with
    | nil => rfl
    | cons a l ih =>
      rw [List.length_cons, List.range_succ_eq_map, List.filterMap_cons, List.filterMap_map]
      exact congrArg (a :: ·) ih
  refine ⟨⟨_, fun dir l => ?_⟩, ⟨fun t => (List.range t.length).mergeSort fun i j =>
      match t[j]? with
      | some row => match row[i]? with | some (.ok b) => !b | _ => true
      | none => true, fun dir l => ?_⟩, fun dir l => rfl⟩
  · exact ((List.mergeSort_perm _ _).filterMap _).trans (by rw [hr])
  · dsimp only
    rw [List.length_map]
    congr 2
    funext i j
    simp only [List.getElem?_map]
    cases hj : l[j]? with
    | none => rfl
    | some a =>
      cases hi : l[i]? with
      | none => simp [hi]
      | some b =>
        simp only [Option.map_some, List.getElem?_map, hi]
        cases treeLess dir a b <;> rfl

include hd in
/-- **C75.** `Bounded`. -/
theorem C75_bounded (o : Obj Ext M) (ho : o.Movable) :
    (o.moved d).mkBounded = o.mkBounded.map (Obj.moved d) ∧ ∀ o', o.mkBounded = .ok o' → o'.Movable := by
  refine ⟨?_, ?_⟩
  · unfold Obj.mkBounded
    refine map_bind_congr (Obj.bounds_moved hd o ho) fun b _ => ?_
    simp only [pure_ok, map_ok', Obj.moved]
  · intro o' e
    obtain ⟨b, hb, e⟩ := bind_eq_ok.1 e
    cases e
    simp only [Obj.Movable]
    exact ⟨ho.bounds_ok hb, ho⟩

/-- **C75.** `And`, `Or`, `Not`, `Restrict`, `Hollow`, `WithMaterial` of displaced objects. -/
theorem C75_csg (m : Option M) (a b : Obj Ext M) (ha : a.Movable) (hb : b.Movable) :
    (Obj.and a b).moved d = .and (a.moved d) (b.moved d) ∧ (Obj.and a b).Movable ∧
    (Obj.or a b).moved d = .or (a.moved d) (b.moved d) ∧ (Obj.or a b).Movable ∧
    (Obj.restrict a b).moved d = .restrict (a.moved d) (b.moved d) ∧ (Obj.restrict a b).Movable ∧
    (a.difference b).moved d = (a.moved d).difference (b.moved d) ∧ (a.difference b).Movable ∧
    (Obj.hollow a).moved d = .hollow (a.moved d) ∧ (Obj.hollow a).Movable ∧
    (Obj.withMaterial m a).moved d = .withMaterial m (a.moved d) ∧ (Obj.withMaterial m a).Movable := by
  simp only [Obj.difference, Obj.moved, Obj.Movable]
  simp [ha, hb]

namespace Moving

include hd in
theorem transform_moved (b : BBox Ext) (t : Affine Ext) :
    b.transform (t.moved d) = (b.transform t).map (BBox.translated · d) := by
  unfold BBox.transform
  rw [← fromHull_moved hd, List.map_map]
  refine congrArg BBox.fromHull (List.map_congr_left fun p _ => ?_)
  exact (Vec.add_assoc _ _ _).symm

include hd in
theorem mkTransformed_moved (o : Obj Ext M) (t : Affine Ext) :
    o.mkTransformed (t.moved d) = (o.mkTransformed t).map (Obj.moved d) := by
  induction o, t using Obj.mkTransformed.induct with
  | case1 b f i o t ih =>
    rw [Obj.mkTransformed, Obj.mkTransformed]
    have e : f.before (t.moved d) = (f.before t).moved d := by
      simp only [Affine.before, Affine.moved, Vec.add_assoc]
    rw [e, ih]
  | case2 o t ho =>
    have h : ∀ t, o.mkTransformed t = (do
        let bb ← o.bounds
        let bounds ← bb.transform t
        return .transformed bounds t t.inverse o) := by
      intro t
      cases o <;> first | rfl | exact absurd rfl (ho _ _ _ _)
    rw [h, h, map_bind']
    refine bind_congr_ok rfl fun bb _ => ?_
    refine map_bind_congr (transform_moved hd bb t) fun b _ => ?_
    simp only [pure_ok, map_ok', Obj.moved]

end Moving

include hd in
/-- **C75.** `Translate` by a displaced vector. The result can be displaced if the object is not itself a rotated or
scaled one. -/
theorem C75_translate (o : Obj Ext M) (δ : Vec Ext) :
    o.translate (δ.add d) = (o.translate δ).map (Obj.moved d) ∧
      ((∀ b f i o', o ≠ .transformed b f i o') → δ.NotNegZero → ∀ o', o.translate δ = .ok o' → o'.Movable) := by
  refine ⟨mkTransformed_moved hd o (Affine.translate δ), ?_⟩
  intro ho hδ o' e
  have h : o.translate δ = (do
      let bb ← o.bounds
      let bounds ← bb.transform (Affine.translate δ)
      return .transformed bounds (Affine.translate δ) (Affine.translate δ).inverse o) := by
    cases o <;> first | rfl | exact absurd rfl (ho _ _ _ _)
  rw [h] at e
  obtain ⟨bb, -, e⟩ := bind_eq_ok.1 e
  obtain ⟨b, hb, e⟩ := bind_eq_ok.1 e
  cases e
  simp only [Obj.Movable]
  refine ⟨hull_ok _ ?_ b hb, δ, rfl, rfl⟩
  intro v hv
  obtain ⟨p, -, rfl⟩ := List.mem_map.1 hv
  exact hδ.add' _

include hd in
/-- **C75.** `WithCenter`, `WithCenterBottom` at a displaced place. -/
theorem C75_with_center (o : Obj Ext M) (pos : Vec Ext) :
    o.withCenter (pos.add d) = (o.withCenter pos).map (Obj.moved d) ∧
    o.withCenterBottom (pos.add d) = (o.withCenterBottom pos).map (Obj.moved d) := by
  have e : ∀ c : Vec Ext, (pos.add d).sub c = (pos.sub c).add d := by
    intro c
    simp only [Vec.sub, Vec.add, Ext.sub_def, Ext.add_right_comm]
  refine ⟨?_, ?_⟩
  · unfold Obj.withCenter
    rw [map_bind']
    exact bind_congr_ok rfl fun b _ => by rw [e]; exact (C75_translate hd o _).1
  · unfold Obj.withCenterBottom
    rw [map_bind']
    exact bind_congr_ok rfl fun b _ => by rw [e]; exact (C75_translate hd o _).1

/-- **C75.** `PointLight`. -/
theorem C75_point_light (pos : Vec Ext) (hp : pos.NotNegZero) (power : Color Ext) :
    Light.point (pos.add d) power = (Light.point pos power).moved d ∧ (Light.point pos power).Movable := ⟨rfl, hp⟩

include hd in
/-- **C75.** `RectangleLight`. -/
theorem C75_rectangle_light (Srt Srt' : Sorter (Obj Ext (Mat Ext))) (b : Color Ext) (w h : Ext) (c : Vec Ext)
    (hc : c.NotNegZero) :
    Light.rectangleLight Srt' b w h (c.add d) = (Light.rectangleLight Srt b w h c).map (Light.moved d) ∧
      ∀ l, Light.rectangleLight Srt b w h c = .ok l → l.Movable := by
  unfold Light.rectangleLight Light.mkPlanar
  obtain ⟨h1, h2⟩ := C75_rectangle hd Srt Srt'
    (some (Mat.twoSided (.flat b.tex) (.flat (⟨lit 0, lit 0, lit 0⟩ : Color Ext).tex))) w h c hc
  refine ⟨?_, ?_⟩
  · refine map_bind_congr h1 fun r _ => ?_
    simp only [pure_ok, map_ok', Light.moved, Option.getD_none, Obj.moved]
  · intro l e
    obtain ⟨r, hr, e⟩ := bind_eq_ok.1 e
    cases e
    simp only [Light.Movable, Option.getD_none, Obj.Movable]
    exact ⟨hc, h2 r hr, trivial⟩

include hd in
/-- **C75.** `DiskLight`. -/
theorem C75_disk_light (Srt Srt' : Sorter (Obj Ext (Mat Ext))) (b : Color Ext) (diam : Ext) (c : Vec Ext)
    (hc : c.NotNegZero) :
    Light.diskLight Srt' b diam (c.add d) = (Light.diskLight Srt b diam c).map (Light.moved d) ∧
      ∀ l, Light.diskLight Srt b diam c = .ok l → l.Movable := by
  unfold Light.diskLight Light.mkPlanar
  obtain ⟨h1, h2⟩ := C75_rectangle hd Srt Srt'
    (some (Mat.twoSided (.flat b.tex) (.flat (⟨lit 0, lit 0, lit 0⟩ : Color Ext).tex))) diam diam c hc
  refine ⟨?_, ?_⟩
  · refine map_bind_congr h1 fun r _ => ?_
    simp only [pure_ok, map_ok', Light.moved, Option.getD_some, Obj.moved,
      (C75_cylinder (none : Option (Mat Ext)) diam _ c hc).1]
  · intro l e
    obtain ⟨r, hr, e⟩ := bind_eq_ok.1 e
    cases e
    simp only [Light.Movable, Option.getD_some, Obj.Movable]
    exact ⟨hc, h2 r hr, (C75_cylinder (d := d) (none : Option (Mat Ext)) diam _ c hc).2⟩

/-- **C75.** Cameras: translating by a displaced vector. -/
theorem C75_camera (cam : Cam Ext) (δ : Vec Ext) : cam.translate (δ.add d) = (cam.translate δ).moved d := by
  simp only [Cam.translate, Cam.transform, Cam.moved]
  rw [Vec.add_right_comm]

/-- A hollowed-out box next to a lamp, in fog, on a disk, seen by a camera: displaced by (1, -2, 3). -/
example (rng : Rng Ext S) (Srt : Sorter (Obj Ext (Mat Ext))) (mat : Mat Ext) (hm : ∀ d, mat.Placeless d) (lamp : Light Ext)
    (hl : Light.diskLight Srt Color.white (lit 2) ⟨lit 0, lit 5, lit 0⟩ = .ok lamp) (c : Color Ext) :
    let d : Vec Ext := ⟨lit 1, lit (-2), lit 3⟩
    let o : Vec Ext := ⟨lit 0, lit 0, lit 0⟩
    let p : Vec Ext := ⟨lit 1, lit 1, lit 1⟩
    let die : Vec Ext → Vec Ext → Obj Ext (Mat Ext) := fun o p =>
      (Obj.mkBox (some mat) (lit 2) (lit 2) (lit 2) o).difference (Obj.sphere (some mat) (lit 1) p)
    let s : Scene Ext := ⟨[lamp, .point p c], [die o p], [.expFog (lit 1) c (lit 7)], 3⟩
    Light.diskLight Srt Color.white (lit 2) ⟨lit 0 + lit 1, lit 5 + lit (-2), lit 0 + lit 3⟩ = .ok (lamp.moved d) ∧
    ∀ cam : Cam Ext, cam.pos.NotNegZero →
      (⟨[lamp.moved d, .point (p.add d) c], [die (o.add d) (p.add d)], [.expFog (lit 1) c (lit 7 + lit (-2))], 3⟩ :
        Scene Ext).imageFunc rng (cam.moved d) = s.imageFunc rng cam := by
  dsimp only
  have nn : ∀ q : ℚ, (lit q : Ext).NotNegZero := by intro q; simp [Ext.NotNegZero]
  have ff : ∀ q : ℚ, (lit q : Ext).Finite := by intro q; simp [Ext.Finite]
  have hd : (⟨lit 1, lit (-2), lit 3⟩ : Vec Ext).Finite := ⟨ff _, ff _, ff _⟩
  have ho : (⟨lit 0, lit 0, lit 0⟩ : Vec Ext).NotNegZero := ⟨nn _, nn _, nn _⟩
  have hp : (⟨lit 1, lit 1, lit 1⟩ : Vec Ext).NotNegZero := ⟨nn _, nn _, nn _⟩
  have h5 : (⟨lit 0, lit 5, lit 0⟩ : Vec Ext).NotNegZero := ⟨nn _, nn _, nn _⟩
  obtain ⟨l1, l2⟩ := C75_disk_light hd Srt Srt Color.white (lit 2) ⟨lit 0, lit 5, lit 0⟩ h5
  refine ⟨by rw [hl] at l1; exact l1, ?_⟩
  intro cam hc
  obtain ⟨b1, b2⟩ := C75_box (d := ⟨lit 1, lit (-2), lit 3⟩) (some mat) (lit 2) (lit 2) (lit 2) _ ho
  obtain ⟨s1, s2⟩ := C75_sphere (d := ⟨lit 1, lit (-2), lit 3⟩) (some mat) (lit 1) _ hp
  have hdie := C75_csg (d := ⟨lit 1, lit (-2), lit 3⟩) (some mat) _ _ b2 s2
  refine Eq.trans ?_ (C75_image_partial hd rng _ ?_ cam hc)
  · simp only [Scene.moved, List.map_cons, List.map_nil, hdie.2.2.2.2.2.2.1, b1, s1]
    rfl
  · constructor
    · intro o ho
      rw [List.mem_singleton] at ho
      subst ho
      refine ⟨hdie.2.2.2.2.2.2.2.1, ?_⟩
      simp only [Obj.difference, Obj.AllMat, Obj.mkBox, Obj.sphere, Obj.sphereQ]
      exact ⟨by rintro x ⟨⟩; exact hm _, by rintro x ⟨⟩; exact hm _⟩
    · intro l h
      simp only [List.mem_cons, List.not_mem_nil, or_false] at h
      rcases h with rfl | rfl
      · refine ⟨l2 _ hl, ?_⟩
        obtain ⟨r, hr, e⟩ := bind_eq_ok.1 hl
        cases e
        simp only [Light.object, Obj.AllMat]
        obtain ⟨vs, -, hr⟩ := bind_eq_ok.1 hr
        obtain ⟨fs, -, hr⟩ := bind_eq_ok.1 hr
        obtain ⟨os, -, hr⟩ := bind_eq_ok.1 hr
        obtain ⟨t, -, hr⟩ := bind_eq_ok.1 hr
        cases hr
        simp only [Obj.AllMat]
        rintro x ⟨⟩
        exact ⟨trivial, trivial⟩
      · refine ⟨hp, ?_⟩
        simp only [Light.object, Obj.AllMat]
        rintro r h e x hx
        cases e
        cases hx

end BR
