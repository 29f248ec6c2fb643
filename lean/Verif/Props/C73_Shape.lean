import Verif.Lemmas.MapMat
import Verif.Num.Ext
import Mathlib.Tactic.NormNum

/-! C73: materials do not change geometry. No property of the number type is used. -/

namespace BR
set_option linter.unusedSectionVars false

variable {F M N : Type} [Add F] [Sub F] [Mul F] [Div F] [Neg F] [GoFloat F]

namespace Shape

theorem isect_bare (o : Obj F M) (r : Ray F) :
    (o.intersect r).map (fun a => (a.1.geometry, a.2)) = (o.bare.intersect r).map fun a => (a.1.geometry, a.2) := by
  rw [Obj.bare, Obj.intersect_mapOpt (fun _ => none) rfl o r, map_map']
  rfl

end Shape

open Shape

/-- **C73.** Two objects of the same shape, whatever their materials (nil included), report hits at the same distance
with the same normal and local coordinates, miss the same rays and panic on the same rays. -/
theorem C73_hits (o : Obj F M) (o' : Obj F N) (h : o.bare = o'.bare) (r : Ray F) :
    (o'.intersect r).map (fun a => (a.1.geometry, a.2)) = (o.intersect r).map fun a => (a.1.geometry, a.2) := by
  rw [isect_bare o', isect_bare o, h]

/-- **C73.** They contain the same points and have the same bounding box. -/
theorem C73_inside (o : Obj F M) (o' : Obj F N) (h : o.bare = o'.bare) :
    (∀ p, o'.inside p = o.inside p) ∧ o'.bounds = o.bounds := by
  have hi : ∀ {M : Type} (o : Obj F M) p, o.bare.inside p = o.inside p := fun o p => Obj.inside_mapOpt _ o p
  have hb : ∀ {M : Type} (o : Obj F M), o.bare.bounds = o.bounds := fun o => Obj.bounds_mapOpt _ o
  exact ⟨fun p => by rw [← hi o', ← hi o, h], by rw [← hb o', ← hb o, h]⟩

/-- **C73.** `WithMaterial` keeps the geometry, and every record has the new material. -/
theorem C73_with_material (m : Option M) (o : Obj F M) (r : Ray F) :
    ((Obj.withMaterial m o).intersect r).map (fun a => (a.1.geometry, a.1.mat, a.2)) =
      (o.intersect r).map (fun a => (a.1.geometry, m, a.2)) ∧
    (∀ p, (Obj.withMaterial m o).inside p = o.inside p) ∧ (Obj.withMaterial m o).bounds = o.bounds := by
  refine ⟨?_, fun p => by rw [Obj.inside], by rw [Obj.bounds]⟩
  rw [Obj.intersect, map_bind']
  cases o.intersect r <;> rfl

/-- **C73.** Meshes made with different materials have the same shape; a panic does not depend on the material. -/
theorem C73_mesh (Srt : Sorter (Obj F M)) (m m' : Option M) (vs : List (Vec F)) (idx : List (Int × Int × Int))
    (uv : Option (List (F × F))) :
    (meshWithUV Srt m' vs idx uv).map Obj.bare = (meshWithUV Srt m vs idx uv).map Obj.bare := by
  have e := meshWithUV_mapOpt (fun _ => m') Srt m vs idx uv
  rw [e, map_map']
  refine congrArg (fun f => Except.map f _) (funext fun o => ?_)
  rw [Obj.bare, Obj.mapOpt_mapOpt]; rfl

/-- **C73.** Solids made with different materials have the same shape. -/
theorem C73_solids (m m' : Option M) (w h d : F) (c : Vec F) :
    (Obj.mkBox m' w h d c).bare = (Obj.mkBox m w h d c).bare ∧
    (Obj.sphere m' d c).bare = (Obj.sphere m d c).bare ∧
    (Obj.cylinder m' d h c).bare = (Obj.cylinder m d h c).bare ∧
    (Obj.cylinderWithCaps m' d h c).bare = (Obj.cylinderWithCaps m d h c).bare ∧
    (∀ dir, (Obj.quadric (Obj.cylinderDirQ m' dir d h c)).bare = (Obj.quadric (Obj.cylinderDirQ m dir d h c)).bare) ∧
    ∀ fuel f, (Obj.isoSurface fuel m' w h d f).bare = (Obj.isoSurface fuel m w h d f).bare := by
  refine ⟨rfl, rfl, rfl, ?_, fun _ => rfl, fun _ _ => rfl⟩
  simp only [Obj.cylinderWithCaps, Obj.bare, Obj.mapOpt]
  rfl

namespace Shape

theorem frontmost_bare (os : List (Obj F (Mat F))) (front : HitRecord F (Mat F)) (r : Ray F) :
    ∀ (os' : List (Obj F (Mat F))) (front' : HitRecord F (Mat F)), os.map Obj.bare = os'.map Obj.bare →
      front'.geometry = front.geometry →
      (intersectLoop os' front' r).map (fun a => a.1.geometry) = (intersectLoop os front r).map fun a => a.1.geometry := by
  induction os generalizing front with
  | nil =>
    intro os' front' h hf
    obtain rfl : os' = [] := by simpa using h.symm
    simp only [intersectLoop, map_ok', hf]
  | cons o os ih =>
    intro os' front' h hf
    cases os' with
    | nil => simp at h
    | cons o' os' =>
      simp only [List.map_cons, List.cons.injEq] at h
      rw [intersectLoop, intersectLoop, map_bind', map_bind']
      have e := C73_hits o o' h.1 r
      cases e1 : o.intersect r with
      | error x =>
        cases e2 : o'.intersect r with
        | error x' => rw [e1, e2] at e; cases e; rfl
        | ok a' => rw [e1, e2] at e; cases e
      | ok a =>
        cases e2 : o'.intersect r with
        | error x' => rw [e1, e2] at e; cases e
        | ok a' =>
          rw [e1, e2] at e
          simp only [map_ok', Except.ok.injEq, Prod.mk.injEq] at e
          obtain ⟨a1, r1⟩ := a
          obtain ⟨a2, r2⟩ := a'
          obtain ⟨eg, er⟩ := e
          dsimp only at eg er
          obtain rfl := Obj.intersect_keeps o r a1 r1 e1
          rw [er]
          rw [ok_bind, ok_bind]
          have et : a2.t = a1.t := congrArg (fun g => g.1) eg
          have ft : front'.t = front.t := congrArg (fun g => g.1) hf
          refine ih _ _ _ h.2 ?_
          rw [et, ft]
          split
          · exact eg
          · exact hf

end Shape

/-- **C73.** Recolouring the objects of a scene does not change which surface point each ray sees first, nor its normal
and local coordinates. -/
theorem C73_frontmost (os os' : List (Obj F (Mat F))) (h : os.map Obj.bare = os'.map Obj.bare) (r : Ray F) :
    (intersectFrontmost os' r).map (fun a => a.1.geometry) = (intersectFrontmost os r).map fun a => a.1.geometry :=
  frontmost_bare os _ r os' _ h rfl

/-- A white and a mirrored ball, and a ball without material, in a union with a box: the same shape. -/
example (a b : Mat F) (d : F) (c : Vec F) : (Obj.or (.sphere (some a) d c) (.mkBox (some b) d d d c)).bare =
    (Obj.or (.sphere none d c) (.mkBox (some a) d d d c)).bare := by
  simp only [Obj.bare, Obj.mapOpt, Obj.sphere, Obj.sphereQ, Obj.mkBox]

end BR
