import Verif.Lemmas.Transform
import Verif.Lemmas.Object
import Verif.Props.C19_BoxTest

/-! C29: transformed objects. -/

namespace BR

set_option linter.unusedSectionVars false

section any

variable {F M : Type} [Add F] [Sub F] [Mul F] [Div F] [Neg F] [GoFloat F]

/-- Not a transformed instance itself. -/
def Obj.Plain (o : Obj F M) : Prop := ∀ b f i u, o ≠ .transformed b f i u

/-- A transformed instance as made by the constructor: of a plain object, with the inverse of its
transform and the box of the transformed bounds. (Other objects: no condition.) -/
def Obj.Placed (o : Obj F M) : Prop :=
  ∀ b f i u, o = .transformed b f i u →
    u.Plain ∧ i = f.inverse ∧ ∃ bb, u.bounds = .ok bb ∧ bb.transform f = .ok b

/-- The ray that the inverse transform makes of `r`. -/
def Affine.pullRay (t : Affine F) (r : Ray F) : Ray F := ⟨t.inverse.point r.start, t.inverse.dir r.dir⟩

theorem Obj.mkTransformed_plain (o : Obj F M) (hp : o.Plain) (t : Affine F) :
    o.mkTransformed t = do
      let bb ← o.bounds
      let bounds ← bb.transform t
      return .transformed bounds t t.inverse o := by
  cases o with
  | transformed b f i u => exact absurd rfl (hp b f i u)
  | _ => rfl

theorem Obj.mkTransformed_ok (o o' : Obj F M) (hp : o.Plain) (t : Affine F)
    (e : o.mkTransformed t = .ok o') :
    ∃ bb b, o.bounds = .ok bb ∧ bb.transform t = .ok b ∧ o' = .transformed b t t.inverse o := by
  rw [o.mkTransformed_plain hp] at e
  obtain ⟨bb, h1, e⟩ := bind_eq_ok.1 e
  obtain ⟨b, h2, e⟩ := bind_eq_ok.1 e
  cases e
  exact ⟨bb, b, h1, h2, rfl⟩

/-- What the constructor returns is again a transformed instance of a plain object, so that every
transformed object in a scene is one. -/
theorem C29_placed (o o' : Obj F M) (hp : o.Placed) (t : Affine F) (e : o.mkTransformed t = .ok o') :
    o'.Placed := by
  have plain : ∀ (u : Obj F M) (s : Affine F), u.Plain → u.mkTransformed s = .ok o' → o'.Placed := by
    intro u s hu e
    obtain ⟨bb, b, h1, h2, rfl⟩ := u.mkTransformed_ok o' hu s e
    intro b' f i u' h
    cases h
    exact ⟨hu, rfl, bb, h1, h2⟩
  by_cases hpl : o.Plain
  · exact plain o t hpl e
  · simp only [Obj.Plain, ne_eq, not_forall, not_not] at hpl
    obtain ⟨b, f, i, u, rfl⟩ := hpl
    exact plain u _ (hp _ _ _ _ rfl).1 e

/-- A point is inside the transformed object exactly when its preimage is inside the original. -/
theorem C29_inside (o o' : Obj F M) (hp : o.Plain) (t : Affine F) (e : o.mkTransformed t = .ok o')
    (p : Vec F) : o'.inside p = o.inside (t.inverse.point p) := by
  obtain ⟨bb, b, -, -, rfl⟩ := o.mkTransformed_ok o' hp t e
  rw [Obj.inside]

/-- A hit on the transformed object is a hit of the inverse-transformed ray on the original at the
same distance, with the normal transformed, and the same material and local coordinates. -/
theorem C29_hit (o o' : Obj F M) (hp : o.Plain) (t : Affine F) (e : o.mkTransformed t = .ok o')
    (r r' : Ray F) (h : HitRecord F M) (eh : o'.intersect r = .ok (h, r')) (hh : h ≠ HitRecord.miss) :
    ∃ h0 r0, o.intersect (t.pullRay r) = .ok (h0, r0) ∧ h.t = h0.t ∧ h.normal = t.dir h0.normal ∧
      h.mat = h0.mat ∧ h.loc = h0.loc ∧ r' = r := by
  obtain ⟨bb, b, -, -, rfl⟩ := o.mkTransformed_ok o' hp t e
  rw [Obj.intersect] at eh
  split at eh
  · cases eh; exact absurd rfl hh
  · obtain ⟨⟨h0, r0⟩, e0, e1⟩ := bind_eq_ok.1 eh
    cases e1
    exact ⟨h0, r0, e0, rfl, rfl, rfl, rfl, rfl⟩

/-- Transforming twice is transforming by the composition. -/
theorem C29_twice (o o1 : Obj F M) (hp : o.Plain) (t1 t2 : Affine F) (e : o.mkTransformed t1 = .ok o1) :
    o1.mkTransformed t2 = o.mkTransformed (t1.before t2) := by
  obtain ⟨bb, b, -, -, rfl⟩ := o.mkTransformed_ok o1 hp t1 e
  rw [Obj.mkTransformed]

end any

variable {M : Type}

/-- The same for objects that are transformed already, in exact arithmetic. -/
theorem C29_twice_any (o o1 : Obj ℝ M) (hp : o.Placed) (t1 t2 : Affine ℝ)
    (e : o.mkTransformed t1 = .ok o1) : o1.mkTransformed t2 = o.mkTransformed (t1.before t2) := by
  by_cases hpl : o.Plain
  · exact C29_twice o o1 hpl t1 t2 e
  · simp only [Obj.Plain, ne_eq, not_forall, not_not] at hpl
    obtain ⟨b, f, i, u, rfl⟩ := hpl
    have hu := (hp _ _ _ _ rfl).1
    rw [Obj.mkTransformed] at e ⊢
    rw [C29_twice u o1 hu _ t2 e, C27_before_assoc]

/-- In exact arithmetic, for an invertible transform: the image of a point is inside the transformed
object exactly when the point is inside the original. This also holds for originals that are
transformed objects. -/
theorem C29_inside_image (o o' : Obj ℝ M) (hp : o.Placed)
    (hi : ∀ b f i u, o = .transformed b f i u → f.A.det ≠ 0) (t : Affine ℝ) (ht : t.A.det ≠ 0)
    (e : o.mkTransformed t = .ok o') (p : Vec ℝ) : o'.inside (t.point p) = o.inside p := by
  by_cases hpl : o.Plain
  · rw [C29_inside o o' hpl t e, (C27_inverse_point t ht p).1]
  · simp only [Obj.Plain, ne_eq, not_forall, not_not] at hpl
    obtain ⟨b, f, i, u, rfl⟩ := hpl
    obtain ⟨hu, rfl, -⟩ := hp _ _ _ _ rfl
    have hf := hi _ _ _ _ rfl
    rw [Obj.mkTransformed] at e
    rw [C29_inside u o' hu _ e, Obj.inside]
    congr 1
    have hd : (f.before t).A.det ≠ 0 := by
      rw [Affine.before, Matrix.det_mul]; exact mul_ne_zero ht hf
    have h1 := (C27_inverse_point (f.before t) hd (f.inverse.point p)).1
    rw [C27_before_point, (C27_inverse_point f hf p).2] at h1
    exact h1

/-- The point at distance `s` along a ray is the image of the point at distance `s` along the
inverse-transformed ray: the hits of `C29_hit` correspond. -/
theorem C29_points (t : Affine ℝ) (ht : t.A.det ≠ 0) (r : Ray ℝ) (s : ℝ) :
    r.at s = t.point ((t.pullRay r).at s) := by
  have h1 := (C27_inverse_point t ht r.start).2
  have h2 := (C27_inverse_dir t ht r.dir).2
  have : t.point ((t.pullRay r).at s)
      = (t.point (t.inverse.point r.start)).madd s (t.dir (t.inverse.dir r.dir)) := by
    simp only [Affine.pullRay, Ray.at, geo]; refine ⟨?_, ?_, ?_⟩ <;> ring
  rw [this, h1, h2]
  rfl

/-- Conversely, nothing is lost: if the inverse-transformed ray meets the bounds of the original in
front of its start, then intersecting the transformed object is intersecting the original. The
exceptions are those of the box test (C19): a ray that starts on the surface of the transformed
bounds, or runs in the plane of one of its faces. -/
theorem C29_complete (o o' : Obj Ext M) (hp : o.Plain) (t : Affine Ext) (T : Affine ℝ) (ht : t.Is T)
    (hd : T.A.det ≠ 0) (e : o.mkTransformed t = .ok o') (b : BBox Ext) (B : BBox ℝ)
    (hb : o.bounds = .ok b) (hbB : b.Is B) (r : Ray Ext) (R : Ray ℝ) (hr : r.Is R)
    (hdir : R.dir ≠ ⟨0, 0, 0⟩) (B' : BBox ℝ) (hB' : B.transform T = .ok B')
    (hn : B'.NotInFace R) (hs : ¬ B'.OnSurface R.start)
    (hm : ∃ s > 0, B.Mem ((T.pullRay R).at s)) :
    o'.intersect r = (do
      let (h, _) ← o.intersect (t.pullRay r)
      return ({ h with normal := t.dir h.normal }, r)) := by
  obtain ⟨bb, b', h1, h2, rfl⟩ := o.mkTransformed_ok o' hp t e
  rw [hb] at h1; cases h1
  obtain ⟨b1, B1, e1, e2, hi⟩ := BBox.transform_is hbB ht
  rw [e1] at h2; cases h2
  rw [hB'] at e2; cases e2
  obtain ⟨B2, e3, -, himg, -⟩ := B.transform_real T
  rw [hB'] at e3; cases e3
  have : b'.intersects r = true := by
    rw [C19_off_surface b' B' hi (BBox.transform_proper hB') r R hr hdir hn hs]
    obtain ⟨s, hs, hm⟩ := hm
    refine ⟨s, hs, ?_⟩
    rw [C29_points T hd R s]
    exact himg _ hm
  rw [Obj.intersect, this]
  rfl

/-! ## Non-vacuity -/

/-- A box, doubled and moved: the constructor succeeds, and again for the result. -/
example : ∃ o1 o2 : Obj ℝ Unit,
    (Obj.box ⟨⟨0, 0, 0⟩, ⟨1, 1, 1⟩⟩ none : Obj ℝ Unit).mkTransformed (Affine.scale Vec.zero 2) = .ok o1 ∧
    o1.mkTransformed (Affine.translate ⟨1, 2, 3⟩) = .ok o2 ∧ o1.Placed ∧
    (Affine.translate ⟨1, 2, 3⟩ : Affine ℝ).A.det ≠ 0 := by
  have hpl : (Obj.box ⟨⟨0, 0, 0⟩, ⟨1, 1, 1⟩⟩ none : Obj ℝ Unit).Plain := fun _ _ _ _ h => by cases h
  have hex : ∀ t, ∃ o1, (Obj.box ⟨⟨0, 0, 0⟩, ⟨1, 1, 1⟩⟩ none : Obj ℝ Unit).mkTransformed t = .ok o1 := by
    intro t
    obtain ⟨B', e, -⟩ := BBox.transform_real ⟨⟨0, 0, 0⟩, ⟨1, 1, 1⟩⟩ t
    exact ⟨.transformed B' t t.inverse _, by rw [Obj.mkTransformed_plain _ hpl, Obj.bounds, ok_bind, e]; rfl⟩
  obtain ⟨o1, e1⟩ := hex (Affine.scale Vec.zero 2)
  obtain ⟨o2, e2⟩ := hex ((Affine.scale Vec.zero 2).before (Affine.translate ⟨1, 2, 3⟩))
  refine ⟨o1, o2, e1, ?_, C29_placed _ _ (fun _ _ _ _ h => by cases h) _ e1, ?_⟩
  · rw [C29_twice _ o1 hpl _ _ e1]; exact e2
  · simp only [geo, lit_real]; norm_num

end BR
