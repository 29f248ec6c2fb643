import Verif.Lemmas.Scene
import Verif.Num.Real
import Mathlib.Data.List.Perm.Basic

/-! C14: shadow rays. The first three theorems hold for every number type. -/

namespace BR
set_option linter.unusedSectionVars false

section

variable {F : Type} [Add F] [Sub F] [Mul F] [Div F] [Neg F] [GoFloat F]

/-- The record lies strictly between the start of the shadow ray and its end. -/
def Between (len : F) (h : HitRecord F (Mat F)) : Prop := (h.t >. lit 0) = true ∧ (h.t <. len) = true

/-- The surface is made of the transparent material. -/
def IsTransparent (h : HitRecord F (Mat F)) : Prop := ∃ tex b, h.mat = some (.transparent tex b)

/-- The surface is transparent and its texture has colour `c` at the hit point. -/
def Tints (h : HitRecord F (Mat F)) (c : Color F) : Prop :=
  ∃ tex b, h.mat = some (.transparent tex b) ∧ tex h.loc = .ok c

/-- The objects with the record each of them reports for the ray. -/
abbrev Hits (r : Ray F) := List {p : Obj F (Mat F) × HitRecord F (Mat F) //
  ∃ r', p.1.intersect r = .ok (p.2, r')}

/-- The objects. -/
def Hits.objs {r : Ray F} (l : Hits r) : List (Obj F (Mat F)) := l.map fun p => p.1.1

private theorem filter_none {m : Option (Mat F)} (h : ¬ ∃ tex b, m = some (.transparent tex b)) :
    Mat.filter? m = none := by
  unfold Mat.filter?
  split
  · rename_i tex b; exact absurd ⟨tex, b, rfl⟩ h
  · rfl

private theorem step0 {r r' : Ray F} {o : Obj F (Mat F)} {h : HitRecord F (Mat F)}
    (e : o.intersect r = .ok (h, r')) (os : List (Obj F (Mat F))) (len : F) (orig : Color F) :
    occludeLoop (o :: os) len orig r =
      if h.t >. lit 0 && h.t <. len then
        match Mat.filter? h.mat with
        | some flt => flt h.loc orig >>= fun c => occludeLoop os len c r
        | none => .ok (Color.black, r)
      else occludeLoop os len orig r := by
  obtain rfl := o.intersect_keeps r h r' e
  rw [occludeLoop, e, ok_bind]
  rfl

private theorem step {r : Ray F} (p : {p : Obj F (Mat F) × HitRecord F (Mat F) //
    ∃ r', p.1.intersect r = .ok (p.2, r')}) (os : List (Obj F (Mat F))) (len : F) (orig : Color F) :
    occludeLoop (p.1.1 :: os) len orig r =
      if p.1.2.t >. lit 0 && p.1.2.t <. len then
        match Mat.filter? p.1.2.mat with
        | some flt => flt p.1.2.loc orig >>= fun c => occludeLoop os len c r
        | none => .ok (Color.black, r)
      else occludeLoop os len orig r := by
  obtain ⟨r', e⟩ := p.2
  exact step0 e os len orig

/-- **C14, opaque objects block.** If some object reports a record between the start and the
light whose material is not transparent, the light is blocked completely (whatever the other
objects are, as long as the textures of transparent ones can be evaluated). -/
theorem C14_blocked (s : Scene F) (r : Ray F) (len : F) (orig : Color F) (l : Hits r)
    (hs : s.objects = l.objs) (hb : ∃ p ∈ l, Between len p.1.2 ∧ ¬ IsTransparent p.1.2)
    (ht : ∀ p ∈ l, Between len p.1.2 → IsTransparent p.1.2 → ∃ c, Tints p.1.2 c) :
    s.occlude r len orig = .ok (Color.black, r) := by
  rw [Scene.occlude, hs]
  clear hs
  induction l generalizing orig with
  | nil => simp at hb
  | cons p l ih =>
    change occludeLoop (p.1.1 :: Hits.objs l) len orig r = _
    rw [step]
    by_cases hbt : Between len p.1.2
    · rw [if_pos (by simp [hbt.1, hbt.2])]
      by_cases htr : IsTransparent p.1.2
      · obtain ⟨c, tex, b, hm, hc⟩ := ht p (by simp) hbt htr
        simp only [hm, Mat.filter?, hc, ok_bind, pure_bind']
        refine ih _ ?_ fun q hq => ht q (by simp [hq])
        obtain ⟨q, hq, h1, h2⟩ := hb
        rcases List.mem_cons.1 hq with rfl | hq
        · exact absurd htr h2
        · exact ⟨q, hq, h1, h2⟩
      · rw [filter_none htr]
    · rw [if_neg (by rw [Bool.and_eq_true]; exact hbt)]
      refine ih _ ?_ fun q hq => ht q (by simp [hq])
      obtain ⟨q, hq, h1, h2⟩ := hb
      rcases List.mem_cons.1 hq with rfl | hq
      · exact absurd h1 hbt
      · exact ⟨q, hq, h1, h2⟩

/-- **C14, transparent objects attenuate.** If all records in between are transparent, the light
is multiplied by the colour of each of them, once per object, and by nothing else. -/
theorem C14_attenuated (s : Scene F) (r : Ray F) (len : F) (orig : Color F) (l : Hits r)
    (hs : s.objects = l.objs) (tint : HitRecord F (Mat F) → Color F)
    (ht : ∀ p ∈ l, Between len p.1.2 → Tints p.1.2 (tint p.1.2)) :
    s.occlude r len orig = .ok
      (((l.map fun p => p.1.2).filter (fun h => h.t >. lit 0 && h.t <. len)).foldl
        (fun c h => c.mul3 (tint h)) orig, r) := by
  rw [Scene.occlude, hs]
  clear hs
  induction l generalizing orig with
  | nil => rfl
  | cons p l ih =>
    change occludeLoop (p.1.1 :: Hits.objs l) len orig r = _
    rw [step, List.map_cons]
    by_cases hbt : Between len p.1.2
    · have hc : (p.1.2.t >. lit 0 && p.1.2.t <. len) = true := by simp [hbt.1, hbt.2]
      rw [if_pos hc, List.filter_cons_of_pos (by exact hc)]
      obtain ⟨tex, b, hm, hc⟩ := ht p (by simp) hbt
      simp only [hm, Mat.filter?, hc, ok_bind, pure_bind']
      rw [ih _ fun q hq => ht q (by simp [hq])]
      rfl
    · have hc : ¬ (p.1.2.t >. lit 0 && p.1.2.t <. len) = true := by rw [Bool.and_eq_true]; exact hbt
      rw [if_neg hc, List.filter_cons_of_neg (by exact hc)]
      exact ih _ fun q hq => ht q (by simp [hq])

private theorem loop_append (xs ys zs : List (Obj F (Mat F))) (len : F) (r : Ray F)
    (h : ∀ c, occludeLoop ys len c r = occludeLoop zs len c r) (orig : Color F) :
    occludeLoop (xs ++ ys) len orig r = occludeLoop (xs ++ zs) len orig r := by
  induction xs generalizing orig with
  | nil => exact h orig
  | cons o xs ih =>
    rw [List.cons_append, List.cons_append, occludeLoop, occludeLoop]
    refine bind_congr_ok rfl fun ⟨f, r'⟩ e => ?_
    obtain rfl := o.intersect_keeps r f r' e
    dsimp only
    split
    · cases Mat.filter? f.mat with
      | none => rfl
      | some flt => exact bind_congr_ok rfl fun c _ => ih c
    · exact ih orig

/-- **C14, objects elsewhere do not matter.** An object whose record is not in between (behind the
light, behind the start, missed, or at a NaN distance) can be added or removed anywhere. -/
theorem C14_behind (s s' : Scene F) (r r' : Ray F) (len : F) (orig : Color F)
    (before after : List (Obj F (Mat F))) (o : Obj F (Mat F)) (h : HitRecord F (Mat F))
    (hs : s.objects = before ++ o :: after) (hs' : s'.objects = before ++ after)
    (e : o.intersect r = .ok (h, r')) (hn : ¬ Between len h) :
    s.occlude r len orig = s'.occlude r len orig := by
  rw [Scene.occlude, Scene.occlude, hs, hs']
  refine loop_append _ _ _ _ _ (fun c => ?_) _
  have := step ⟨(o, h), r', e⟩ after len c
  dsimp only at this
  rw [this, if_neg (by rw [Bool.and_eq_true]; exact hn)]

/-- **C14, order.** The result does not depend on the order of the objects, provided that the
factors of a product may be exchanged, textures can be evaluated and no object panics. -/
theorem C14_order (hcomm : ∀ a b c : F, a * b * c = a * c * b) (s s' : Scene F) (r : Ray F) (len : F)
    (orig : Color F) (l : Hits r) (hs : s.objects = l.objs) (hp : s'.objects.Perm s.objects)
    (ht : ∀ p ∈ l, Between len p.1.2 → IsTransparent p.1.2 → ∃ c, Tints p.1.2 c) :
    s'.occlude r len orig = s.occlude r len orig := by
  rw [Scene.occlude, Scene.occlude]
  have hall : ∀ o ∈ s'.objects, ∃ h r', o.intersect r = .ok (h, r') ∧
      (Between len h → IsTransparent h → ∃ c, Tints h c) := by
    intro o ho
    have ho := hp.mem_iff.1 ho
    rw [hs, Hits.objs, List.mem_map] at ho
    obtain ⟨p, hpm, rfl⟩ := ho
    obtain ⟨r', e⟩ := p.2
    exact ⟨_, r', e, ht p hpm⟩
  clear hs ht
  generalize s'.objects = xs at *
  generalize s.objects = ys at *
  clear l
  induction hp generalizing orig with
  | nil => rfl
  | @cons o xs ys _ ih =>
    exact loop_append [o] xs ys len r (fun c => ih c fun o ho => hall o (by simp [ho])) orig
  | trans p1 _ ih1 ih2 => rw [ih1 _ hall, ih2 _ fun o ho => hall o (p1.mem_iff.2 ho)]
  | swap a b l =>
    obtain ⟨ha, ra, ea, ta⟩ := hall a (by simp)
    obtain ⟨hb, rb, eb, tb⟩ := hall b (by simp)
    have sa := fun os c => step ⟨(a, ha), ra, ea⟩ os len c
    have sb := fun os c => step ⟨(b, hb), rb, eb⟩ os len c
    dsimp only at sa sb
    rw [sa, sb]
    simp only [sa, sb]
    by_cases ba : Between len ha
    · have ca : (ha.t >. lit 0 && ha.t <. len) = true := by simp [ba.1, ba.2]
      by_cases bb : Between len hb
      · have cb : (hb.t >. lit 0 && hb.t <. len) = true := by simp [bb.1, bb.2]
        rw [if_pos ca, if_pos cb]
        simp only [if_pos ca, if_pos cb]
        by_cases tra : IsTransparent ha
        · obtain ⟨c1, tex1, b1, m1, x1⟩ := ta ba tra
          by_cases trb : IsTransparent hb
          · obtain ⟨c2, tex2, b2, m2, x2⟩ := tb bb trb
            simp only [m1, m2, Mat.filter?, x1, x2, ok_bind, pure_bind']
            congr 1
            simp only [Color.mul3, hcomm _ c1.R, hcomm _ c1.G, hcomm _ c1.B]
          · rw [filter_none trb]
            simp only [m1, Mat.filter?, x1, ok_bind, pure_bind']
        · rw [filter_none tra]
          by_cases trb : IsTransparent hb
          · obtain ⟨c2, tex2, b2, m2, x2⟩ := tb bb trb
            simp only [m2, Mat.filter?, x2, ok_bind, pure_bind']
          · rw [filter_none trb]
      · have cb : ¬ (hb.t >. lit 0 && hb.t <. len) = true := by rw [Bool.and_eq_true]; exact bb
        simp only [if_neg cb]
    · have ca : ¬ (ha.t >. lit 0 && ha.t <. len) = true := by rw [Bool.and_eq_true]; exact ba
      simp only [if_neg ca]

end

/-! ## Concrete cases -/

/-- A pane of half-transparent glass in front of an opaque wall, seen along a diagonal. -/
noncomputable def glassBox : Obj ℝ (Mat ℝ) :=
  .box ⟨⟨-2, -2, -2⟩, ⟨-1, -1, -1⟩⟩ (some (.transparent (fun _ => .ok ⟨1 / 2, 1 / 2, 1 / 2⟩) true))
@[inherit_doc glassBox] noncomputable def wallBox : Obj ℝ (Mat ℝ) :=
  .box ⟨⟨1, 1, 1⟩, ⟨2, 2, 2⟩⟩ (some (.flat (fun _ => .ok ⟨1, 1, 1⟩)))
@[inherit_doc glassBox] noncomputable def diagRay : Ray ℝ := ⟨⟨-5, -5, -5⟩, ⟨1, 1, 1⟩⟩

theorem glassBox_hit : glassBox.intersect diagRay = .ok (⟨3, ⟨-1, -0, -0⟩, ⟨0, 0, 0⟩,
    some (.transparent (fun _ => .ok ⟨1 / 2, 1 / 2, 1 / 2⟩) true)⟩, diagRay) := by
  simp only [glassBox, diagRay, Obj.intersect, BBox.hit, BBox.intersect, BBox.tenTex, BBox.slab, BBox.max3,
    BBox.min3, fmin, fmax, lit_real, lt_real, BBox.normal, BBox.approx, Ray.at, Vec.madd, Vec.sub,
    Vec.ex, Vec.mul, abs_real, pure_ok]
  norm_num [ok_bind]

theorem wallBox_hit : wallBox.intersect diagRay = .ok (⟨6, ⟨-1, -0, -0⟩, ⟨0, 0, 0⟩,
    some (.flat (fun _ => .ok ⟨1, 1, 1⟩))⟩, diagRay) := by
  simp only [wallBox, diagRay, Obj.intersect, BBox.hit, BBox.intersect, BBox.tenTex, BBox.slab, BBox.max3,
    BBox.min3, fmin, fmax, lit_real, lt_real, BBox.normal, BBox.approx, Ray.at, Vec.madd, Vec.sub,
    Vec.ex, Vec.mul, abs_real, pure_ok]
  norm_num [ok_bind]

/-- The hypotheses of the theorems are met by glass and wall, in either order, with the light at
distance 20 behind the wall (blocked) or at distance 5 between them (attenuated). -/
example :
    let l : Hits diagRay := [⟨(glassBox, _), _, glassBox_hit⟩, ⟨(wallBox, _), _, wallBox_hit⟩]
    (∃ p ∈ l, Between 20 p.1.2 ∧ ¬ IsTransparent p.1.2) ∧
    (∀ p ∈ l, Between 20 p.1.2 → IsTransparent p.1.2 → ∃ c, Tints p.1.2 c) ∧
    (∀ p ∈ l, Between 5 p.1.2 → Tints p.1.2 ⟨1 / 2, 1 / 2, 1 / 2⟩) := by
  intro l
  refine ⟨⟨_, List.mem_cons_of_mem _ (List.mem_singleton_self _), ?_, ?_⟩, ?_, ?_⟩
  · simp [Between]; norm_num
  · simp [IsTransparent]
  · intro p hp _ ht
    simp only [l, List.mem_cons, List.not_mem_nil, or_false] at hp
    rcases hp with rfl | rfl
    · exact ⟨_, _, _, rfl, rfl⟩
    · simp [IsTransparent] at ht
  · intro p hp hb
    simp only [l, List.mem_cons, List.not_mem_nil, or_false] at hp
    rcases hp with rfl | rfl
    · exact ⟨_, _, rfl, rfl⟩
    · simp [Between] at hb; norm_num at hb

/-- The two boxes in a tree. -/
noncomputable def boxTree : Obj ℝ (Mat ℝ) := .tree (.leaf ⟨⟨-2, -2, -2⟩, ⟨2, 2, 2⟩⟩ [glassBox, wallBox])

/-- `boxTree` is what `Tree(glass, wall)` builds. -/
theorem boxTree_built (S : Sorter (Obj ℝ (Mat ℝ))) :
    mkTree S [glassBox, wallBox] = .ok (boxTree, [glassBox, wallBox]) := by
  rw [mkTree, buildTree]
  simp [maxFacePerLeaf, makeBoundingBox, glassBox, wallBox, Obj.bounds, BBox.fromHull, BBox.hullStep,
    checkNaNVec, BBox.lower, BBox.upper, ok_bind, pure_ok, boxTree, BBox.toF]
  norm_num [ok_bind, pure_ok]

/-- **Disagreement.** An opaque object between the start of the shadow ray and the light does not
block it if it is part of a composite object whose nearest part is transparent: the wall behind
the glass blocks the light (distance 20) when glass and wall are listed separately, in either
order, but not when the same two are put in a `Tree`. `Occlude` looks only at the first hit of
each object. -/
theorem C14_violated_composite (S : Sorter (Obj ℝ (Mat ℝ))) :
    occludeLoop [glassBox, wallBox] 20 Color.white diagRay = .ok (Color.black, diagRay) ∧
    occludeLoop [wallBox, glassBox] 20 Color.white diagRay = .ok (Color.black, diagRay) ∧
    ∃ t l, mkTree S [glassBox, wallBox] = .ok (t, l) ∧
      occludeLoop [t] 20 Color.white diagRay = .ok (⟨1 / 2, 1 / 2, 1 / 2⟩, diagRay) := by
  refine ⟨?_, ?_, boxTree, _, boxTree_built S, ?_⟩
  · rw [step0 glassBox_hit]
    simp [Mat.filter?]
    norm_num
    rw [ok_bind, step0 wallBox_hit]
    simp [Mat.filter?]
    norm_num
  · rw [step0 wallBox_hit]
    simp [Mat.filter?]
    norm_num
  · have e : boxTree.intersect diagRay = .ok (⟨3, ⟨-1, -0, -0⟩, ⟨0, 0, 0⟩,
      some (.transparent (fun _ => .ok ⟨1 / 2, 1 / 2, 1 / 2⟩) true)⟩, diagRay) := by
      have hb : ((BBox.intersect (F := ℝ) ⟨⟨-2, -2, -2⟩, ⟨2, 2, 2⟩⟩ diagRay) <=. lit 0) = false := by
        simp only [diagRay, BBox.intersect, BBox.tenTex, BBox.slab, BBox.max3, BBox.min3, fmin, fmax,
          lit_real, lt_real, le_real]
        norm_num
      rw [boxTree, Obj.intersect, Node.bb, if_neg (by rw [hb]; simp), Node.intersect, Obj.scan,
        glassBox_hit, ok_bind]
      dsimp only
      rw [Obj.scan, wallBox_hit, ok_bind]
      dsimp only
      rw [Obj.scan]
      simp [noHit]
      norm_num
    rw [step0 e]
    simp [Mat.filter?, occludeLoop, ok_bind, pure_ok, Color.mul3, Color.white]
    norm_num

end BR
