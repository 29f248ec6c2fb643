import Verif.Lemmas.Sim
import Verif.Lemmas.Cmp
import Verif.Props.C13_Nearest
import Verif.Props.C14_Shadows
import Mathlib.Tactic.NormNum

/-! C74: the image depends only on what the objects report to rays, and not on the order in which they are listed. -/

namespace BR
set_option linter.unusedSectionVars false

variable {F S : Type} [Add F] [Sub F] [Mul F] [Div F] [Neg F] [GoFloat F]

namespace Relist

/-- Nothing moves. -/
def sym : Sym F where
  mvp p := p
  hgt h := h
  col c := c
  ok _ := True
  ok_madd _ _ _ _ := trivial
  madd _ _ _ _ := rfl
  sub _ _ _ _ := rfl
  fog _ _ _ := rfl
  mul _ _ := rfl
  mul3 _ _ := rfl
  add _ _ := rfl
  black := rfl
  isZero _ := rfl

theorem map_id' {α : Type} (x : GoM α) : (x.map fun a => a) = x := by cases x <;> rfl

theorem sym_mat (m : Mat F) : sym.mat m = m := by
  induction m <;> simp only [Sym.mat, *] <;> congr <;> funext <;> exact map_id' _

theorem sym_free (m : Mat F) : sym.Free m := by
  induction m with
  | reflectFresnel n u ih => exact ih
  | twoSided a b iha ihb => exact ⟨iha, ihb⟩
  | blend _ a _ b iha ihb => exact ⟨iha, ihb⟩
  | blendMap _ a b iha ihb => exact ⟨iha, ihb⟩
  | func f => exact fun r h => rfl
  | _ => trivial

theorem sym_hit (h : HitRecord F (Mat F)) : sym.hit h = h := by
  rcases h with ⟨t, n, l, m⟩
  cases m <;> simp [Sym.hit, sym_mat]

theorem sym_medium (m : Medium F) : sym.medium m = m := by cases m <;> rfl

theorem loop_keeps (r r1 : Ray F) (h : HitRecord F (Mat F)) (os : List (Obj F (Mat F))) (front)
    (e : intersectLoop os front r = .ok (h, r1)) : r1 = r := by
  induction os generalizing front with
  | nil => cases e; rfl
  | cons o os ih =>
    rw [intersectLoop, bind_eq_ok] at e
    obtain ⟨⟨f, r2⟩, e1, e2⟩ := e
    obtain rfl := Obj.intersect_keeps o r f r2 e1
    exact ih _ e2

end Relist

/-- Two scenes that look alike from everywhere: rays meet the same surfaces and shadow rays are blocked alike. Lights,
media and recursion depth are the same. -/
structure LookAlike (s s' : Scene F) : Prop where
  seen : ∀ f r, intersectFrontmost (s'.seen f) r = intersectFrontmost (s.seen f) r
  shadow : ∀ r len c, s'.occlude r len c = s.occlude r len c
  lights : s'.lights = s.lights
  media : s'.media = s.media
  depth : s'.recursionDepth = s.recursionDepth

open Relist

theorem Relist.scenes (rng : Rng F S) (s s' : Scene F) (h : LookAlike s s') : sym.Scenes rng s s' where
  front f r _ := by
    have e : (fun a : HitRecord F (Mat F) × Ray F => (sym.hit a.1, sym.mv a.2)) = fun a => a := by
      funext a; rw [sym_hit]; rfl
    rw [e, map_id']; exact h.seen f r
  free f r x r1 _ e := ⟨loop_keeps r r1 x _ _ e, fun m _ => sym_free m⟩
  occl r len c _ := (h.shadow r len c).trans (map_id' _).symm
  lights := by
    rw [h.lights]
    exact List.forall₂_same.2 fun l _ p c _ => ⟨(map_id' _).symm, fun _ _ => trivial⟩
  media := by
    rw [h.media, show (sym (F := F)).medium = id from funext sym_medium, List.map_id]
  depth := h.depth

/-- **C74.** Scenes that look alike have the same light field, for the same random numbers, with the same panics. Any
number type. -/
theorem C74_light_field (rng : Rng F S) (s s' : Scene F) (h : LookAlike s s') (fuel : Nat) (f : Field) (r : Ray F)
    (ctx : Ctx F S) : s'.lightField rng fuel f r ctx = s.lightField rng fuel f r ctx :=
  (sim_lightField (scenes rng s s' h) fuel f r ctx trivial).trans (map_id' _)

/-- **C74.** And the same image. -/
theorem C74_image (rng : Rng F S) (s s' : Scene F) (h : LookAlike s s') (cam : Cam F) (ctx : Ctx F S) (u v : F) :
    s'.imageFunc rng cam ctx u v = s.imageFunc rng cam ctx u v :=
  (sim_imageFunc (scenes rng s s' h) cam cam (fun _ _ _ => ⟨rfl, trivial⟩) ctx u v).trans (map_id' _)

/-- **C74, replacing.** Replacing objects by objects that report the same for every ray does not change the scene. -/
theorem C74_replace (s s' : Scene F)
    (h : List.Forall₂ (fun o o' => ∀ r, o'.intersect r = o.intersect r) s.objects s'.objects)
    (hl : s'.lights = s.lights) (hm : s'.media = s.media) (hd : s'.recursionDepth = s.recursionDepth) :
    LookAlike s s' where
  seen f r := by
    have hf : List.Forall₂ (fun o o' => ∀ r, o'.intersect r = o.intersect r) (s.seen f) (s'.seen f) := by
      cases f
      · exact List.rel_append h (by rw [hl]; exact List.forall₂_same.2 fun _ _ _ => rfl)
      · exact List.rel_append h (by rw [hl]; exact List.forall₂_same.2 fun _ _ _ => rfl)
    unfold intersectFrontmost
    generalize frontDefault r = front
    generalize s.seen f = os at hf ⊢
    generalize s'.seen f = os' at hf ⊢
    clear h
    induction hf generalizing front r with
    | nil => rfl
    | cons h1 _ ih =>
      rw [intersectLoop, intersectLoop]
      exact bind_congr_ok (h1 r) fun a _ => ih _ _
  shadow r len c := by
    unfold Scene.occlude
    generalize s.objects = os at h ⊢
    generalize s'.objects = os' at h ⊢
    induction h generalizing r c with
    | nil => rfl
    | cons h1 _ ih =>
      rw [occludeLoop, occludeLoop]
      refine bind_congr_ok (h1 r) fun a _ => ?_
      dsimp only
      split
      · split
        · exact bind_congr_ok rfl fun b _ => ih _ _
        · rfl
      · exact ih _ _
  lights := hl
  media := hm
  depth := hd

/-- Every object answers every ray: none panics. `hits` names the answers. -/
def Answers (objs : List (Obj F (Mat F))) (hits : Obj F (Mat F) → Ray F → HitRecord F (Mat F)) : Prop :=
  ∀ o ∈ objs, ∀ r, o.intersect r = .ok (hits o r, r)

/-- No two objects are met at the same distance by the same ray (unless they answer the same). -/
def Apart (objs : List (Obj F (Mat F))) (hits : Obj F (Mat F) → Ray F → HitRecord F (Mat F)) : Prop :=
  ∀ a ∈ objs, ∀ b ∈ objs, ∀ r, ((hits a r).t >. lit 0) = true → ((hits b r).t >. lit 0) = true →
    ((hits a r).t <. (hits b r).t) = true ∨ ((hits b r).t <. (hits a r).t) = true ∨ hits a r = hits b r

theorem Relist.front_perm [CmpModel F] [InfModel F] (objs objs' : List (Obj F (Mat F))) (hits)
    (ha : Answers objs hits) (hap : Apart objs hits) (hp : objs'.Perm objs) (r : Ray F) :
    intersectFrontmost objs' r = intersectFrontmost objs r := by
  have rep : ∀ l : List (Obj F (Mat F)), (∀ o ∈ l, o ∈ objs) → Reports l r (l.map fun o => hits o r) := by
    intro l hl
    exact List.forall₂_map_right_iff.2 (List.forall₂_same.2 fun o ho => ⟨r, ha o (hl o ho) r⟩)
  obtain ⟨f, e, h⟩ := C13_nearest objs r _ (rep objs fun _ h => h)
  obtain ⟨f', e', h'⟩ := C13_nearest objs' r _ (rep objs' fun _ h => hp.mem_iff.1 h)
  rw [e, e']
  have mem : ∀ x, x ∈ objs'.map (fun o => hits o r) ↔ x ∈ objs.map fun o => hits o r := fun x =>
    (hp.map _).mem_iff
  have no : ∀ {u v : HitRecord F (Mat F)}, (u.t <=. v.t) = true → (v.t <. u.t) = true → False := by
    intro u v h1 h2
    obtain ⟨a, b, ka, kb, hab⟩ := (CmpModel.le_iff _ _).1 h1
    obtain ⟨a', b', ka', kb', hab'⟩ := (CmpModel.lt_iff _ _).1 h2
    rw [ka] at kb'; rw [kb] at ka'
    simp only [Option.some.injEq] at ka' kb'
    subst ka' kb'
    exact absurd hab (not_le.2 hab')
  have ilt : ∀ {u v : HitRecord F (Mat F)}, (u.t <. v.t) = true → (u.t <=. v.t) = true := by
    intro u v h1
    obtain ⟨a, b, ka, kb, hab⟩ := (CmpModel.lt_iff _ _).1 h1
    rw [le_key ka kb]; simpa using hab.le
  have least : ∀ (l : List (HitRecord F (Mat F))) (f : HitRecord F (Mat F)), IsNearest l f →
      f ∈ l ∧ (f.t >. lit 0) = true ∧ ∀ x ∈ l, (x.t >. lit 0) = true → (f.t <=. x.t) = true := by
    rintro l f ⟨b, a, rfl, p1, p2, p3⟩
    refine ⟨by simp, p1, fun x hx hpx => ?_⟩
    rcases List.mem_append.1 hx with hx | hx
    · exact p2 x hx hpx
    · rcases List.mem_cons.1 hx with rfl | hx
      · obtain ⟨a, b, ka, kb, hab⟩ := (CmpModel.lt_iff _ _).1 p1
        rw [le_key kb kb]; simp
      · exact ilt (p3 x hx hpx)
  congr 2
  rcases h with h | ⟨rfl, h⟩ <;> rcases h' with h' | ⟨rfl, h'⟩
  · obtain ⟨m1, p1, q1⟩ := least _ _ h
    obtain ⟨m2, p2, q2⟩ := least _ _ h'
    have l1 := q1 f' ((mem _).1 m2) p2
    have l2 := q2 f ((mem _).2 m1) p1
    obtain ⟨a, ha1, rfl⟩ := List.mem_map.1 m1
    obtain ⟨b, hb1, rfl⟩ := List.mem_map.1 ((mem _).1 m2)
    rcases hap a ha1 b hb1 r p1 p2 with h3 | h3 | h3
    · exact (no l2 h3).elim
    · exact (no l1 h3).elim
    · exact h3.symm
  · obtain ⟨m1, p1, q1⟩ := least _ _ h
    rw [h' f ((mem _).2 m1)] at p1; simp at p1
  · obtain ⟨m2, p2, q2⟩ := least _ _ h'
    rw [h f' ((mem _).1 m2)] at p2; simp at p2
  · rfl

/-- **C74, order.** Listing the objects in another order does not change the scene, if no two of them (visible lights
included) are met at the same distance by the same ray, none of them panics, the textures of transparent ones can be
evaluated, and the factors of a product may be exchanged. Any number type with float comparisons. -/
theorem C74_order [CmpModel F] [InfModel F] (hcomm : ∀ a b c : F, a * b * c = a * c * b) (s s' : Scene F)
    (hp : s'.objects.Perm s.objects) (hits : Field → Obj F (Mat F) → Ray F → HitRecord F (Mat F))
    (ha : ∀ f, Answers (s.seen f) (hits f)) (hap : ∀ f, Apart (s.seen f) (hits f))
    (ht : ∀ o ∈ s.objects, ∀ r, IsTransparent (hits .direct o r) → ∃ c, Tints (hits .direct o r) c)
    (hl : s'.lights = s.lights) (hm : s'.media = s.media) (hd : s'.recursionDepth = s.recursionDepth) :
    LookAlike s s' where
  seen f r := by
    refine front_perm _ _ (hits f) (ha f) (hap f) ?_ r
    cases f
    · exact (hp.append (by rw [hl]))
    · exact (hp.append (by rw [hl]))
  shadow r len c := by
    have hall : ∀ o ∈ s.objects, o.intersect r = .ok (hits .direct o r, r) := fun o ho =>
      ha .direct o (List.mem_append_left _ ho) r
    refine C14_order hcomm s s' r len c (s.objects.attach.map fun o => ⟨(o.1, hits .direct o.1 r), r, hall o.1 o.2⟩) ?_ hp ?_
    · simp only [Hits.objs, List.map_map]
      exact (List.attach_map_subtype_val _).symm
    · intro p hpm _ h2
      obtain ⟨o, _, rfl⟩ := List.mem_map.1 hpm
      exact ht o.1 o.2 r h2
  lights := hl
  media := hm
  depth := hd

/-- Two shells around the viewer, one of coloured glass at distance 1 and one at distance 2, in a backdrop: the
hypotheses of `C74_order` are met. -/
example (c : Color Ext) (b : Bool) :
    let m : Mat Ext := .flat c.tex
    let glass : HitRecord Ext (Mat Ext) := ⟨.fin 1, Vec.zero, Vec.zero, some (.transparent c.tex b)⟩
    let wall : HitRecord Ext (Mat Ext) := ⟨.fin 2, Vec.zero, Vec.zero, some m⟩
    let s : Scene Ext := ⟨[], [fixedObj glass, fixedObj wall, .backdrop (some m)], [], 1⟩
    ∃ hits : Field → Obj Ext (Mat Ext) → Ray Ext → HitRecord Ext (Mat Ext),
      (∀ f, Answers (s.seen f) (hits f)) ∧ (∀ f, Apart (s.seen f) (hits f)) ∧
      ∀ o ∈ s.objects, ∀ r, IsTransparent (hits .direct o r) → ∃ c, Tints (hits .direct o r) c := by
  intro m glass wall s
  have hs : ∀ f, s.seen f = [fixedObj glass, fixedObj wall, .backdrop (some m)] := by
    intro f; cases f <;> rfl
  refine ⟨fun _ o r => (o.intersect r).toOption.elim glass Prod.fst, ?_, ?_, ?_⟩
  · intro f o ho r
    rw [hs] at ho
    simp only [List.mem_cons, List.not_mem_nil, or_false] at ho
    rcases ho with rfl | rfl | rfl <;> simp [fixedObj, Obj.intersect, ok_bind, pure_ok, Except.toOption]
  · intro f o ho o' ho' r
    rw [hs] at ho ho'
    simp only [List.mem_cons, List.not_mem_nil, or_false] at ho ho'
    rcases ho with rfl | rfl | rfl <;> rcases ho' with rfl | rfl | rfl <;>
      simp [fixedObj, Obj.intersect, ok_bind, pure_ok, Except.toOption, glass, wall, Ext.fin] <;> norm_num
  · intro o ho r
    simp only [s, List.mem_cons, List.not_mem_nil, or_false] at ho
    rcases ho with rfl | rfl | rfl <;>
      simp [fixedObj, Obj.intersect, ok_bind, pure_ok, Except.toOption, glass, wall, m, IsTransparent, Tints, Color.tex]

end BR
