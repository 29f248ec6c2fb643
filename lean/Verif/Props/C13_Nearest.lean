import Verif.Lemmas.Scene
import Verif.Lemmas.Cmp
import Verif.Lemmas.Rotation

/-! C13: the nearest surface is shaded. Holds for every number type whose comparisons behave like
those of floats (`CmpModel`) and whose infinity is the largest number (`InfModel`). -/

namespace BR
set_option linter.unusedSectionVars false

variable {F S : Type} [Add F] [Sub F] [Mul F] [Div F] [Neg F] [GoFloat F]

/-- Specification: the record to be shaded, given what the objects report in order: the last one
among those of least positive distance. NaN is not positive. -/
def IsNearest (hits : List (HitRecord F (Mat F))) (front : HitRecord F (Mat F)) : Prop :=
  ∃ before after, hits = before ++ front :: after ∧ (front.t >. lit 0) = true ∧
    (∀ h ∈ before, (h.t >. lit 0) = true → (front.t <=. h.t) = true) ∧
    (∀ h ∈ after, (h.t >. lit 0) = true → (front.t <. h.t) = true)

/-- What the objects report for the ray, in order. -/
def Reports (objs : List (Obj F (Mat F))) (r : Ray F) (hits : List (HitRecord F (Mat F))) : Prop :=
  List.Forall₂ (fun o h => ∃ r', o.intersect r = .ok (h, r')) objs hits

section
variable [CmpModel F]
open CmpModel (key)

/-- The front record after the loop, when it starts from a record `front` of non-NaN distance. -/
private theorem loop_spec (objs : List (Obj F (Mat F))) (r : Ray F) (hits : List (HitRecord F (Mat F)))
    (h : Reports objs r hits) (front : HitRecord F (Mat F)) (x : EReal) (hx : key front.t = some x) :
    ∃ res, intersectLoop objs front r = .ok (res, r) ∧
      ((res = front ∧ ∀ h ∈ hits, (h.t >. lit 0) = true → (front.t <. h.t) = true) ∨
       (IsNearest hits res ∧ (res.t <=. front.t) = true)) := by
  induction h generalizing front x with
  | nil => exact ⟨front, rfl, .inl ⟨rfl, by simp⟩⟩
  | @cons o hit os hs ho _ ih =>
    obtain ⟨r', e⟩ := ho
    obtain rfl := o.intersect_keeps r hit r' e
    simp only [intersectLoop, e, ok_bind]
    by_cases hc : ((hit.t >. lit 0) && (hit.t <=. front.t)) = true
    · rw [if_pos hc]
      rw [Bool.and_eq_true] at hc
      obtain ⟨a, b, ka, kb, hab⟩ := (CmpModel.le_iff _ _).1 hc.2
      obtain ⟨res, e1, h1⟩ := ih hit a ka
      refine ⟨res, e1, .inr ?_⟩
      rcases h1 with ⟨rfl, h1⟩ | ⟨⟨bf, af, rfl, p1, p2, p3⟩, h2⟩
      · exact ⟨⟨[], hs, rfl, hc.1, by simp, h1⟩, hc.2⟩
      · obtain ⟨a', b', ka', kb', hab'⟩ := (CmpModel.le_iff _ _).1 h2
        rw [ka] at kb'
        simp only [Option.some.injEq] at kb'
        subst kb'
        refine ⟨⟨hit :: bf, af, rfl, p1, ?_, p3⟩, ?_⟩
        · intro h hh hp
          rcases List.mem_cons.1 hh with rfl | hh
          · exact h2
          · exact p2 h hh hp
        · rw [le_key ka' kb]; simp; exact hab'.trans hab
    · rw [if_neg hc]
      obtain ⟨res, e1, h1⟩ := ih front x hx
      refine ⟨res, e1, ?_⟩
      have hfront : (hit.t >. lit 0) = true → (front.t <. hit.t) = true := by
        intro hp
        obtain ⟨z, y, kz, ky, hzy⟩ := (CmpModel.lt_iff _ _).1 hp
        rw [hp, le_key ky hx] at hc
        rw [lt_key hx ky]
        simp at hc ⊢
        exact hc
      rcases h1 with ⟨rfl, h1⟩ | ⟨⟨bf, af, rfl, p1, p2, p3⟩, h2⟩
      · left
        refine ⟨rfl, ?_⟩
        intro h hh hp
        rcases List.mem_cons.1 hh with rfl | hh
        · exact hfront hp
        · exact h1 h hh hp
      · right
        refine ⟨⟨hit :: bf, af, rfl, p1, ?_, p3⟩, h2⟩
        intro h hh hp
        rcases List.mem_cons.1 hh with rfl | hh
        · have h3 := hfront hp
          obtain ⟨a, b, ka, kb, hab⟩ := (CmpModel.le_iff _ _).1 h2
          obtain ⟨a', b', ka', kb', hab'⟩ := (CmpModel.lt_iff _ _).1 h3
          rw [kb] at ka'
          simp only [Option.some.injEq] at ka'
          subst ka'
          rw [le_key ka kb']; simp; exact hab.trans hab'.le
        · exact p2 h hh hp

variable [InfModel F]

/-- **C13.** If every object answers (none panics), the scene picks the nearest record in front
of the ray, and if no object reports a positive distance, the black default. The ray is
unchanged. -/
theorem C13_nearest (objs : List (Obj F (Mat F))) (r : Ray F) (hits : List (HitRecord F (Mat F)))
    (h : Reports objs r hits) :
    ∃ front, intersectFrontmost objs r = .ok (front, r) ∧
      (IsNearest hits front ∨
        (front = ⟨GoFloat.inf, r.dir, Vec.zero, some .black⟩ ∧ ∀ h ∈ hits, (h.t >. lit 0) = false)) := by
  obtain ⟨res, e, h1⟩ := loop_spec objs r hits h (frontDefault r) ⊤ InfModel.key_inf
  refine ⟨res, e, ?_⟩
  rcases h1 with ⟨rfl, h1⟩ | ⟨h1, -⟩
  · right
    refine ⟨rfl, fun h hh => ?_⟩
    by_contra hp
    have hp : (h.t >. lit 0) = true := by simpa using hp
    have h2 := h1 h hh hp
    obtain ⟨a, b, ka, kb, hab⟩ := (CmpModel.lt_iff _ _).1 h2
    change key (GoFloat.inf : F) = _ at ka
    rw [InfModel.key_inf] at ka
    simp only [Option.some.injEq] at ka
    subst ka
    exact not_top_lt hab
  · exact .inl h1

/-- There is only one nearest record: it is the last one among those of least positive distance. -/
theorem IsNearest.unique {hits : List (HitRecord F (Mat F))} {front' front : HitRecord F (Mat F)}
    (h1 : IsNearest hits front') (hf : IsNearest hits front) : front' = front := by
  obtain ⟨b', a', e1, p1, p2, p3⟩ := h1
  obtain ⟨b, a, e2, q1, q2, q3⟩ := hf
  -- both are the last among the nearest
  have no : ∀ {u v : HitRecord F (Mat F)}, (u.t <=. v.t) = true → (v.t <. u.t) = true → False := by
    intro u v h1 h2
    obtain ⟨a, b, ka, kb, hab⟩ := (CmpModel.le_iff _ _).1 h1
    obtain ⟨a', b', ka', kb', hab'⟩ := (CmpModel.lt_iff _ _).1 h2
    rw [ka] at kb'; rw [kb] at ka'
    simp only [Option.some.injEq] at ka' kb'
    subst ka' kb'
    exact absurd hab (not_le.2 hab')
  have ilt : ∀ {u v : HitRecord F (Mat F)}, (u.t <. v.t) = true → (u.t <=. v.t) = true := by
    intro u v h1
    obtain ⟨a, b, ka, kb, hab⟩ := (CmpModel.lt_iff _ _).1 h1
    rw [le_key ka kb]; simpa using hab.le
  rw [e1] at e2
  rcases List.append_eq_append_iff.1 e2 with ⟨l, h1, h2⟩ | ⟨l, h1, h2⟩
  · cases l with
    | nil => simp only [List.nil_append, List.cons.injEq] at h2; exact h2.1
    | cons x l =>
      simp only [List.cons_append, List.cons.injEq] at h2
      obtain ⟨rfl, h2⟩ := h2
      exact (no (q2 front' (by rw [h1]; simp) p1) (p3 front (by rw [h2]; simp) q1)).elim
  · cases l with
    | nil => simp only [List.nil_append, List.cons.injEq] at h2; exact h2.1.symm
    | cons x l =>
      simp only [List.cons_append, List.cons.injEq] at h2
      obtain ⟨rfl, h2⟩ := h2
      exact (no (p2 front (by rw [h1]; simp) q1) (q3 front' (by rw [h2]; simp) p1)).elim

/-- The nearest record is the one that is shaded: in a scene without media whose nearest surface
is self-luminous, the light field is the texture there, for direct and indirect light. -/
theorem C13_shaded (rng : Rng F S) (s : Scene F) (hm : s.media = []) (n : Nat) (f : Field) (r : Ray F)
    (c : Ctx F S) (hne : s.recursionDepth ≠ c.depth)
    (hits : List (HitRecord F (Mat F))) (hr : Reports (s.seen f) r hits)
    (front : HitRecord F (Mat F)) (hf : IsNearest hits front)
    (tex : Tex F) (hmat : front.mat = some (.flat tex)) (col : Color F) (ht : tex front.loc = .ok col) :
    s.lightField rng (n + 1) f r c = .ok (col, c) := by
  obtain ⟨front', e, h1⟩ := C13_nearest _ r hits hr
  have hff : front' = front := by
    rcases h1 with h1 | ⟨-, h1⟩
    · exact h1.unique hf
    · obtain ⟨b, a, rfl, q1, -⟩ := hf
      rw [h1 front (by simp)] at q1
      simp at q1
  subst hff
  rw [Scene.lightField, Scene.lightFieldFrom, if_neg hne]
  dsimp only
  rw [e, ok_bind]
  simp only [shadeFront, hmat, Mat.shade, ht, ok_bind, hm, mediaLoop, pure_ok]
  simp

/-- If nothing is hit, the light field is black. -/
theorem C13_nothing (rng : Rng F S) (s : Scene F) (hm : s.media = []) (n : Nat) (f : Field) (r : Ray F)
    (c : Ctx F S) (hits : List (HitRecord F (Mat F))) (hr : Reports (s.seen f) r hits)
    (hno : ∀ h ∈ hits, (h.t >. lit 0) = false) :
    s.lightField rng (n + 1) f r c = .ok (Color.black, c) := by
  obtain ⟨front', e, h1⟩ := C13_nearest _ r hits hr
  rcases h1 with ⟨b, a, rfl, q1, -⟩ | ⟨rfl, h1⟩
  · rw [hno front' (by simp)] at q1; simp at q1
  · by_cases hne : s.recursionDepth = c.depth
    · rw [Scene.lightField, lightFieldFrom_limit _ _ _ _ _ hne]
    · rw [Scene.lightField, Scene.lightFieldFrom, if_neg hne]
      dsimp only
      rw [e, ok_bind]
      simp only [shadeFront, Mat.shade, ok_bind, hm, mediaLoop, pure_ok]
      simp

end

/-- Materials receive the distance and the local position that the object reported, and the reported normal
scaled to unit length. Stated with a material that is an arbitrary function of the ray and what it receives. -/
theorem C13_unit_normal (rng : Rng ℝ S) (s : Scene ℝ) (hm : s.media = []) (n : Nat) (f : Field) (r r' : Ray ℝ)
    (c : Ctx ℝ S) (hne : s.recursionDepth ≠ c.depth) (front : HitRecord ℝ (Mat ℝ))
    (hf : intersectFrontmost (s.seen f) r = .ok (front, r')) (shader : Ray ℝ → HitCoords ℝ → GoM (Color ℝ))
    (hmat : front.mat = some (.func shader)) (hn : front.normal ≠ Vec.zero) :
    ∃ unit : Vec ℝ, unit.dot unit = 1 ∧ (∃ k, 0 < k ∧ unit = front.normal.mul k) ∧
      s.lightField rng (n + 1) f r c = (do return (← shader r' ⟨front.t, unit, front.loc⟩, c)) := by
  obtain ⟨k, hk, e, h1⟩ := Vec.normalized_spec hn
  refine ⟨front.normal.normalized, h1, ⟨k, hk, e⟩, ?_⟩
  rw [Scene.lightField, Scene.lightFieldFrom, if_neg hne]
  dsimp only
  rw [hf, ok_bind]
  simp only [shadeFront, hmat, Mat.shade, hm, mediaLoop, bind_assoc, pure_bind', ok_bind]
  refine bind_congr_ok rfl fun a _ => ?_
  simp

/-! ## A concrete case -/

/-- An object reporting a fixed record. -/
noncomputable def fixedObj (h : HitRecord Ext (Mat Ext)) : Obj Ext (Mat Ext) :=
  .prim (fun _ => .ok h) (fun _ => .ok false) ⟨Vec.zero, Vec.zero⟩

/-- Distances NaN, 5, -1, 2, 2, +Inf in this order: the nearest is the second one at 2. -/
example (r : Ray Ext) (m : Mat Ext) :
    let rec_ := fun (t : Ext) (x : ℝ) => (⟨t, Vec.zero, ⟨.fin x, .fin 0, .fin 0⟩, some m⟩ : HitRecord Ext (Mat Ext))
    let hits := [rec_ .nan 1, rec_ (.fin 5) 2, rec_ (.fin (-1)) 3, rec_ (.fin 2) 4, rec_ (.fin 2) 5,
      rec_ (.inf false) 6]
    Reports (hits.map fixedObj) r hits ∧ IsNearest hits (rec_ (.fin 2) 5) := by
  intro rec_ hits
  constructor
  · unfold Reports
    rw [List.forall₂_map_left_iff]
    rw [List.forall₂_same]
    intro h _
    exact ⟨r, rfl⟩
  · refine ⟨[rec_ .nan 1, rec_ (.fin 5) 2, rec_ (.fin (-1)) 3, rec_ (.fin 2) 4], [rec_ (.inf false) 6],
      rfl, ?_, ?_, ?_⟩
    · simp [rec_, Ext.fin]
    · simp [rec_, Ext.fin]; norm_num
    · simp [rec_, Ext.fin]

end BR
