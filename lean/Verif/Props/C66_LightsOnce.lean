import Verif.Props.C13_Nearest
import Verif.Model.Api

/-! C66: light sources are visible to the camera, mirrors and glass, but black to diffuse reflection (which samples
them separately), and block what is behind them in both cases. Holds for every number type whose comparisons behave
like those of floats and whose infinity is the largest number. -/

namespace BR
set_option linter.unusedSectionVars false

variable {F S : Type} [Add F] [Sub F] [Mul F] [Div F] [Neg F] [GoFloat F] [CmpModel F] [InfModel F]

/-- The record with a black material. -/
def HitRecord.blackened (h : HitRecord F (Mat F)) : HitRecord F (Mat F) := { h with mat := some .black }

private theorem reports_direct (s : Scene F) (r : Ray F) (ho hl : List (HitRecord F (Mat F)))
    (h1 : Reports s.objects r ho) (h2 : Reports (s.lights.map Light.object) r hl) :
    Reports (s.seen .direct) r (ho ++ hl) := List.rel_append h1 h2

private theorem reports_indirect (s : Scene F) (r : Ray F) (ho hl : List (HitRecord F (Mat F)))
    (h1 : Reports s.objects r ho) (h2 : Reports (s.lights.map Light.object) r hl) :
    Reports (s.seen .indirect) r (ho ++ hl.map HitRecord.blackened) := by
  refine List.rel_append h1 ?_
  rw [List.forall₂_map_left_iff, List.forall₂_map_right_iff]
  have h2 := List.forall₂_map_left_iff.1 h2
  refine h2.imp ?_
  rintro l h ⟨r', e⟩
  refine ⟨r', ?_⟩
  rw [Obj.intersect, e, ok_bind]
  rfl

/-- **C66.** `ho` are the records of the objects and `hl` those of the shapes of the light sources. What is seen
directly and what is seen by diffuse reflection differ in one thing only: if the nearest record `front` belongs to a
light source, its material is replaced by black. In particular light sources hide what is behind them in
both cases. -/
theorem C66_seen (s : Scene F) (r : Ray F) (ho hl : List (HitRecord F (Mat F)))
    (h1 : Reports s.objects r ho) (h2 : Reports (s.lights.map Light.object) r hl) :
    (∃ front, IsNearest (ho ++ hl) front ∧ intersectFrontmost (s.seen .direct) r = .ok (front, r) ∧
      ((front ∈ hl ∧ intersectFrontmost (s.seen .indirect) r = .ok (front.blackened, r)) ∨
        (front ∈ ho ∧ intersectFrontmost (s.seen .indirect) r = .ok (front, r)))) ∨
    ((∀ h ∈ ho ++ hl, (h.t >. lit 0) = false) ∧ ∀ f, intersectFrontmost (s.seen f) r =
      .ok (⟨GoFloat.inf, r.dir, Vec.zero, some .black⟩, r)) := by
  obtain ⟨fd, e1, hd⟩ := C13_nearest _ r _ (reports_direct s r ho hl h1 h2)
  obtain ⟨fi, e2, hi⟩ := C13_nearest _ r _ (reports_indirect s r ho hl h1 h2)
  rcases hd with hd | ⟨rfl, hd⟩
  · left
    refine ⟨fd, hd, e1, ?_⟩
    have hi : IsNearest (ho ++ hl.map HitRecord.blackened) fi := by
      rcases hi with hi | ⟨-, hi⟩
      · exact hi
      · exfalso
        obtain ⟨b, a, e, hp, -⟩ := hd
        have hm : fd ∈ ho ++ hl := by rw [e]; simp
        rcases List.mem_append.1 hm with hm | hm
        · rw [hi fd (by simp [hm])] at hp; simp at hp
        · have := hi fd.blackened (by rw [List.mem_append]; right; exact List.mem_map_of_mem hm)
          change (fd.t >. lit 0) = false at this
          rw [this] at hp; simp at hp
    obtain ⟨b, a, e, hp, hb, ha⟩ := hd
    have blk : ∀ (l : List (HitRecord F (Mat F))) (P : F → Prop), (∀ h ∈ l, P h.t) → ∀ h ∈ l.map HitRecord.blackened, P h.t := by
      intro l P hl h hh
      obtain ⟨g, hg, rfl⟩ := List.mem_map.1 hh
      exact hl g hg
    rcases List.append_eq_append_iff.1 e with ⟨l, rfl, rfl⟩ | ⟨l, rfl, h3⟩
    · -- a light source
      left
      refine ⟨by simp, ?_⟩
      rw [e2]
      have : IsNearest (ho ++ (l ++ fd :: a).map HitRecord.blackened) fd.blackened := by
        refine ⟨ho ++ l.map HitRecord.blackened, a.map HitRecord.blackened, by simp, hp, ?_, ?_⟩
        · intro h hh
          rcases List.mem_append.1 hh with hh | hh
          · exact hb h (by simp [hh])
          · exact blk l (fun t => (t >. lit 0) = true → (fd.t <=. t) = true) (fun h hh => hb h (by simp [hh])) h hh
        · exact blk a (fun t => (t >. lit 0) = true → (fd.t <. t) = true) ha
      rw [hi.unique this]
    · cases l with
      | nil =>
        left
        simp only [List.append_nil, List.nil_append] at h3 e hb
        subst h3
        refine ⟨by simp, ?_⟩
        rw [e2]
        have : IsNearest (b ++ [] ++ (fd :: a).map HitRecord.blackened) fd.blackened := by
          refine ⟨b, a.map HitRecord.blackened, by simp, hp, hb, ?_⟩
          exact blk a (fun t => (t >. lit 0) = true → (fd.t <. t) = true) ha
        rw [hi.unique this]
      | cons x l =>
        right
        simp only [List.cons_append, List.cons.injEq] at h3
        obtain ⟨rfl, rfl⟩ := h3
        refine ⟨by simp, ?_⟩
        rw [e2]
        have : IsNearest (b ++ fd :: l ++ hl.map HitRecord.blackened) fd := by
          refine ⟨b, l ++ hl.map HitRecord.blackened, by simp, hp, hb, ?_⟩
          intro h hh
          rcases List.mem_append.1 hh with hh | hh
          · exact ha h (by simp [hh])
          · exact blk hl (fun t => (t >. lit 0) = true → (fd.t <. t) = true) (fun h hh => ha h (by simp [hh])) h hh
        rw [hi.unique this]
  · right
    refine ⟨hd, ?_⟩
    rintro (_ | _)
    · exact e1
    · rcases hi with ⟨b, a, e, hp, -⟩ | ⟨rfl, -⟩
      · exfalso
        have hm : fi ∈ ho ++ hl.map HitRecord.blackened := by rw [e]; simp
        rcases List.mem_append.1 hm with hm | hm
        · rw [hd fi (by simp [hm])] at hp; simp at hp
        · obtain ⟨g, hg, rfl⟩ := List.mem_map.1 hm
          have := hd g (by simp [hg])
          change (g.t >. lit 0) = true at hp
          rw [this] at hp; simp at hp
      · exact e2

/-- The colour: diffuse reflection receives no light from a ray that meets a light source first, whatever the
light source looks like (in a scene without fog). -/
theorem C66_indirect_black (rng : Rng F S) (s : Scene F) (hm : s.media = []) (n : Nat) (r : Ray F) (c : Ctx F S)
    (ho hl : List (HitRecord F (Mat F))) (h1 : Reports s.objects r ho)
    (h2 : Reports (s.lights.map Light.object) r hl) (front : HitRecord F (Mat F))
    (hf : IsNearest (ho ++ hl) front) (hmem : front ∉ ho) :
    s.lightField rng (n + 1) .indirect r c = .ok (Color.black, c) := by
  by_cases hne : s.recursionDepth = c.depth
  · rw [Scene.lightField, lightFieldFrom_limit _ _ _ _ _ hne]
  rcases C66_seen s r ho hl h1 h2 with ⟨fd, hd, -, h | h⟩ | ⟨h, -⟩
  · rw [Scene.lightField, Scene.lightFieldFrom, if_neg hne]
    dsimp only
    rw [h.2, ok_bind]
    simp only [shadeFront, HitRecord.blackened, Mat.shade, ok_bind, hm, mediaLoop, pure_ok]
    simp
  · rw [hd.unique hf] at h
    exact absurd h.1 hmem
  · obtain ⟨b, a, e, hp, -⟩ := hf
    rw [h front (by rw [e]; simp)] at hp
    simp at hp

private theorem rayFrom_depth (rng : Rng F S) (cam : Cam F) (c : Ctx F S) (u v : F) :
    (cam.rayFrom rng c u v).2.depth = c.depth := by
  obtain ⟨orig, pos, m⟩ := cam
  cases orig with
  | projective f d a =>
    simp only [Cam.rayFrom, BaseCam.rayFrom]
    split <;> rfl
  | isometric s => rfl
  | envMap => rfl

/-- The camera sees light sources as they are: where the nearest record `front` of the camera's ray belongs to a light
source (or to an object) that emits a colour, the image has this colour. -/
theorem C66_image (rng : Rng F S) (s : Scene F) (hm : s.media = []) (cam : Cam F) (c : Ctx F S) (u v : F)
    (hd : 0 < s.recursionDepth) (hne : s.recursionDepth ≠ c.depth) (ho hl : List (HitRecord F (Mat F)))
    (h1 : Reports s.objects (cam.rayFrom rng c.takeRay.2 u v).1 ho)
    (h2 : Reports (s.lights.map Light.object) (cam.rayFrom rng c.takeRay.2 u v).1 hl) (front : HitRecord F (Mat F))
    (hf : IsNearest (ho ++ hl) front) (tex : Tex F) (hmat : front.mat = some (.flat tex)) (col : Color F)
    (ht : tex front.loc = .ok col) : ∃ c', s.imageFunc rng cam c u v = .ok (col, c') := by
  obtain ⟨n, hn⟩ : ∃ n, s.recursionDepth.toNat = n + 1 := ⟨s.recursionDepth.toNat - 1, by omega⟩
  have hne' : s.recursionDepth ≠ (cam.rayFrom rng c.takeRay.2 u v).2.depth := by
    rw [rayFrom_depth]; exact hne
  have e := C13_shaded rng s hm n .direct _ _ hne' _ (reports_direct s _ ho hl h1 h2) front hf tex hmat col ht
  rw [Scene.imageFunc]
  dsimp only
  rw [hn, e, ok_bind]
  exact ⟨_, rfl⟩

/-! ## Non-vacuity -/

/-- A light at distance 2 in front of a wall at distance 5. -/
example (r : Ray Ext) (m : Mat Ext) :
    let wall : HitRecord Ext (Mat Ext) := ⟨.fin 5, Vec.zero, Vec.zero, some m⟩
    let lamp : HitRecord Ext (Mat Ext) := ⟨.fin 2, Vec.zero, Vec.ex, some (.flat Color.white.tex)⟩
    let s : Scene Ext := ⟨[.planar (.fin 1) (.fin 1) Vec.zero Color.white (fixedObj lamp) Light.transfRect], [fixedObj wall], [], 5⟩
    Reports s.objects r [wall] ∧ Reports (s.lights.map Light.object) r [lamp] ∧ IsNearest ([wall] ++ [lamp]) lamp ∧
      lamp ∉ [wall] := by
  intro wall lamp s
  refine ⟨.cons ⟨r, rfl⟩ .nil, .cons ⟨r, rfl⟩ .nil, ⟨[wall], [], rfl, ?_, ?_, by simp⟩, ?_⟩
  · simp [lamp, Ext.fin]
  · simp [wall, lamp, Ext.fin]; norm_num
  · simp [wall, lamp, Ext.fin]

end BR
