import Verif.Lemmas.ExtMesh
import Verif.Lemmas.MeshFile
import Verif.Props.C15_RayUnchanged
import Verif.Props.C17_CsgHits
import Verif.Props.C29_Transformed
import Verif.Props.C80_Picture
import Verif.Spec.Assembly

/-! C94: pictures of things that are put together. Extends C80 from single objects to trees, placed objects, Boolean
combinations and scenes with a sky. In extended numbers: exact arithmetic with infinities. -/

namespace BR
set_option linter.unusedSectionVars false

variable {S : Type}

/-- The hit has a flat material, which has the colour `C` there. -/
def HasColor (hit : HitRecord Ext (Mat Ext)) (C : Color ℝ) : Prop :=
  ∃ tex c, hit.mat = some (.flat tex) ∧ tex hit.loc = .ok c ∧ c.Is C

/-- Along the ray, the object shows the things: it reports a nearest point of all of them, in its colour. Where there is
none it reports a miss or, if `ghost`, something at a distance that is not below `9e99` (as trees with at most seven
members do). -/
def ShowsAll (ghost : Prop) (o : Obj Ext (Mat Ext)) (things : List Thing) (R : Ray ℝ) : Prop :=
  ∀ r : Ray Ext, r.Is R → ∃ hit, o.intersect r = .ok (hit, r) ∧
    ((∃ T, ∃ th ∈ things, hit.t.Is T ∧ 0 < T ∧ th.on (R.at T) ∧ HasColor hit (th.col (R.at T)) ∧
        ∀ other ∈ things, ∀ T' > 0, other.on (R.at T') → T ≤ T') ∨
      ((∀ th ∈ things, ∀ T > 0, ¬ th.on (R.at T)) ∧
        ((lit 0 <. hit.t) = false ∨ ghost ∧ (hit.t <. (lit (9 * 10 ^ 99) : Ext)) = false)))

theorem ShowsAll.mono {g g' : Prop} (hg : g → g') {o : Obj Ext (Mat Ext)} {things : List Thing} {R : Ray ℝ}
    (h : ShowsAll g o things R) : ShowsAll g' o things R := by
  intro r hr
  obtain ⟨hit, e, h | ⟨h1, h2 | ⟨h2, h3⟩⟩⟩ := h r hr
  · exact ⟨hit, e, .inl h⟩
  · exact ⟨hit, e, .inr ⟨h1, .inl h2⟩⟩
  · exact ⟨hit, e, .inr ⟨h1, .inr ⟨hg h2, h3⟩⟩⟩

private theorem zero_is : (lit 0 : Ext).Is 0 := by simpa using Ext.Is.lit 0
private theorem big_is : (lit (9 * 10 ^ 99) : Ext).Is (9 * 10 ^ 99) := ⟨false, by rw [Ext.lit_ext]; push_cast; rfl⟩

private theorem is_unique {a : Ext} {x y : ℝ} (h : a.Is x) (h' : a.Is y) : x = y := by
  obtain ⟨s, rfl⟩ := h
  obtain ⟨s', e⟩ := h'
  injection e

private theorem pos_of {a : Ext} {x : ℝ} (h : a.Is x) (h0 : 0 < x) : (lit 0 <. a) = true := by
  rw [zero_is.lt h]; simpa using h0

/-- The nearest hit is not behind any other. -/
private theorem nearest_le {hits : List (HitRecord Ext (Mat Ext))} {front : HitRecord Ext (Mat Ext)}
    (h : IsNearest hits front) : ∀ hit ∈ hits, (lit 0 <. hit.t) = true → (front.t <=. hit.t) = true := by
  obtain ⟨before, after, rfl, hpos, h1, h2⟩ := h
  intro hit hh hp
  rcases List.mem_append.1 hh with hh | hh
  · exact h1 hit hh hp
  · rcases List.mem_cons.1 hh with rfl | hh
    · obtain ⟨a, b, ka, kb, -⟩ := (CmpModel.lt_iff _ _).1 hp
      exact (CmpModel.le_iff _ _).2 ⟨b, b, kb, kb, le_rfl⟩
    · obtain ⟨a, b, ka, kb, hab⟩ := (CmpModel.lt_iff _ _).1 (h2 hit hh hp)
      exact (CmpModel.le_iff _ _).2 ⟨a, b, ka, kb, hab.le⟩

private theorem far_le {a b : Ext} {T : ℝ} (h : (a <=. b) = true) (hb : b.Is T) (hT : T < 9 * 10 ^ 99) :
    (a <. (lit (9 * 10 ^ 99) : Ext)) = true := by
  have hlt : (b <. (lit (9 * 10 ^ 99) : Ext)) = true := by rw [hb.lt big_is]; simpa using hT
  obtain ⟨x, y, kx, ky, hxy⟩ := (CmpModel.le_iff _ _).1 h
  obtain ⟨y', z, ky', kz, hyz⟩ := (CmpModel.lt_iff _ _).1 hlt
  rw [ky] at ky'
  cases ky'
  exact (CmpModel.lt_iff _ _).2 ⟨x, z, kx, kz, lt_of_le_of_lt hxy hyz⟩

/-- What one hit says about the things. -/
private def Tells (ghost : Prop) (R : Ray ℝ) (hit : HitRecord Ext (Mat Ext)) (things : List Thing) : Prop :=
  (∃ T, ∃ th ∈ things, hit.t.Is T ∧ 0 < T ∧ th.on (R.at T) ∧ HasColor hit (th.col (R.at T)) ∧
      ∀ other ∈ things, ∀ T' > 0, other.on (R.at T') → T ≤ T') ∨
    ((∀ th ∈ things, ∀ T > 0, ¬ th.on (R.at T)) ∧
      ((lit 0 <. hit.t) = false ∨ ghost ∧ (hit.t <. (lit (9 * 10 ^ 99) : Ext)) = false))

private theorem showsAll_reports {ghost : Prop} {objs : List (Obj Ext (Mat Ext))} {things : List (List Thing)} {R : Ray ℝ}
    (h : List.Forall₂ (fun o ths => ShowsAll ghost o ths R) objs things) {r : Ray Ext} (hr : r.Is R) :
    ∃ hits, Reports objs r hits ∧ List.Forall₂ (Tells ghost R) hits things := by
  induction h with
  | nil => exact ⟨[], .nil, .nil⟩
  | cons h _ ih =>
    obtain ⟨hits, h1, h2⟩ := ih
    obtain ⟨hit, e, hg⟩ := h r hr
    exact ⟨hit :: hits, .cons ⟨r, e⟩ h1, .cons hg h2⟩

/-- The light along one ray, in a scene without media whose objects show things. Ghosts do not matter if something is met
in front of them. -/
theorem lightField_assembly (s : Scene Ext) (hm : s.media = []) (ghost : Prop) (things : List (List Thing)) (R : Ray ℝ)
    (hs : List.Forall₂ (fun o ths => ShowsAll ghost o ths R) (s.objects ++ s.lights.map Light.object) things)
    (hghost : ghost → ∃ th ∈ things.flatten, ∃ T > 0, T < 9 * 10 ^ 99 ∧ th.on (R.at T))
    (r : Ray Ext) (hr : r.Is R) :
    ∃ c C, c.Is C ∧ Sees things.flatten R C ∧ ∀ (rng : Rng Ext S) (n : Nat) (ctx : Ctx Ext S), s.recursionDepth ≠ ctx.depth →
      s.lightField rng (n + 1) .direct r ctx = .ok (c, ctx) := by
  obtain ⟨hits, hrep, hgood⟩ := showsAll_reports hs hr
  -- whatever is met is reported not before its first point
  have met : ∀ th ∈ things.flatten, ∀ T > 0, th.on (R.at T) → ∃ hit ∈ hits, ∃ T2, hit.t.Is T2 ∧ 0 < T2 ∧ T2 ≤ T := by
    intro th hth T hT hon
    obtain ⟨ths, hths, hth⟩ := List.mem_flatten.1 hth
    obtain ⟨hit, hh, hg⟩ := forall₂_right hgood ths hths
    rcases hg with ⟨T2, -, -, ht2, h20, -, -, hle⟩ | ⟨hnone, -⟩
    · exact ⟨hit, hh, T2, ht2, h20, hle th hth T hT hon⟩
    · exact absurd hon (hnone th hth T hT)
  obtain ⟨front, -, hf⟩ := C13_nearest _ r hits hrep
  rcases hf with hf | ⟨-, hno⟩
  · have hle := nearest_le hf
    obtain ⟨before, after, e, hpos, -, -⟩ := id hf
    obtain ⟨ths, hths, hg⟩ := forall₂_left hgood front (by rw [e]; simp)
    rcases hg with ⟨T, th, hth, hT, hT0, hon, ⟨tex, c, hmat, htex, hc⟩, -⟩ | ⟨-, h | ⟨g, hfar⟩⟩
    · refine ⟨c, th.col (R.at T), hc, .inl ⟨th, List.mem_flatten.2 ⟨ths, hths, hth⟩, T, hT0, hon, rfl, ?_⟩,
        fun rng n ctx hne => C13_shaded rng s hm n .direct r ctx hne hits hrep front hf tex hmat c htex⟩
      intro other ho T' hT' hon'
      obtain ⟨hit, hh, T2, ht2, h20, h2⟩ := met other ho T' hT' hon'
      have := hle hit hh (pos_of ht2 h20)
      rw [hT.le ht2, decide_eq_true_eq] at this
      exact this.trans h2
    · rw [hpos] at h; cases h
    · exfalso
      obtain ⟨th, hth, T, hT, hlt, hon⟩ := hghost g
      obtain ⟨hit, hh, T2, ht2, h20, h2⟩ := met th hth T hT hon
      have := far_le (hle hit hh (pos_of ht2 h20)) ht2 (lt_of_le_of_lt h2 hlt)
      rw [this] at hfar; cases hfar
  · refine ⟨Color.black, ⟨0, 0, 0⟩, ⟨zero_is, zero_is, zero_is⟩, .inr ⟨?_, rfl⟩, fun rng n ctx _ =>
      C13_nothing rng s hm n .direct r ctx hits hrep hno⟩
    intro th hth T hT hon
    obtain ⟨hit, hh, T2, ht2, h20, -⟩ := met th hth T hT hon
    have := hno hit hh
    rw [pos_of ht2 h20] at this
    cases this

/-- **C94.** Take a scene without media whose objects, and the bodies of whose lights, are put together from things, which
they show along all lines of sight; a pinhole camera turned by yaw, pitch and roll and moved to `eye`; recursion depth at
least 1; no anti-aliasing. Then after any positive number of passes, for any number of workers, any schedule, any random
source and any seeds, the picture shows in every pixel the colour of the thing first met along the line of sight through the
centre of the pixel, and black where there is none. Objects may report ghosts along lines of sight that meet something. -/
theorem C94_picture (s : Scene Ext) (hm : s.media = []) (hd : 0 < s.recursionDepth) (things : List (List Thing))
    (V : View) (h0 : 0 < V.fov) (h1 : V.fov < Real.pi) (fov yaw pitch roll : Ext) (eye : Vec Ext) (hf : fov.Is V.fov)
    (hy : yaw.Is V.yaw) (hp : pitch.Is V.pitch) (hr : roll.Is V.roll) (he : eye.Is V.eye) (w h : Nat)
    (hs : ∀ p : Pixel, p.1 < w → p.2 < h → List.Forall₂ (fun o ths =>
      ShowsAll (∃ th ∈ things.flatten, ∃ T > 0, T < 9 * 10 ^ 99 ∧ th.on ((V.sight w h p.1 p.2).at T)) o ths
        (V.sight w h p.1 p.2)) (s.objects ++ s.lights.map Light.object) things) :
    ∃ cam, Cam.projective fov = .ok cam ∧
      ∀ (rng : Rng Ext S) (shifts : List (Ext × Ext)), w * h ≤ shifts.length →
      ∀ (W : Nat), 0 < W → ∀ (seeds : Fin W → S) (nPass : Nat), 0 < nPass →
      ∀ (t : SamplerState Ext (Ctx Ext S) W) (k : Nat),
        Runs (ctxShader (s.imageFunc rng ((cam.yawPitchRoll yaw pitch roll).translate eye))) w h false nPass
          (samplerInit w h (fun i => Ctx.new shifts (seeds i)) fun _ => Cell.zero) k t → t.done →
        ∀ p : Pixel, p.1 < w → p.2 < h → ∃ C, ((t.mem p).image).Is C ∧ Sees things.flatten (V.sight w h p.1 p.2) C :=
  picture_of_rays s hd (fun p C => Sees things.flatten (V.sight w h p.1 p.2) C) V h0 h1 fov yaw pitch roll eye hf hy hp hr
    he w h fun p hx hy r hr => lightField_assembly (S := S) s hm _ things _ (hs p hx hy) id r hr

/-! ## The parts -/

/-- What shows one thing (C80) shows it here. -/
theorem Shows.all {o : Obj Ext (Mat Ext)} {th : Thing} {R : Ray ℝ} (h : Shows o th R) : ShowsAll False o [th] R := by
  intro r hr
  obtain ⟨hit, r', e, hrep, hcol⟩ := h r hr
  obtain rfl := C15_ray_unchanged _ _ _ _ e
  refine ⟨hit, e, ?_⟩
  rcases hrep with ⟨T, h1, h2, h3, h4⟩ | ⟨h1, h2 | ⟨h2, -⟩⟩
  · exact .inl ⟨T, th, by simp, h1, h2, h3, hcol T h1 h2, fun other ho => by rw [List.mem_singleton.1 ho]; exact h4⟩
  · exact .inr ⟨fun th' h' => by rw [List.mem_singleton.1 h']; exact h1, .inl h2⟩
  · exact h2.elim

/-- **C94, boxes.** A flat box shows its surface, painted relative to its lower corner, along every ray that does not start
on it nor run in the plane of a face. -/
theorem C94_box (tex : Tex Ext) (Col : Vec ℝ → Color ℝ) (htex : tex.Paints Col) (b : BBox Ext) (B : BBox ℝ) (hb : b.Is B)
    (hB : B.Proper) (R : Ray ℝ) (hd : R.dir ≠ ⟨0, 0, 0⟩) (hn : B.NotInFace R) (hs : ¬ B.OnSurface R.start) :
    ShowsAll False (.box b (some (.flat tex))) [⟨B.OnSurface, fun p => Col (p.sub B.min)⟩] R := by
  intro r hr
  obtain ⟨hit, e, hmiss, hhit⟩ := C19_box_object b B hb hB r R hr hd hn (some (Mat.flat tex))
  refine ⟨hit, by rw [Obj.intersect, e]; rfl, ?_⟩
  have hoff := C19_off_surface b B hb hB r R hr hd hn hs
  cases hi : b.intersects r with
  | false =>
    right
    refine ⟨?_, .inl (by rw [hmiss hi]; simp [HitRecord.miss])⟩
    intro th hth T hT hon
    rw [List.mem_singleton.1 hth] at hon
    have := hoff.2 ⟨T, hT, hon.1⟩
    rw [hi] at this; cases this
  | true =>
    left
    obtain ⟨T, N, hT, hT0, hon, -, -, hmat, hloc⟩ := hhit hi
    obtain ⟨c, ec, hc⟩ := htex _ _ hloc
    obtain ⟨T1, hT1, hT10, -, hout, hin⟩ := C19_distance b B hb hB r R hr hd hn hi
    have et : hit.t = b.intersect r := by
      unfold BBox.hit at e
      dsimp only at e
      rw [show (b.intersect r >. lit 0) = b.intersects r from rfl, hi] at e
      simp only [Bool.not_true, Bool.false_eq_true, if_false] at e
      obtain ⟨n, -, e⟩ := bind_eq_ok.1 e
      cases e
      rfl
    obtain rfl : T1 = T := is_unique hT1 (et ▸ hT)
    refine ⟨T1, _, List.mem_singleton.2 rfl, hT, hT0, hon, ⟨tex, c, hmat, ec, hc⟩, ?_⟩
    intro other ho T' hT' hon'
    rw [List.mem_singleton.1 ho] at hon'
    by_cases hst : B.Mem R.start
    · by_contra hlt
      rw [not_le] at hlt
      have hnf : ¬ B.OnFacePlane R.start := fun h => hs ⟨hst, h⟩
      unfold BBox.OnFacePlane at hnf
      push Not at hnf
      obtain ⟨n1, n2, n3, n4, n5, n6⟩ := hnf
      obtain ⟨a1, a2, a3, a4, a5, a6⟩ := hst
      obtain ⟨m1, m2, m3, m4, m5, m6⟩ := hon.1
      obtain ⟨-, hf⟩ := hon'
      simp only [BBox.OnFacePlane, Ray.at, Vec.madd] at hf m1 m2 m3 m4 m5 m6
      -- strictly inside at the start, so strictly inside before the end
      have lo : ∀ {x d m : ℝ}, m ≤ x → x ≠ m → m ≤ x + T1 * d → x + T' * d ≠ m := by
        intro x d m h1 h2 h3 h4
        have h1' : m < x := lt_of_le_of_ne h1 (Ne.symm h2)
        nlinarith
      have hi : ∀ {x d m : ℝ}, x ≤ m → x ≠ m → x + T1 * d ≤ m → x + T' * d ≠ m := by
        intro x d m h1 h2 h3 h4
        have h1' : x < m := lt_of_le_of_ne h1 h2
        nlinarith
      rcases hf with hf | hf | hf | hf | hf | hf
      · exact lo a1 n1 m1 hf
      · exact hi a2 n2 m2 hf
      · exact lo a3 n3 m3 hf
      · exact hi a4 n4 m4 hf
      · exact lo a5 n5 m5 hf
      · exact hi a6 n6 m6 hf
    · by_contra hlt
      exact hout hst T' hT'.le (not_le.1 hlt) hon'.1

/-- A ray is at each of its points once. -/
private theorem at_inj {R : Ray ℝ} (hd : R.dir ≠ ⟨0, 0, 0⟩) {T T' : ℝ} (h : R.at T = R.at T') : T = T' := by
  simp only [Ray.at, Vec.madd, Vec.mk.injEq] at h
  obtain ⟨h1, h2, h3⟩ := h
  by_contra hlt
  have z : ∀ {x d : ℝ}, x + T * d = x + T' * d → d = 0 := by
    intro x d h
    have : (T - T') * d = 0 := by linarith
    rcases mul_eq_zero.1 this with h | h
    · exact absurd (sub_eq_zero.1 h) hlt
    · exact h
  exact hd (Vec.ext (z h1) (z h2) (z h3))

/-- **C94, skies.** A flat backdrop shows the colour of the sky in the direction of the ray, at the distance `1e99`. -/
theorem C94_backdrop (tex : Tex Ext) (Col : Vec ℝ → Color ℝ) (htex : tex.Paints Col) (R : Ray ℝ)
    (hd : R.dir ≠ ⟨0, 0, 0⟩) :
    ShowsAll False (.backdrop (some (.flat tex))) [⟨fun p => p = R.at (10 ^ 99), fun _ => Col R.dir⟩] R := by
  intro r hr
  obtain ⟨c, ec, hc⟩ := htex _ _ hr.2
  have far : (lit (10 ^ 99) : Ext).Is (10 ^ 99) := ⟨false, by rw [Ext.lit_ext]; push_cast; rfl⟩
  refine ⟨_, by rw [Obj.intersect], .inl ⟨10 ^ 99, _, List.mem_singleton.2 rfl, far, by norm_num, rfl,
    ⟨tex, c, rfl, ec, hc⟩, ?_⟩⟩
  intro other ho T' _ hon
  rw [List.mem_singleton.1 ho] at hon
  exact (at_inj hd hon).ge

/-- **C94, other materials.** An object that is given a material of one flat colour shows its things in that colour. -/
theorem C94_painted (col : Color Ext) (Col : Color ℝ) (hcol : col.Is Col) (g : Prop) (o : Obj Ext (Mat Ext))
    (things : List Thing) (R : Ray ℝ) (h : ShowsAll g o things R) :
    ShowsAll g (.withMaterial (some (.flat fun _ => .ok col)) o) (things.map (Thing.painted Col)) R := by
  intro r hr
  obtain ⟨hit, e, h⟩ := h r hr
  refine ⟨{ hit with mat := some (.flat fun _ => .ok col) }, by rw [Obj.intersect, e]; rfl, ?_⟩
  rcases h with ⟨T, th, hth, h1, h2, h3, -, h5⟩ | ⟨h1, h2⟩
  · refine .inl ⟨T, _, List.mem_map_of_mem hth, h1, h2, h3, ⟨_, col, rfl, rfl, hcol⟩, ?_⟩
    intro other ho T' hT' hon
    obtain ⟨th', h', rfl⟩ := List.mem_map.1 ho
    exact h5 th' h' T' hT' hon
  · refine .inr ⟨?_, h2⟩
    intro th hth T hT hon
    obtain ⟨th', h', rfl⟩ := List.mem_map.1 hth
    exact h1 th' h' T hT hon

/-- **C94, hollow things and complements** look like the thing. -/
theorem C94_same (g : Prop) (o : Obj Ext (Mat Ext)) (things : List Thing) (R : Ray ℝ) (h : ShowsAll g o things R) :
    ShowsAll g (.hollow o) things R ∧ ShowsAll g (.not o) things R := by
  constructor
  · intro r hr
    obtain ⟨hit, e, h⟩ := h r hr
    exact ⟨hit, by rw [Obj.intersect, e], h⟩
  · intro r hr
    obtain ⟨hit, e, h⟩ := h r hr
    exact ⟨{ hit with normal := hit.normal.mul (lit (-1)) }, by rw [Obj.intersect, e]; rfl, h⟩

/-- **C94, placed things.** An object placed by an invertible affine map shows its things where the map takes them, along
rays that do not start on the new bounding box nor run in the plane of one of its faces. -/
theorem C94_placed (g : Prop) (o o' : Obj Ext (Mat Ext)) (hp : o.Plain) (t : Affine Ext) (T : Affine ℝ) (ht : t.Is T)
    (hdet : T.A.det ≠ 0) (e : o.mkTransformed t = .ok o') (things things' : List Thing)
    (hth : List.Forall₂ (PlacedBy T.point) things things') (b : BBox Ext) (B : BBox ℝ) (hb : o.bounds = .ok b) (hB : b.Is B)
    (hin : ∀ th ∈ things, ∀ p, th.on p → B.Mem p) (R : Ray ℝ) (hd : R.dir ≠ ⟨0, 0, 0⟩)
    (hclear : ∀ b' B', o'.bounds = .ok b' → b'.Is B' → B'.NotInFace R ∧ ¬ B'.OnSurface R.start)
    (h : ShowsAll g o things (T.pullRay R)) : ShowsAll g o' things' R := by
  obtain ⟨bb, b', h1, h2, rfl⟩ := o.mkTransformed_ok o' hp t e
  rw [hb] at h1; cases h1
  obtain ⟨b1, B', e1, e2, hi⟩ := BBox.transform_is hB ht
  rw [e1] at h2; cases h2
  obtain ⟨B2, e3, -, himg, -⟩ := B.transform_real T
  rw [e2] at e3; cases e3
  obtain ⟨hn, hs⟩ := hclear b' B' (by rw [Obj.bounds]) hi
  -- where the things are met
  have meets : ∀ th ∈ things, ∀ th' ∈ things', PlacedBy T.point th th' → ∀ s, (th'.on (R.at s) ↔ th.on ((T.pullRay R).at s)) ∧
      th'.col (R.at s) = th.col ((T.pullRay R).at s) := by
    intro th _ th' _ hpl s
    rw [C29_points T hdet R s]
    exact hpl _
  intro r hr
  have hoff := C19_off_surface b' B' hi (BBox.transform_proper e2) r R hr hd hn hs
  have hpull : (t.pullRay r).Is (T.pullRay R) := ⟨(ht.inverse hdet).point hr.1, (ht.inverse hdet).dir hr.2⟩
  cases hint : b'.intersects r with
  | false =>
    refine ⟨HitRecord.miss, by rw [Obj.intersect, hint]; rfl, .inr ⟨?_, .inl (by simp [HitRecord.miss])⟩⟩
    intro th' hth' s hs0 hon
    obtain ⟨th, hthm, hpl⟩ := forall₂_right hth th' hth'
    have : b'.intersects r = true := by
      refine hoff.2 ⟨s, hs0, ?_⟩
      rw [C29_points T hdet R s]
      exact himg _ (hin th hthm _ ((meets th hthm th' hth' hpl s).1.1 hon))
    rw [hint] at this; cases this
  | true =>
    obtain ⟨hit, eh, hc⟩ := h (t.pullRay r) hpull
    refine ⟨{ hit with normal := t.dir hit.normal }, ?_, ?_⟩
    · rw [Obj.intersect, hint]
      simp only [Bool.not_true, Bool.false_eq_true, if_false]
      change (do let (h, _) ← o.intersect (t.pullRay r); return ({ h with normal := t.dir h.normal }, r)) = _
      rw [eh]
      rfl
    · rcases hc with ⟨s, th, hthm, k1, k2, k3, k4, k5⟩ | ⟨k1, k2⟩
      · obtain ⟨th', hth', hpl⟩ := forall₂_left hth th hthm
        obtain ⟨m1, m2⟩ := meets th hthm th' hth' hpl s
        refine .inl ⟨s, th', hth', k1, k2, m1.2 k3, ?_, ?_⟩
        · rw [m2]; exact k4
        · intro other' ho' s' hs' hon
          obtain ⟨other, ho, hpl⟩ := forall₂_right hth other' ho'
          exact k5 other ho s' hs' ((meets other ho other' ho' hpl s').1.1 hon)
      · refine .inr ⟨?_, k2⟩
        intro th' hth' s hs0 hon
        obtain ⟨th, hthm, hpl⟩ := forall₂_right hth th' hth'
        exact k1 th hthm s hs0 ((meets th hthm th' hth' hpl s).1.1 hon)

/-- The common box of the members is within every box that holds their boxes. -/
private theorem hull_within {ch : List (Obj Ext (Mat Ext))} {bb : BBox Ext} {B : BBox ℝ} (hbb : makeBoundingBox ch = .ok bb)
    (hB : bb.Is B) (bounds : Obj Ext (Mat Ext) → BBox ℝ)
    (hb : ∀ o ∈ ch, ∃ b, o.bounds = .ok b ∧ b.Is (bounds o) ∧ (bounds o).Proper) (A : BBox ℝ)
    (hA : ∀ o ∈ ch, ∀ p, (bounds o).Mem p → A.Mem p) (p : Vec ℝ) (hp : B.Mem p) : A.Mem p := by
  obtain ⟨B', hB', -, -, f1, f2, f3, f4, f5, f6⟩ := common_box_faces ch bb hbb bounds hb
  obtain rfl : B' = B := BBox.Is.unique hB' hB
  have corner : ∀ o ∈ ch, A.Mem (bounds o).min ∧ A.Mem (bounds o).max := by
    intro o ho
    obtain ⟨b, -, -, q1, q2, q3⟩ := hb o ho
    exact ⟨hA o ho _ ⟨le_rfl, q1, le_rfl, q2, le_rfl, q3⟩, hA o ho _ ⟨q1, le_rfl, q2, le_rfl, q3, le_rfl⟩⟩
  obtain ⟨p1, p2, p3, p4, p5, p6⟩ := hp
  refine ⟨?_, ?_, ?_, ?_, ?_, ?_⟩
  · obtain ⟨o, ho, e | e⟩ := f1
    · have := (corner o ho).1.1; linarith
    · have := (corner o ho).2.1; linarith
  · obtain ⟨o, ho, e | e⟩ := f2
    · have := (corner o ho).1.2.1; linarith
    · have := (corner o ho).2.2.1; linarith
  · obtain ⟨o, ho, e | e⟩ := f3
    · have := (corner o ho).1.2.2.1; linarith
    · have := (corner o ho).2.2.2.1; linarith
  · obtain ⟨o, ho, e | e⟩ := f4
    · have := (corner o ho).1.2.2.2.1; linarith
    · have := (corner o ho).2.2.2.2.1; linarith
  · obtain ⟨o, ho, e | e⟩ := f5
    · have := (corner o ho).1.2.2.2.2.1; linarith
    · have := (corner o ho).2.2.2.2.2.1; linarith
  · obtain ⟨o, ho, e | e⟩ := f6
    · have := (corner o ho).1.2.2.2.2.2; linarith
    · have := (corner o ho).2.2.2.2.2.2; linarith

/-- **C94, trees.** A tree shows the things of all its members, along rays that start clear of the bounding boxes of its
members. It may report a ghost (`g`) if it has at most seven members and the ray meets none of its things but meets every box
that holds the boxes of all members. Members may report ghosts, which the tree hides. -/
theorem C94_tree (St : Sorter (Obj Ext (Mat Ext))) (g : Prop) (ch l : List (Obj Ext (Mat Ext))) (o : Obj Ext (Mat Ext))
    (h : mkTree St ch = .ok (o, l)) (things : List (List Thing)) (R : Ray ℝ) (hd : R.dir ≠ ⟨0, 0, 0⟩)
    (hs : List.Forall₂ (fun o ths => ShowsAll True o ths R) ch things)
    (hb : List.Forall₂ (fun o ths => ∃ b B, o.bounds = .ok b ∧ b.Is B ∧ B.Proper ∧ ∀ th ∈ ths, ∀ p, th.on p → B.Mem p)
      ch things)
    (hclear : ClearOf (fun B => ∃ o ∈ ch, ∃ b, o.bounds = .ok b ∧ b.Is B) R)
    (hfar : ∀ th ∈ things.flatten, ∀ T, th.on (R.at T) → T < 9 * 10 ^ 99)
    (hsmall : 7 < ch.length ∨ g ∨ (∃ th ∈ things.flatten, ∃ T > 0, th.on (R.at T)) ∨
      ∃ A : BBox ℝ, (∀ o ∈ ch, ∀ b B, o.bounds = .ok b → b.Is B → ∀ p, B.Mem p → A.Mem p) ∧ ∀ T > 0, ¬ A.Mem (R.at T)) :
    ShowsAll g o things.flatten R := by
  obtain ⟨⟨n, l'⟩, hn, h⟩ := bind_eq_ok.1 h
  cases h
  have hs' : ∀ {o ths}, (o, ths) ∈ ch.zip things → ShowsAll True o ths R := (List.forall₂_iff_zip.1 hs).2
  have hb' : ∀ {o ths}, (o, ths) ∈ ch.zip things → ∃ b B, o.bounds = .ok b ∧ b.Is B ∧ B.Proper ∧
      ∀ th ∈ ths, ∀ p, th.on p → B.Mem p := (List.forall₂_iff_zip.1 hb).2
  intro r hr
  obtain ⟨hit, e, hh⟩ := tree_of_surfaces St ch n l hn r R hr hd
    (fun o s => ∃ ths, (o, ths) ∈ ch.zip things ∧ s = fun p => ∃ th ∈ ths, th.on p) (by
      intro o ho
      obtain ⟨i, hi, rfl⟩ := List.getElem_of_mem ho
      have hl := hs.length_eq
      refine ⟨_, things[i]'(hl ▸ hi), ?_, rfl⟩
      exact List.mem_of_getElem? (i := i) (by simp [hi, hl ▸ hi])) (by
      rintro o ho s ⟨ths, hz, rfl⟩
      obtain ⟨hit, e, hh⟩ := hs' hz r hr
      refine ⟨hit, e, ?_⟩
      rcases hh with ⟨T, th, hth, h1, h2, h3, -, h5⟩ | ⟨h1, h2⟩
      · refine .inl ⟨T, h1, h2, ⟨th, hth, h3⟩, ?_⟩
        rintro T' hT' ⟨th', hth', hon⟩
        exact h5 th' hth' T' hT' hon
      · refine .inr ⟨?_, h2.imp id And.right⟩
        rintro T hT ⟨th, hth, hon⟩
        exact h1 th hth T hT hon) (by
      rintro o ho s ⟨ths, hz, rfl⟩
      obtain ⟨b, B, h1, h2, h3, h4⟩ := hb' hz
      refine ⟨b, B, h1, h2, h3, ?_⟩
      rintro p ⟨th, hth, hon⟩
      exact h4 th hth p hon) hclear (by
      rintro o ho s ⟨ths, hz, rfl⟩ T ⟨th, hth, hon⟩
      exact hfar th (List.mem_flatten.2 ⟨ths, (List.of_mem_zip hz).2, hth⟩) T hon)
  refine ⟨hit, e, ?_⟩
  have part : ∀ th ∈ things.flatten, ∃ o ∈ ch, ∃ ths, (o, ths) ∈ ch.zip things ∧ th ∈ ths := by
    intro th hth
    obtain ⟨ths, hths, hth⟩ := List.mem_flatten.1 hth
    obtain ⟨i, hi, rfl⟩ := List.getElem_of_mem hths
    have hl := hs.length_eq
    have hz : (ch[i]'(hl.symm ▸ hi), things[i]) ∈ ch.zip things :=
      List.mem_of_getElem? (i := i) (by simp [hi, hl.symm ▸ hi])
    exact ⟨_, (List.of_mem_zip hz).1, _, hz, hth⟩
  rcases hh with ⟨T, o, ho, s, ⟨ths, hz, rfl⟩, h1, h2, h3, h4, h5⟩ | ⟨hnone, hcase, -⟩
  · left
    obtain ⟨hit', e', hh⟩ := hs' hz r hr
    rw [h4] at e'
    cases e'
    obtain ⟨th0, hth0, hon0⟩ := h3
    rcases hh with ⟨T', th, hth, k1, k2, k3, k4, k5⟩ | ⟨k1, -⟩
    · obtain rfl := is_unique h1 k1
      refine ⟨T, th, List.mem_flatten.2 ⟨ths, (List.of_mem_zip hz).2, hth⟩, h1, h2, k3, k4, ?_⟩
      intro other ho T' hT' hon
      obtain ⟨o', ho', ths', hz', hm⟩ := part other ho
      exact h5 o' ho' _ ⟨ths', hz', rfl⟩ T' hT' ⟨other, hm, hon⟩
    · exact absurd hon0 (k1 th0 hth0 T h2)
  · have hno : ∀ th ∈ things.flatten, ∀ T > 0, ¬ th.on (R.at T) := by
      intro th hth T hT hon
      obtain ⟨o', ho', ths', hz', hm⟩ := part th hth
      exact hnone o' ho' _ ⟨ths', hz', rfl⟩ T hT ⟨th, hm, hon⟩
    refine .inr ⟨hno, ?_⟩
    rcases hcase with hc | ⟨hlen, hbox, rfl⟩
    · exact .inl hc
    · rcases hsmall with h7 | hg | ⟨th, hth, T, hT, hon⟩ | ⟨A, hA, hmiss⟩
      · omega
      · refine .inr ⟨hg, ?_⟩
        change ((lit (9 * 10 ^ 99) : Ext) <. lit (9 * 10 ^ 99)) = false
        rw [big_is.lt big_is]; simp
      · exact absurd hon (hno th hth T hT)
      · exfalso
        -- the box of the tree is not met
        classical
        obtain ⟨-, ⟨bb, hbbm, ebb⟩, -⟩ := buildTree_boxes St ch n l hn
        have hbs : ∀ o, ∃ B : BBox ℝ, o ∈ ch → ∃ b, o.bounds = .ok b ∧ b.Is B ∧ B.Proper := by
          intro o
          by_cases ho : o ∈ ch
          · obtain ⟨ths, -, b, B, h1, h2, h3, -⟩ := forall₂_left hb o ho
            exact ⟨B, fun _ => ⟨b, h1, h2, h3⟩⟩
          · exact ⟨⟨⟨0, 0, 0⟩, ⟨0, 0, 0⟩⟩, fun h => absurd h ho⟩
        choose bounds hbd using hbs
        obtain ⟨B, k1, k2, k3, k4, k5⟩ := clear_hull (ch := ch) (bounds := bounds) (R := R) (hclear.mono (by
          rintro B ⟨o, ho, rfl⟩
          obtain ⟨b, h1, h2, -⟩ := hbd o ho
          exact ⟨o, ho, b, h1, h2⟩)) (fun _ h => h) hbbm hbd
        have hni : bb.intersects r = false := by
          rw [Bool.eq_false_iff]
          intro hi
          obtain ⟨T, hT, hm⟩ := (C19_off_surface bb B k1 k2 r R hr hd k4 k5).1 hi
          refine hmiss T hT (hull_within hbbm k1 bounds hbd A ?_ _ hm)
          intro o ho p hp
          obtain ⟨b, h1, h2, -⟩ := hbd o ho
          exact hA o ho b _ h1 h2 p hp
        have := BBox.intersect_le_zero bb B k1 k2 r R hr hd k4 hni
        rw [ebb, show bb.toF = bb from rfl, this] at hbox
        cases hbox

/-! ## Before a sky -/

/-- **C94, with a sky.** The scene also has a flat backdrop, somewhere among its objects and lights, and all else is met at
less than `1e99`. Then the picture shows in every pixel the colour of the thing first met along the line of sight, and that
of the sky in this direction where there is none. Ghosts are hidden by the sky. -/
theorem C94_sky (s : Scene Ext) (hm : s.media = []) (hd : 0 < s.recursionDepth) (tex : Tex Ext) (sky : Vec ℝ → Color ℝ)
    (htex : tex.Paints sky) (pre post : List (Obj Ext (Mat Ext)))
    (hsky : s.objects ++ s.lights.map Light.object = pre ++ .backdrop (some (.flat tex)) :: post)
    (things things' : List (List Thing))
    (V : View) (h0 : 0 < V.fov) (h1 : V.fov < Real.pi) (fov yaw pitch roll : Ext) (eye : Vec Ext) (hf : fov.Is V.fov)
    (hy : yaw.Is V.yaw) (hp : pitch.Is V.pitch) (hr : roll.Is V.roll) (he : eye.Is V.eye) (w h : Nat)
    (hs : ∀ p : Pixel, p.1 < w → p.2 < h →
      List.Forall₂ (fun o ths => ShowsAll True o ths (V.sight w h p.1 p.2)) pre things ∧
      List.Forall₂ (fun o ths => ShowsAll True o ths (V.sight w h p.1 p.2)) post things' ∧
      ∀ th ∈ (things ++ things').flatten, ∀ T, th.on ((V.sight w h p.1 p.2).at T) → T < 10 ^ 99) :
    ∃ cam, Cam.projective fov = .ok cam ∧
      ∀ (rng : Rng Ext S) (shifts : List (Ext × Ext)), w * h ≤ shifts.length →
      ∀ (W : Nat), 0 < W → ∀ (seeds : Fin W → S) (nPass : Nat), 0 < nPass →
      ∀ (t : SamplerState Ext (Ctx Ext S) W) (k : Nat),
        Runs (ctxShader (s.imageFunc rng ((cam.yawPitchRoll yaw pitch roll).translate eye))) w h false nPass
          (samplerInit w h (fun i => Ctx.new shifts (seeds i)) fun _ => Cell.zero) k t → t.done →
        ∀ p : Pixel, p.1 < w → p.2 < h → ∃ C, ((t.mem p).image).Is C ∧
          SeesBefore sky (things ++ things').flatten (V.sight w h p.1 p.2) C := by
  refine picture_of_rays s hd (fun p C => SeesBefore sky (things ++ things').flatten (V.sight w h p.1 p.2) C) V h0 h1 fov yaw
    pitch roll eye hf hy hp hr he w h fun p hx hy r hr => ?_
  obtain ⟨q1, q2, q3⟩ := hs p hx hy
  have hne := sight_ne V w h p.1 p.2
  generalize V.sight w h p.1 p.2 = R at *
  have hfor : List.Forall₂ (fun o ths => ShowsAll True o ths R) (s.objects ++ s.lights.map Light.object)
      (things ++ [⟨fun p => p = R.at (10 ^ 99), fun _ => sky R.dir⟩] :: things') := by
    rw [hsky]
    exact List.rel_append q1 (.cons ((C94_backdrop tex sky htex R hne).mono False.elim) q2)
  obtain ⟨c, C, hc, hsee, hl⟩ := lightField_assembly (S := S) s hm True _ R hfor (fun _ =>
    ⟨⟨fun p => p = R.at (10 ^ 99), fun _ => sky R.dir⟩, by simp, 10 ^ 99, by norm_num, by norm_num, rfl⟩) r hr
  refine ⟨c, C, hc, ?_, hl⟩
  have hmem : ∀ th : Thing, th ∈ (things ++ [⟨fun p => p = R.at (10 ^ 99), fun _ => sky R.dir⟩] :: things').flatten ↔
      th ∈ (things ++ things').flatten ∨ th = ⟨fun p => p = R.at (10 ^ 99), fun _ => sky R.dir⟩ := by
    intro th
    simp only [List.flatten_append, List.flatten_cons, List.mem_append, List.mem_singleton]
    tauto
  rcases hsee with ⟨th, hth, T, hT, hon, hC, hle⟩ | ⟨hnone, -⟩
  · rcases (hmem th).1 hth with hth | rfl
    · exact .inl ⟨th, hth, T, hT, hon, hC, fun other ho => hle other ((hmem other).2 (.inl ho))⟩
    · refine .inr ⟨fun other ho T' hT' hon' => ?_, hC⟩
      have e1 := hle other ((hmem other).2 (.inl ho)) T' hT' hon'
      have e2 := q3 other ho T' hon'
      rw [at_inj hne hon] at e1
      exact absurd e2 (not_lt.2 e1)
  · exact absurd rfl (hnone _ ((hmem _).2 (.inr rfl)) (10 ^ 99) (by norm_num))

/-! ## Solids -/

/-- The ball with the centre and diameter, with its colours relative to the centre. -/
def Solid.ball (C : Vec ℝ) (d : ℝ) (Col : Vec ℝ → Color ℝ) : Solid :=
  ⟨[⟨fun p => AtDistance p C (d / 2), fun p => Col (p.sub C)⟩],
    fun p => (p.x - C.x) ^ 2 + (p.y - C.y) ^ 2 + (p.z - C.z) ^ 2 < (d / 2) ^ 2⟩

/-- Which points of the ray are within the solid. -/
noncomputable def Solid.along (A : Solid) (R : Ray ℝ) (t : ℝ) : Bool := by
  classical exact decide (A.within (R.at t))

theorem Solid.along_iff {A : Solid} {R : Ray ℝ} {t : ℝ} : A.along R t = true ↔ A.within (R.at t) := by simp [Solid.along]

/-- Along the ray, the object is the solid. The ray passes through the surface of the solid at every point where it meets it,
and all these are in `D`. From wherever on the ray it is asked, the object reports the first such point, with the colour
of the surface there. -/
structure SolidAlong (o : Obj Ext (Mat Ext)) (A : Solid) (R : Ray ℝ) (D : Finset ℝ) : Prop where
  profile : o.Profile R D (A.along R)
  surface : ∀ t > 0, (∃ th ∈ A.surface, th.on (R.at t)) ↔ Crosses (A.along R) t
  paint : ∀ k ≥ 0, ∀ r : Ray Ext, r.Is ⟨R.at k, R.dir⟩ → ∀ hit r', o.intersect r = .ok (hit, r') → ∀ T, hit.t.Is T → 0 < T →
    ∃ th ∈ A.surface, th.on (R.at (k + T)) ∧ HasColor hit (th.col (R.at (k + T)))

private theorem at_at (R : Ray ℝ) (k t : ℝ) : (⟨R.at k, R.dir⟩ : Ray ℝ).at t = R.at (k + t) := by
  simp only [Ray.at, geo]; refine ⟨?_, ?_, ?_⟩ <;> ring

private theorem at_zero (R : Ray ℝ) : (⟨R.at 0, R.dir⟩ : Ray ℝ) = R := by
  simp only [Ray.at, geo]; simp

/-- **C94, solids** show their surface, along rays that do not start on it. -/
theorem C94_solid (o : Obj Ext (Mat Ext)) (A : Solid) (R : Ray ℝ) (D : Finset ℝ) (h : SolidAlong o A R D) (h0 : (0 : ℝ) ∉ D) :
    ShowsAll False o A.surface R := by
  intro r hr
  have hr0 : r.Is ⟨R.at 0, R.dir⟩ := by rw [at_zero]; exact hr
  obtain ⟨hit, e, hc⟩ := h.profile.hit 0 le_rfl h0 r hr0
  refine ⟨hit, e, ?_⟩
  rcases hc with ⟨c, ⟨⟨hc0, hcr⟩, hleast⟩, ht⟩ | ⟨hno, hmiss⟩
  · rw [sub_zero] at ht
    obtain ⟨th, hth, hon, hcol⟩ := h.paint 0 le_rfl r hr0 hit r e c ht hc0
    rw [zero_add] at hon hcol
    exact .inl ⟨c, th, hth, ht, hc0, hon, hcol, fun other ho T' hT' hon' =>
      hleast ⟨hT', (h.surface T' hT').1 ⟨other, ho, hon'⟩⟩⟩
  · exact .inr ⟨fun th hth T hT hon => hno T hT ((h.surface T hT).1 ⟨th, hth, hon⟩), .inl hmiss⟩

private theorem crosses_not (I : ℝ → Bool) (c : ℝ) : Crosses (fun t => !I t) c ↔ Crosses I c := by
  unfold Crosses
  simp only [ne_eq, Bool.not_eq_eq_eq_not, Bool.not_not]

/-- **C94, complements.** -/
theorem C94_solid_not (o : Obj Ext (Mat Ext)) (A : Solid) (R : Ray ℝ) (D : Finset ℝ) (h : SolidAlong o A R D) :
    SolidAlong (.not o) A.not R D := by
  have e : A.not.along R = fun t => !A.along R t := by
    funext t
    rw [Bool.eq_iff_iff, Solid.along_iff, Bool.not_eq_true', ← Bool.not_eq_true, Solid.along_iff]
    rfl
  refine ⟨?_, ?_, ?_⟩
  · rw [e]; exact C17_not_first _ _ _ _ h.profile
  · intro t ht
    rw [e, crosses_not]
    exact h.surface t ht
  · intro k hk r hr hit r' hi T hT hT0
    rw [Obj.intersect] at hi
    obtain ⟨⟨hit0, r0⟩, h1, h2⟩ := bind_eq_ok.1 hi
    cases h2
    exact h.paint k hk r hr hit0 _ h1 T hT hT0

/-- Where the surface of one operand counts. -/
private theorem surface_part {oa ob : Obj Ext (Mat Ext)} {A B : Solid} {R : Ray ℝ} {D D' : Finset ℝ} (ha : SolidAlong oa A R D)
    (hb : SolidAlong ob B R D') (hd : Disjoint D D') (want : Bool) (t : ℝ) (ht : 0 < t) :
    (∃ th ∈ A.surface.map (Thing.part fun p => B.within p ↔ want = true), th.on (R.at t)) ∨
      (∃ th ∈ B.surface.map (Thing.part fun p => A.within p ↔ want = true), th.on (R.at t)) ↔
    Crosses (fun t => both want (A.along R t) (B.along R t)) t := by
  have hA : (∃ th ∈ A.surface.map (Thing.part fun p => B.within p ↔ want = true), th.on (R.at t)) ↔
      Crosses (A.along R) t ∧ B.along R t = want := by
    rw [← ha.surface t ht, show (B.along R t = want) ↔ _ from Bool.eq_iff_iff, Solid.along_iff]
    constructor
    · rintro ⟨th, hth, hon⟩
      obtain ⟨th', h', rfl⟩ := List.mem_map.1 hth
      exact ⟨⟨th', h', hon.1⟩, hon.2⟩
    · rintro ⟨⟨th, hth, hon⟩, hw⟩
      exact ⟨_, List.mem_map_of_mem hth, hon, hw⟩
  have hB : (∃ th ∈ B.surface.map (Thing.part fun p => A.within p ↔ want = true), th.on (R.at t)) ↔
      Crosses (B.along R) t ∧ A.along R t = want := by
    rw [← hb.surface t ht, show (A.along R t = want) ↔ _ from Bool.eq_iff_iff, Solid.along_iff]
    constructor
    · rintro ⟨th, hth, hon⟩
      obtain ⟨th', h', rfl⟩ := List.mem_map.1 hth
      exact ⟨⟨th', h', hon.1⟩, hon.2⟩
    · rintro ⟨⟨th, hth, hon⟩, hw⟩
      exact ⟨_, List.mem_map_of_mem hth, hon, hw⟩
  rw [hA, hB]
  have hcomm : (fun t => both want (A.along R t) (B.along R t)) = fun t => both want (B.along R t) (A.along R t) := by
    funext t
    cases want <;> simp [both, Bool.and_comm, Bool.or_comm]
  by_cases hm : t ∈ D'
  · have hn : t ∉ D := fun h => Finset.disjoint_left.1 hd h hm
    rw [hcomm, cross_both (I := B.along R) ha.profile hn]
    constructor
    · rintro (h | h)
      · exact absurd (ha.profile.cross_mem h.1) hn
      · exact h
    · exact .inr
  · rw [cross_both (I := A.along R) hb.profile hm]
    constructor
    · rintro (h | h)
      · exact h
      · exact absurd (hb.profile.cross_mem h.1) hm
    · exact .inl

/-- The colour of a hit on a combination. -/
private theorem hitOf_paint {oa ob : Obj Ext (Mat Ext)} {A B : Solid} {R : Ray ℝ} {D D' : Finset ℝ} (ha : SolidAlong oa A R D)
    (hb : SolidAlong ob B R D') (hd : Disjoint D D') (want : Bool) {k : ℝ} (hk : 0 ≤ k) {hit : HitRecord Ext (Mat Ext)}
    (h : HitOf oa ob want ⟨R.at k, R.dir⟩ hit) {T : ℝ} (hT : hit.t.Is T) :
    ∃ th ∈ A.surface.map (Thing.part fun p => B.within p ↔ want = true), th.on (R.at (k + T)) ∧
      HasColor hit (th.col (R.at (k + T))) := by
  obtain ⟨k1, T1, r', r'', h0, hk1, hr', e, ht0, hT1, ht, hrec, hin, hp⟩ := h
  obtain rfl := is_unique hT ht
  rw [at_at] at hr' hp
  obtain ⟨th, hth, hon, hcol⟩ := ha.paint (k + k1) (by linarith) r' hr' h0 r'' e T1 ht0 hT1
  rw [add_assoc] at hon hcol
  have hpos : 0 < k + (k1 + T1) := by linarith
  have hD : k + (k1 + T1) ∈ D := ha.profile.cross_mem ((ha.surface _ hpos).1 ⟨th, hth, hon⟩)
  have hw := hb.profile.inside _ hpos (fun h => Finset.disjoint_left.1 hd hD h) _ hp
  rw [hin] at hw
  injection hw with hw
  refine ⟨_, List.mem_map_of_mem hth, ⟨hon, ?_⟩, ?_⟩
  · dsimp only
    rw [← Solid.along_iff, ← hw]
  · obtain ⟨tex, c, h1, h2, h3⟩ := hcol
    rw [hrec]
    exact ⟨tex, c, h1, h2, h3⟩

/-- **C94, intersections** of two solids whose surfaces the ray passes separately (more than the marching step apart, at most
100 times each). -/
theorem C94_solid_and (oa ob : Obj Ext (Mat Ext)) (A B : Solid) (R : Ray ℝ) (D D' : Finset ℝ) (ha : SolidAlong oa A R D)
    (hb : SolidAlong ob B R D') (hs : Separated (D ∪ D')) (hd : Disjoint D D') (hn : D.card ≤ 100) (hn' : D'.card ≤ 100) :
    SolidAlong (.and oa ob) (A.and B) R (D ∪ D') := by
  have e : (A.and B).along R = fun t => both true (A.along R t) (B.along R t) := by
    funext t
    rw [Bool.eq_iff_iff, Solid.along_iff]
    simp only [both, if_true, Bool.and_eq_true, Solid.along_iff]
    rfl
  have es : ∀ A B : Solid, (A.surface.map (Thing.part B.within)) =
      A.surface.map (Thing.part fun p => B.within p ↔ true = true) := by
    intro A B
    simp
  refine ⟨?_, ?_, ?_⟩
  · rw [e]; exact C17_and_first_partial _ _ _ _ _ _ _ ha.profile hb.profile hs hd hn hn'
  · intro t ht
    rw [e, ← surface_part ha hb hd true t ht, ← es, ← es]
    simp only [Solid.and, List.mem_append, or_and_right, exists_or]
  · intro k hk r hr hit r' hi T hT hT0
    simp only [Solid.and, List.mem_append, or_and_right, exists_or]
    rw [es A B, es B A]
    rcases C17_and_sound _ _ _ _ hr _ _ hi (pos_of hT hT0) with h | h
    · exact .inl (hitOf_paint ha hb hd true hk h hT)
    · exact .inr (hitOf_paint hb ha hd.symm true hk h hT)

/-- **C94, unions** of two solids whose surfaces the ray passes separately. -/
theorem C94_solid_or (oa ob : Obj Ext (Mat Ext)) (A B : Solid) (R : Ray ℝ) (D D' : Finset ℝ) (ha : SolidAlong oa A R D)
    (hb : SolidAlong ob B R D') (hs : Separated (D ∪ D')) (hd : Disjoint D D') (hn : D.card ≤ 100) (hn' : D'.card ≤ 100) :
    SolidAlong (.or oa ob) (A.or B) R (D ∪ D') := by
  have e : (A.or B).along R = fun t => both false (A.along R t) (B.along R t) := by
    funext t
    rw [Bool.eq_iff_iff, Solid.along_iff]
    simp only [both, Bool.false_eq_true, if_false, Bool.or_eq_true, Solid.along_iff]
    rfl
  have es : ∀ A B : Solid, (A.surface.map (Thing.part fun p => ¬ B.within p)) =
      A.surface.map (Thing.part fun p => B.within p ↔ false = true) := by
    intro A B
    simp
  refine ⟨?_, ?_, ?_⟩
  · rw [e]; exact C17_or_first_partial _ _ _ _ _ _ _ ha.profile hb.profile hs hd hn hn'
  · intro t ht
    rw [e, ← surface_part ha hb hd false t ht, ← es, ← es]
    simp only [Solid.or, List.mem_append, or_and_right, exists_or]
  · intro k hk r hr hit r' hi T hT hT0
    simp only [Solid.or, List.mem_append, or_and_right, exists_or]
    rw [es A B, es B A]
    rcases C17_or_sound _ _ _ _ hr _ _ hi (pos_of hT hT0) with h | h
    · exact .inl (hitOf_paint ha hb hd false hk h hT)
    · exact .inr (hitOf_paint hb ha hd.symm false hk h hT)

/-- **C94, restrictions.** `Restrict(a, b)` shows the surface of the solid `a` where it is within the solid `b`. -/
theorem C94_restrict (oa ob : Obj Ext (Mat Ext)) (A B : Solid) (R : Ray ℝ) (D D' : Finset ℝ) (ha : SolidAlong oa A R D)
    (hb : SolidAlong ob B R D') (hs : Separated D) (hd : Disjoint D D') (hn : D.card ≤ 100) (h0 : (0 : ℝ) ∉ D) :
    ShowsAll False (.restrict oa ob) (A.surface.map (Thing.part B.within)) R := by
  have es : (A.surface.map (Thing.part B.within)) = A.surface.map (Thing.part fun p => B.within p ↔ true = true) := by simp
  intro r hr
  have hr0 : r.Is ⟨R.at 0, R.dir⟩ := by rw [at_zero]; exact hr
  obtain ⟨hit, e, hc⟩ := C17_restrict_first_partial oa ob R D D' _ _ ha.profile hb.profile hs hd hn 0 le_rfl h0 r hr0
  refine ⟨hit, e, ?_⟩
  have met : ∀ T > 0, (∃ th ∈ A.surface.map (Thing.part B.within), th.on (R.at T)) →
      Crosses (A.along R) T ∧ B.along R T = true := by
    rintro T hT ⟨th, hth, hon⟩
    obtain ⟨th', h', rfl⟩ := List.mem_map.1 hth
    exact ⟨(ha.surface T hT).1 ⟨th', h', hon.1⟩, Solid.along_iff.2 hon.2⟩
  rcases hc with ⟨c, ⟨⟨hc0, -⟩, hleast⟩, ht⟩ | ⟨hno, hmiss⟩
  · rw [sub_zero] at ht
    obtain ⟨th, hth, hon, hcol⟩ := hitOf_paint ha hb hd true le_rfl (C17_restrict_sound _ _ _ _ hr0 _ _ e (pos_of ht hc0)) ht
    rw [zero_add] at hon hcol
    exact .inl ⟨c, th, by rw [es]; exact hth, ht, hc0, hon, hcol, fun other ho T' hT' hon' =>
      hleast ⟨hT', met T' hT' ⟨other, ho, hon'⟩⟩⟩
  · refine .inr ⟨fun th hth T hT hon => ?_, .inl hmiss⟩
    obtain ⟨m1, m2⟩ := met T hT ⟨th, hth, hon⟩
    rw [hno T hT m1] at m2
    cases m2

/-- Solids that the ray passes through once. -/
private theorem SolidAlong.of_interval {o : Obj Ext (Mat Ext)} {A : Solid} {R : Ray ℝ} {e x : ℝ} (hex : e < x)
    (hp : o.Profile R {e, x} (within e x)) (hin : ∀ t, A.within (R.at t) ↔ e < t ∧ t < x)
    (hon : ∀ t, (∃ th ∈ A.surface, th.on (R.at t)) ↔ t = e ∨ t = x)
    (paint : ∀ k ≥ 0, ∀ r : Ray Ext, r.Is ⟨R.at k, R.dir⟩ → ∀ hit r', o.intersect r = .ok (hit, r') → ∀ T, hit.t.Is T →
      0 < T → ∃ th ∈ A.surface, th.on (R.at (k + T)) ∧ HasColor hit (th.col (R.at (k + T)))) :
    SolidAlong o A R {e, x} := by
  have ea : A.along R = within e x := by
    funext t
    rw [Bool.eq_iff_iff, Solid.along_iff, hin]
    simp [within]
  exact ⟨by rw [ea]; exact hp, fun t _ => by rw [ea, hon, crosses_within hex], paint⟩

/-- Solids that the ray does not meet. -/
private theorem SolidAlong.of_missed {o : Obj Ext (Mat Ext)} {A : Solid} {R : Ray ℝ} (hin : ∀ t, ¬ A.within (R.at t))
    (hon : ∀ t, ∀ th ∈ A.surface, ¬ th.on (R.at t))
    (hout : ∀ t > 0, ∀ p : Vec Ext, p.Is (R.at t) → o.inside p = .ok false)
    (hmiss : ∀ k ≥ 0, ∀ r : Ray Ext, r.Is ⟨R.at k, R.dir⟩ → ∃ hit, o.intersect r = .ok (hit, r) ∧ (lit 0 <. hit.t) = false) :
    SolidAlong o A R ∅ := by
  have ea : A.along R = fun _ => false := by
    funext t
    rw [Bool.eq_iff_iff, Solid.along_iff]
    simpa using hin t
  have nc : ∀ c, ¬ Crosses (fun _ => false) c := by
    rintro c ⟨ε, he, h⟩
    exact h (ε / 2) (by positivity) (by linarith) rfl
  refine ⟨?_, ?_, ?_⟩
  · rw [ea]
    refine ⟨fun _ _ _ _ => rfl, fun t ht _ p hp => hout t ht p hp, fun k hk _ r hr => ?_⟩
    obtain ⟨hit, e, h⟩ := hmiss k hk r hr
    exact ⟨hit, e, .inr ⟨fun c _ => nc c, h⟩⟩
  · intro t _
    rw [ea]
    exact ⟨fun ⟨th, hth, h⟩ => absurd h (hon t th hth), fun h => absurd h (nc t)⟩
  · intro k hk r hr hit r' e T hT hT0
    obtain ⟨hit', e', h⟩ := hmiss k hk r hr
    rw [e] at e'
    cases e'
    rw [pos_of hT hT0] at h
    cases h

/-- **C94, balls** that the line of the ray passes through or misses, but does not just touch. -/
theorem C94_solid_ball (tex : Tex Ext) (Col : Vec ℝ → Color ℝ) (htex : tex.Paints Col) (d : Ext) (D : ℝ) (hd : d.Is D)
    (hD : 0 ≤ D) (c : Vec Ext) (C : Vec ℝ) (hc : c.Is C) (R : Ray ℝ) (hR : R.dir ≠ ⟨0, 0, 0⟩) (X : Finset ℝ)
    (hX : (∃ e x, e < x ∧ AtDistance (R.at e) C (D / 2) ∧ AtDistance (R.at x) C (D / 2) ∧ X = {e, x}) ∨
      ((∀ t, ¬ AtDistance (R.at t) C (D / 2)) ∧ X = ∅)) :
    SolidAlong (Obj.sphere (some (.flat tex)) d c) (Solid.ball C D Col) R X := by
  obtain ⟨a, ha⟩ : ∃ a, a = R.dir.x ^ 2 + R.dir.y ^ 2 + R.dir.z ^ 2 := ⟨_, rfl⟩
  have ha0 : 0 < a := by
    have := dot_self_pos hR
    simp only [Vec.dot] at this
    rw [ha]
    nlinarith
  obtain ⟨b, hb⟩ : ∃ b, b = R.dir.x * (R.start.x - C.x) + R.dir.y * (R.start.y - C.y) + R.dir.z * (R.start.z - C.z) :=
    ⟨_, rfl⟩
  have hq : ∀ t, d2 (R.at t) C - (D / 2) ^ 2 = a * t ^ 2 + 2 * b * t + (d2 R.start C - (D / 2) ^ 2) := by
    intro t
    rw [ha, hb]
    simp only [d2, Ray.at, Vec.madd]
    ring
  have at_iff : ∀ t, AtDistance (R.at t) C (D / 2) ↔ d2 (R.at t) C - (D / 2) ^ 2 = 0 := fun t =>
    ⟨fun h => sub_eq_zero.2 h.1, fun h => ⟨sub_eq_zero.1 h, by linarith⟩⟩
  have in_iff : ∀ t, (Solid.ball C D Col).within (R.at t) ↔ d2 (R.at t) C - (D / 2) ^ 2 < 0 := fun t => sub_neg.symm
  have shows : ∀ k, Shows (Obj.sphere (some (.flat tex)) d c) ⟨fun p => AtDistance p C (D / 2), fun p => Col (p.sub C)⟩
      ⟨R.at k, R.dir⟩ := fun k => C80_sphere tex Col htex d D hd hD c C hc ⟨R.at k, R.dir⟩ hR
  rcases hX with ⟨e, x, hex, he, hx, rfl⟩ | ⟨hno, rfl⟩
  · have e1 := hq e
    have e2 := hq x
    rw [(at_iff e).1 he] at e1
    rw [(at_iff x).1 hx] at e2
    have hB : 2 * b = -a * (e + x) := by
      have : (x - e) * (a * (e + x) + 2 * b) = 0 := by linear_combination e1 - e2
      rcases mul_eq_zero.1 this with h | h <;> linarith
    have hQ : ∀ t, d2 (R.at t) C - (D / 2) ^ 2 = a * ((t - e) * (t - x)) := by
      intro t
      rw [hq t]
      linear_combination (t - e) * hB - e1
    refine .of_interval hex (C17_sphere_profile _ d D hd hD c C hc R hR e x hex he hx) (fun t => ?_) (fun t => ?_) ?_
    · rw [in_iff, hQ]
      constructor
      · intro h
        have h1 : (t - e) * (t - x) < 0 := by
          by_contra hn
          exact absurd h (not_lt.2 (mul_nonneg ha0.le (not_lt.1 hn)))
        rcases mul_neg_iff.1 h1 with g | g
        · constructor <;> linarith [g.1, g.2]
        · linarith [g.1, g.2]
      · rintro ⟨h1, h2⟩
        exact mul_neg_of_pos_of_neg ha0 (mul_neg_of_pos_of_neg (by linarith) (by linarith))
    · simp only [Solid.ball, List.mem_singleton, exists_eq_left]
      rw [at_iff, hQ, mul_eq_zero, mul_eq_zero, sub_eq_zero, sub_eq_zero]
      constructor
      · rintro (h | h)
        · exact absurd h ha0.ne'
        · exact h
      · exact .inr
    · intro k _ r hr hit r' hi T hT hT0
      obtain ⟨hit', r'', e', hrep, hcol⟩ := shows k r hr
      rw [hi] at e'
      cases e'
      rcases hrep with ⟨T1, h1, -, hon, -⟩ | ⟨-, h | h⟩
      · obtain rfl := is_unique hT h1
        have := hcol T hT hT0
        rw [at_at] at hon this
        exact ⟨_, List.mem_singleton.2 rfl, hon, this⟩
      · rw [pos_of hT hT0] at h; cases h
      · exact h.1.elim
  · have hpos : ∀ t, ¬ d2 (R.at t) C - (D / 2) ^ 2 < 0 := by
      intro t ht
      rw [hq] at ht
      obtain ⟨k, hk⟩ : ∃ k, k = d2 R.start C - (D / 2) ^ 2 := ⟨_, rfl⟩
      rw [← hk] at ht
      have hdisc : 0 ≤ b ^ 2 - a * k := by nlinarith [sq_nonneg (a * t + b)]
      refine hno ((-b + Real.sqrt (b ^ 2 - a * k)) / a) ((at_iff _).2 ?_)
      rw [hq, ← hk]
      have hs := Real.sq_sqrt hdisc
      field_simp
      nlinarith
    refine .of_missed (fun t h => hpos t ((in_iff t).1 h)) ?_ ?_ ?_
    · intro t th hth hon
      rw [List.mem_singleton.1 hth] at hon
      exact hno t hon
    · intro t _ p hp
      rw [sphere_inside _ hd hD hc hp]
      congr 1
      rw [decide_eq_false_iff_not]
      intro h
      exact hpos t (sub_neg.2 h)
    · intro k _ r hr
      obtain ⟨hit, r', e, hrep, -⟩ := shows k r hr
      obtain rfl := C15_ray_unchanged _ _ _ _ e
      refine ⟨hit, e, ?_⟩
      rcases hrep with ⟨T1, -, -, hon, -⟩ | ⟨-, h | h⟩
      · rw [at_at] at hon
        exact absurd hon (hno _)
      · exact h
      · exact h.1.elim

/-- The line of a ray and a box. -/
private theorem block_line {B : BBox ℝ} {R : Ray ℝ} (hn : B.NotInFace R) {e x : ℝ} (hex : e < x)
    (hm : ∀ t, B.Mem (R.at t) ↔ e ≤ t ∧ t ≤ x) (Col : Vec ℝ → Color ℝ) (t : ℝ) :
    ((Solid.block B Col).within (R.at t) ↔ e < t ∧ t < x) ∧ (B.OnSurface (R.at t) ↔ t = e ∨ t = x) := by
  have he := (hm e).2 ⟨le_rfl, hex.le⟩
  have hx := (hm x).2 ⟨hex.le, le_rfl⟩
  have hstrict : ∀ t, e < t → t < x → (Solid.block B Col).within (R.at t) := by
    intro t h1 h2
    obtain ⟨a1, a2, a3, a4, a5, a6⟩ := he
    obtain ⟨b1, b2, b3, b4, b5, b6⟩ := hx
    simp only [Ray.at, Vec.madd] at a1 a2 a3 a4 a5 a6 b1 b2 b3 b4 b5 b6
    rw [mul_comm] at a1 a2 a3 a4 a5 a6 b1 b2 b3 b4 b5 b6
    simp only [Solid.block, Ray.at, Vec.madd, mul_comm t]
    exact ⟨strict_coord hn.1 ⟨a1, a2⟩ ⟨b1, b2⟩ h1 h2, strict_coord hn.2.1 ⟨a3, a4⟩ ⟨b3, b4⟩ h1 h2,
      strict_coord hn.2.2 ⟨a5, a6⟩ ⟨b5, b6⟩ h1 h2⟩
  have hmem : ∀ t, (Solid.block B Col).within (R.at t) → B.Mem (R.at t) := by
    rintro t ⟨⟨c1, c2⟩, ⟨c3, c4⟩, c5, c6⟩
    exact ⟨c1.le, c2.le, c3.le, c4.le, c5.le, c6.le⟩
  have hopen : IsOpen {t | (Solid.block B Col).within (R.at t)} := by
    have lo : ∀ m s d : ℝ, IsOpen {t : ℝ | m < s + t * d} := fun m s d => isOpen_lt (by fun_prop) (by fun_prop)
    have hi : ∀ m s d : ℝ, IsOpen {t : ℝ | s + t * d < m} := fun m s d => isOpen_lt (by fun_prop) (by fun_prop)
    exact ((lo _ _ _).inter (hi _ _ _)).inter (((lo _ _ _).inter (hi _ _ _)).inter ((lo _ _ _).inter (hi _ _ _)))
  have hend : ∀ t, (Solid.block B Col).within (R.at t) → e < t ∧ t < x := by
    intro t ht
    obtain ⟨ε, h0, hb⟩ := Metric.isOpen_iff.1 hopen t ht
    have near : ∀ δ, |δ| < ε → e ≤ t + δ ∧ t + δ ≤ x := by
      intro δ hδ
      refine (hm _).1 (hmem _ (hb (a := t + δ) ?_))
      rw [Metric.mem_ball, Real.dist_eq, add_sub_cancel_left]
      exact hδ
    have h1 := near (-(ε / 2)) (by rw [abs_neg, abs_of_pos (by positivity)]; linarith)
    have h2 := near (ε / 2) (by rw [abs_of_pos (by positivity)]; linarith)
    exact ⟨by linarith [h1.1], by linarith [h2.2]⟩
  refine ⟨⟨hend t, fun h => hstrict t h.1 h.2⟩, ?_, ?_⟩
  · rintro ⟨h1, h2⟩
    have h3 := (hm t).1 h1
    by_contra hne
    push Not at hne
    obtain ⟨⟨c1, c2⟩, ⟨c3, c4⟩, c5, c6⟩ := hstrict t (lt_of_le_of_ne h3.1 (Ne.symm hne.1)) (lt_of_le_of_ne h3.2 hne.2)
    rcases h2 with h2 | h2 | h2 | h2 | h2 | h2 <;> linarith
  · have key : ∀ t, B.Mem (R.at t) → ¬ (e < t ∧ t < x) → B.OnSurface (R.at t) := by
      intro t h1 h2
      refine ⟨h1, ?_⟩
      by_contra hf
      unfold BBox.OnFacePlane at hf
      push Not at hf
      obtain ⟨n1, n2, n3, n4, n5, n6⟩ := hf
      obtain ⟨m1, m2, m3, m4, m5, m6⟩ := h1
      exact h2 (hend t ⟨⟨lt_of_le_of_ne m1 n1.symm, lt_of_le_of_ne m2 n2⟩, ⟨lt_of_le_of_ne m3 n3.symm, lt_of_le_of_ne m4 n4⟩,
        lt_of_le_of_ne m5 n5.symm, lt_of_le_of_ne m6 n6⟩)
    rintro (rfl | rfl)
    · exact key _ he (by simp)
    · exact key _ hx (by simp)

/-- **C94, blocks** that the line of the ray passes through or misses, but does not just touch, nor run in the plane of a
face. -/
theorem C94_solid_block (tex : Tex Ext) (Col : Vec ℝ → Color ℝ) (htex : tex.Paints Col) (b : BBox Ext) (B : BBox ℝ) (hb : b.Is B)
    (hB : B.Proper) (R : Ray ℝ) (hd : R.dir ≠ ⟨0, 0, 0⟩) (hn : B.NotInFace R) (X : Finset ℝ)
    (hX : (∃ e x, e < x ∧ (∀ t, B.Mem (R.at t) ↔ e ≤ t ∧ t ≤ x) ∧ X = {e, x}) ∨ ((∀ t, ¬ B.Mem (R.at t)) ∧ X = ∅)) :
    SolidAlong (.box b (some (.flat tex))) (Solid.block B Col) R X := by
  have hnk : ∀ k, B.NotInFace ⟨R.at k, R.dir⟩ := by
    intro k
    obtain ⟨n1, n2, n3⟩ := hn
    refine ⟨fun h => ?_, fun h => ?_, fun h => ?_⟩
    · have := n1 h; simpa [Ray.at, Vec.madd, show R.dir.x = 0 from h] using this
    · have := n2 h; simpa [Ray.at, Vec.madd, show R.dir.y = 0 from h] using this
    · have := n3 h; simpa [Ray.at, Vec.madd, show R.dir.z = 0 from h] using this
  rcases hX with ⟨e, x, hex, hm, rfl⟩ | ⟨hno, rfl⟩
  · refine .of_interval hex (C17_box_profile b B hb hB _ R hd hn e x hex hm) (fun t => (block_line hn hex hm Col t).1)
      (fun t => ?_) ?_
    · simp only [Solid.block, List.mem_singleton, exists_eq_left]
      exact (block_line hn hex hm Col t).2
    · intro k _ r hr hit r' hi T hT hT0
      obtain ⟨hit', e', hmiss, hhit⟩ := C19_box_object b B hb hB r _ hr hd (hnk k) (some (Mat.flat tex))
      rw [Obj.intersect, e'] at hi
      cases hi
      cases hint : b.intersects r with
      | false =>
        have := pos_of hT hT0
        rw [hmiss hint] at this
        simp [HitRecord.miss] at this
      | true =>
        obtain ⟨T1, N, h1, -, hon, -, -, hmat, hloc⟩ := hhit hint
        obtain rfl := is_unique hT h1
        obtain ⟨c, ec, hc⟩ := htex _ _ hloc
        rw [at_at] at hon hc
        exact ⟨_, List.mem_singleton.2 rfl, hon, tex, c, hmat, ec, hc⟩
  · have hin : ∀ p, (Solid.block B Col).within p → B.Mem p := by
      rintro p ⟨⟨c1, c2⟩, ⟨c3, c4⟩, c5, c6⟩
      exact ⟨c1.le, c2.le, c3.le, c4.le, c5.le, c6.le⟩
    refine .of_missed (fun t h => hno t (hin _ h)) ?_ ?_ ?_
    · intro t th hth hon
      rw [List.mem_singleton.1 hth] at hon
      exact hno t hon.1
    · intro t _ p hp
      rw [Obj.inside]
      congr 1
      rw [Bool.eq_false_iff]
      intro h
      unfold BBox.inside at h
      rw [hb.1.1.lt hp.1, hp.1.lt hb.2.1, hb.1.2.1.lt hp.2.1, hp.2.1.lt hb.2.2.1, hb.1.2.2.lt hp.2.2, hp.2.2.lt hb.2.2.2] at h
      simp only [Bool.and_eq_true, decide_eq_true_eq] at h
      obtain ⟨⟨⟨⟨⟨c1, c2⟩, c3⟩, c4⟩, c5⟩, c6⟩ := h
      exact hno t ⟨c1.le, c2.le, c3.le, c4.le, c5.le, c6.le⟩
    · intro k _ r hr
      obtain ⟨hit, e, hmiss, -⟩ := C19_box_object b B hb hB r _ hr hd (hnk k) (some (Mat.flat tex))
      refine ⟨hit, by rw [Obj.intersect, e]; rfl, ?_⟩
      rw [hmiss ?_]
      · simp [HitRecord.miss]
      · rw [Bool.eq_false_iff]
        intro h
        obtain ⟨⟨t, -, h⟩, -⟩ := (C19_test_partial b B hb hB r _ hr hd (hnk k)).1 h
        rw [at_at] at h
        exact hno _ h

/-- **C94, painted solids.** -/
theorem C94_solid_painted (col : Color Ext) (Col : Color ℝ) (hcol : col.Is Col) (o : Obj Ext (Mat Ext)) (A : Solid) (R : Ray ℝ)
    (D : Finset ℝ) (h : SolidAlong o A R D) :
    SolidAlong (.withMaterial (some (.flat fun _ => .ok col)) o) ⟨A.surface.map (Thing.painted Col), A.within⟩ R D := by
  have ea : (⟨A.surface.map (Thing.painted Col), A.within⟩ : Solid).along R = A.along R := rfl
  refine ⟨?_, ?_, ?_⟩
  · rw [ea]
    refine ⟨h.profile.const, fun t ht hD p hp => by rw [Obj.inside]; exact h.profile.inside t ht hD p hp, fun k hk hD r hr => ?_⟩
    obtain ⟨hit, e, hc⟩ := h.profile.hit k hk hD r hr
    exact ⟨{ hit with mat := some (.flat fun _ => .ok col) }, by rw [Obj.intersect, e]; rfl, hc⟩
  · intro t ht
    rw [ea, ← h.surface t ht]
    constructor
    · rintro ⟨th, hth, hon⟩
      obtain ⟨th', h', rfl⟩ := List.mem_map.1 hth
      exact ⟨th', h', hon⟩
    · rintro ⟨th, hth, hon⟩
      exact ⟨_, List.mem_map_of_mem hth, hon⟩
  · intro k hk r hr hit r' hi T hT hT0
    rw [Obj.intersect] at hi
    obtain ⟨⟨hit0, r0⟩, h1, h2⟩ := bind_eq_ok.1 hi
    cases h2
    obtain ⟨th, hth, hon, -⟩ := h.paint k hk r hr hit0 _ h1 T hT hT0
    exact ⟨_, List.mem_map_of_mem hth, hon, _, col, rfl, rfl, hcol⟩

/-- **C94, placed solids.** A solid placed by an invertible affine map is the placed solid, along rays that do not run in the
plane of a face of the new bounding box; `E` are the points where they pass the surface of that box. -/
theorem C94_solid_placed (o o' : Obj Ext (Mat Ext)) (hp : o.Plain) (t : Affine Ext) (T : Affine ℝ) (ht : t.Is T)
    (hdet : T.A.det ≠ 0) (e : o.mkTransformed t = .ok o') (A A' : Solid) (hA : A.PlacedBy T.point A') (b : BBox Ext)
    (B : BBox ℝ) (hb : o.bounds = .ok b) (hB : b.Is B) (hin : ∀ th ∈ A.surface, ∀ p, th.on p → B.Mem p) (R : Ray ℝ)
    (hd : R.dir ≠ ⟨0, 0, 0⟩) (D E : Finset ℝ)
    (hclear : ∀ b' B', o'.bounds = .ok b' → b'.Is B' → B'.NotInFace R ∧ ∀ k ≥ 0, B'.OnSurface (R.at k) → k ∈ E)
    (h : SolidAlong o A (T.pullRay R) D) : SolidAlong o' A' R (D ∪ E) := by
  obtain ⟨bb, b', h1, h2, rfl⟩ := o.mkTransformed_ok o' hp t e
  rw [hb] at h1; cases h1
  obtain ⟨b1, B', e1, e2, hi⟩ := BBox.transform_is hB ht
  rw [e1] at h2; cases h2
  obtain ⟨B2, e3, -, himg, -⟩ := B.transform_real T
  rw [e2] at e3; cases e3
  obtain ⟨hn, hs⟩ := hclear b' B' (by rw [Obj.bounds]) hi
  have hnk : ∀ k, B'.NotInFace ⟨R.at k, R.dir⟩ := by
    intro k
    obtain ⟨n1, n2, n3⟩ := hn
    refine ⟨fun h => ?_, fun h => ?_, fun h => ?_⟩
    · have := n1 h; simpa [Ray.at, Vec.madd, show R.dir.x = 0 from h] using this
    · have := n2 h; simpa [Ray.at, Vec.madd, show R.dir.y = 0 from h] using this
    · have := n3 h; simpa [Ray.at, Vec.madd, show R.dir.z = 0 from h] using this
  have hpk : ∀ k, T.pullRay ⟨R.at k, R.dir⟩ = ⟨(T.pullRay R).at k, (T.pullRay R).dir⟩ := by
    intro k
    unfold Affine.pullRay
    congr 1
    simp only [Ray.at, geo]
    refine ⟨?_, ?_, ?_⟩ <;> ring
  have hpull : ∀ (k : ℝ) (r : Ray Ext), r.Is ⟨R.at k, R.dir⟩ → (t.pullRay r).Is ⟨(T.pullRay R).at k, (T.pullRay R).dir⟩ := by
    intro k r hr
    rw [← hpk]
    exact ⟨(ht.inverse hdet).point hr.1, (ht.inverse hdet).dir hr.2⟩
  have ea : A'.along R = A.along (T.pullRay R) := by
    funext s
    rw [Bool.eq_iff_iff, Solid.along_iff, Solid.along_iff, C29_points T hdet R s]
    exact hA.2 _
  have meets : ∀ th th', PlacedBy T.point th th' → ∀ s, (th'.on (R.at s) ↔ th.on ((T.pullRay R).at s)) ∧
      th'.col (R.at s) = th.col ((T.pullRay R).at s) := by
    intro th th' hpl s
    rw [C29_points T hdet R s]
    exact hpl _
  have hon : ∀ s, (∃ th ∈ A'.surface, th.on (R.at s)) ↔ ∃ th ∈ A.surface, th.on ((T.pullRay R).at s) := by
    intro s
    constructor
    · rintro ⟨th', hth', hon⟩
      obtain ⟨th, hth, hpl⟩ := forall₂_right hA.1 th' hth'
      exact ⟨th, hth, (meets th th' hpl s).1.1 hon⟩
    · rintro ⟨th, hth, hon⟩
      obtain ⟨th', hth', hpl⟩ := forall₂_left hA.1 th hth
      exact ⟨th', hth', (meets th th' hpl s).1.2 hon⟩
  have hsame : ∀ r, b'.intersects r = true → ∀ hit r0, o.intersect (t.pullRay r) = .ok (hit, r0) →
      (Obj.transformed b' t t.inverse o).intersect r = .ok ({ hit with normal := t.dir hit.normal }, r) := by
    intro r hint hit r0 eh
    rw [Obj.intersect, hint]
    simp only [Bool.not_true, Bool.false_eq_true, if_false]
    change (do let (h, _) ← o.intersect (t.pullRay r); return ({ h with normal := t.dir h.normal }, r)) = _
    rw [eh]
    rfl
  refine ⟨?_, fun s hs0 => by rw [ea, hon]; exact h.surface s hs0, ?_⟩
  · rw [ea]
    refine ⟨fun s s' hlt hD => h.profile.const s s' hlt fun d hd => hD d (Finset.mem_union_left _ hd), fun s hs0 hsD p hp => ?_,
      fun k hk hkD r hr => ?_⟩
    · rw [Obj.inside]
      refine h.profile.inside s hs0 (fun h => hsD (Finset.mem_union_left _ h)) _ ?_
      have := (ht.inverse hdet).point hp
      rwa [C29_points T hdet R s, (C27_inverse_point T hdet _).1] at this
    · rw [Finset.mem_union, not_or] at hkD
      have hoff := C19_off_surface b' B' hi (BBox.transform_proper e2) r ⟨R.at k, R.dir⟩ hr hd (hnk k)
        (fun h => hkD.2 (hs k hk h))
      cases hint : b'.intersects r with
      | false =>
        refine ⟨HitRecord.miss, by rw [Obj.intersect, hint]; rfl, .inr ⟨?_, by simp [HitRecord.miss]⟩⟩
        intro c hc hcr
        obtain ⟨th, hth, honc⟩ := (h.surface c (lt_of_le_of_lt hk hc)).2 hcr
        have : b'.intersects r = true := by
          refine hoff.2 ⟨c - k, by linarith, ?_⟩
          rw [at_at, add_sub_cancel, C29_points T hdet R c]
          exact himg _ (hin th hth _ honc)
        rw [hint] at this; cases this
      | true =>
        obtain ⟨hit, eh, hc⟩ := h.profile.hit k hk hkD.1 _ (hpull k r hr)
        exact ⟨_, hsame r hint hit _ eh, hc⟩
  · intro k hk r hr hit r' hint' S hS hS0
    cases hint : b'.intersects r with
    | false =>
      rw [Obj.intersect, hint] at hint'
      cases hint'
      have := pos_of hS hS0
      simp [HitRecord.miss] at this
    | true =>
      rw [Obj.intersect, hint] at hint'
      simp only [Bool.not_true, Bool.false_eq_true, if_false] at hint'
      obtain ⟨⟨hit0, r0⟩, h1, h2⟩ := bind_eq_ok.1 hint'
      cases h2
      obtain ⟨th, hth, honS, hcol⟩ := h.paint k hk _ (hpull k r hr) hit0 r0 h1 S hS hS0
      obtain ⟨th', hth', hpl⟩ := forall₂_left hA.1 th hth
      obtain ⟨m1, m2⟩ := meets th th' hpl (k + S)
      exact ⟨th', hth', m1.2 honS, by rw [m2]; exact hcol⟩

/-! ## Non-vacuity -/

/-- Straight ahead. -/
def straight : Ray ℝ := ⟨⟨0, 0, 0⟩, ⟨0, 0, -1⟩⟩

private theorem straight_ne : straight.dir ≠ ⟨0, 0, 0⟩ := by simp [straight]

private theorem straight_at (t : ℝ) : straight.at t = ⟨0, 0, -t⟩ := by simp [straight, Ray.at, Vec.madd]

/-- The only line of sight of a picture of one pixel. -/
private theorem sight_one (p : Pixel) (h1 : p.1 < 1) (h2 : p.2 < 1) :
    (⟨Real.pi / 2, 0, 0, 0, ⟨0, 0, 0⟩⟩ : View).sight 1 1 p.1 p.2 = straight := by
  obtain ⟨x, y⟩ := p
  obtain rfl : x = 0 := by simpa using h1
  obtain rfl : y = 0 := by simpa using h2
  have turn0 : ∀ v : Vec ℝ, turned 0 0 0 v = v := by intro v; simp [turned, rodrigues, geo]
  have tan4 : Real.tan (Real.pi / 2 / 2) = 1 := by
    rw [show Real.pi / 2 / 2 = Real.pi / 4 by ring, Real.tan_pi_div_four]
  simp only [View.sight, turn0, pixelDir, tan4, unitVec, straight]
  norm_num [geo]

/-- One colour everywhere. -/
private theorem plain_paints {col : Color Ext} {Col : Color ℝ} (h : col.Is Col) :
    Tex.Paints (fun _ => .ok col) fun _ => Col := fun _ _ _ => ⟨_, rfl, h⟩

private theorem fin_is (q : ℝ) : (Ext.fin q).Is q := ⟨false, rfl⟩

/-- A ball of diameter 4 in front of the camera, in one colour. -/
private theorem ball_ahead (z : ℝ) (col : Color Ext) (Col : Color ℝ) (h : col.Is Col) :
    SolidAlong (Obj.sphere (some (.flat fun _ => .ok col)) (Ext.fin 4) ⟨Ext.fin 0, Ext.fin 0, Ext.fin (-z)⟩)
      (Solid.ball ⟨0, 0, -z⟩ 4 fun _ => Col) straight {z - 2, z + 2} := by
  refine C94_solid_ball _ _ (plain_paints h) _ 4 (fin_is _) (by norm_num) _ _ ⟨fin_is _, fin_is _, fin_is _⟩ _ straight_ne _
    (.inl ⟨z - 2, z + 2, by linarith, ?_, ?_, rfl⟩)
  · simp only [AtDistance, straight_at]; constructor <;> norm_num
  · simp only [AtDistance, straight_at]; constructor <;> norm_num

noncomputable def red : Color Ext := ⟨Ext.fin 1, Ext.fin 0, Ext.fin 0⟩
noncomputable def blue : Color Ext := ⟨Ext.fin 0, Ext.fin 0, Ext.fin 1⟩

/-- A lens: what a red and a blue ball have in common. -/
noncomputable def lens : Obj Ext (Mat Ext) :=
  .and (Obj.sphere (some (.flat fun _ => .ok red)) (Ext.fin 4) ⟨Ext.fin 0, Ext.fin 0, Ext.fin (-5)⟩)
    (Obj.sphere (some (.flat fun _ => .ok blue)) (Ext.fin 4) ⟨Ext.fin 0, Ext.fin 0, Ext.fin (-7)⟩)

def lensSolid : Solid := (Solid.ball ⟨0, 0, -5⟩ 4 fun _ => ⟨1, 0, 0⟩).and (Solid.ball ⟨0, 0, -7⟩ 4 fun _ => ⟨0, 0, 1⟩)

/-- The hypotheses of `C94_picture` are met by the lens before a camera with one pixel, which sees the blue side of it. The
nearer side of the red ball, at 3, is not part of the lens. -/
example : (∀ p : Pixel, p.1 < 1 → p.2 < 1 → List.Forall₂ (fun o ths => ShowsAll (∃ th ∈ [lensSolid.surface].flatten, ∃ T > 0,
        T < 9 * 10 ^ 99 ∧ th.on (((⟨Real.pi / 2, 0, 0, 0, ⟨0, 0, 0⟩⟩ : View).sight 1 1 p.1 p.2).at T)) o ths
        ((⟨Real.pi / 2, 0, 0, 0, ⟨0, 0, 0⟩⟩ : View).sight 1 1 p.1 p.2))
      ((⟨[], [lens], [], 1⟩ : Scene Ext).objects ++ []) [lensSolid.surface]) ∧
    ∀ C, Sees [lensSolid.surface].flatten straight C ↔ C = ⟨0, 0, 1⟩ := by
  have hs : SolidAlong lens lensSolid straight ({5 - 2, 5 + 2} ∪ {7 - 2, 7 + 2}) := by
    refine C94_solid_and _ _ _ _ _ _ _ (ball_ahead 5 red _ ⟨fin_is _, fin_is _, fin_is _⟩)
      (ball_ahead 7 blue _ ⟨fin_is _, fin_is _, fin_is _⟩) ?_ ?_ ((Finset.card_le_two).trans (by norm_num))
      ((Finset.card_le_two).trans (by norm_num))
    · intro c hc d hd
      simp only [Finset.mem_union, Finset.mem_insert, Finset.mem_singleton] at hc hd
      rcases hc with (rfl | rfl) | (rfl | rfl) <;> rcases hd with (rfl | rfl) | (rfl | rfl) <;> norm_num
    · rw [Finset.disjoint_left]
      intro c hc hd
      simp only [Finset.mem_insert, Finset.mem_singleton] at hc hd
      rcases hc with rfl | rfl <;> rcases hd with h | h <;> norm_num at h
  constructor
  · intro p h1 h2
    refine .cons ?_ .nil
    rw [sight_one p h1 h2]
    refine (C94_solid _ _ _ _ hs ?_).mono False.elim
    norm_num
  · -- where the two sides are
    have mem : ∀ th : Thing, th ∈ [lensSolid.surface].flatten ↔
        th = Thing.part (Solid.ball ⟨0, 0, -7⟩ 4 fun _ => ⟨0, 0, 1⟩).within
          ⟨fun p => AtDistance p ⟨0, 0, -5⟩ (4 / 2), fun _ => ⟨1, 0, 0⟩⟩ ∨
        th = Thing.part (Solid.ball ⟨0, 0, -5⟩ 4 fun _ => ⟨1, 0, 0⟩).within
          ⟨fun p => AtDistance p ⟨0, 0, -7⟩ (4 / 2), fun _ => ⟨0, 0, 1⟩⟩ := by
      intro th
      simp [lensSolid, Solid.and, Solid.ball]
    have onRed : ∀ T, (Thing.part (Solid.ball ⟨0, 0, -7⟩ 4 fun _ => ⟨0, 0, 1⟩).within
          ⟨fun p => AtDistance p ⟨0, 0, -5⟩ (4 / 2), fun _ => ⟨1, 0, 0⟩⟩).on (straight.at T) → T = 7 := by
      intro T
      rw [straight_at]
      rintro ⟨⟨h1, -⟩, h2⟩
      simp only [Solid.ball] at h1 h2
      nlinarith
    have onBlue : ∀ T, (Thing.part (Solid.ball ⟨0, 0, -5⟩ 4 fun _ => ⟨1, 0, 0⟩).within
          ⟨fun p => AtDistance p ⟨0, 0, -7⟩ (4 / 2), fun _ => ⟨0, 0, 1⟩⟩).on (straight.at T) ↔ T = 5 := by
      intro T
      rw [straight_at]
      constructor
      · rintro ⟨⟨h1, -⟩, h2⟩
        simp only [Solid.ball] at h1 h2
        nlinarith
      · rintro rfl
        refine ⟨⟨?_, ?_⟩, ?_⟩ <;> norm_num [Solid.ball]
    intro C
    constructor
    · rintro (⟨th, hth, T, hT, hon, hC, hle⟩ | ⟨h, -⟩)
      · rcases (mem th).1 hth with rfl | rfl
        · have := hle _ ((mem _).2 (.inr rfl)) 5 (by norm_num) ((onBlue 5).2 rfl)
          rw [onRed T hon] at this
          norm_num at this
        · exact hC
      · exact absurd ((onBlue 5).2 rfl) (h _ ((mem _).2 (.inr rfl)) 5 (by norm_num))
    · rintro rfl
      refine .inl ⟨_, (mem _).2 (.inr rfl), 5, by norm_num, (onBlue 5).2 rfl, rfl, ?_⟩
      intro other ho T' _ hon
      rcases (mem other).1 ho with rfl | rfl
      · rw [onRed T' hon]; norm_num
      · rw [(onBlue T').1 hon]

/-- A red block between the two corners. -/
noncomputable def blockBetween (x0 y0 z0 x1 y1 z1 : ℝ) : Obj Ext (Mat Ext) :=
  .box ⟨⟨Ext.fin x0, Ext.fin y0, Ext.fin z0⟩, ⟨Ext.fin x1, Ext.fin y1, Ext.fin z1⟩⟩ (some (.flat fun _ => .ok red))

def blockThing (x0 y0 z0 x1 y1 z1 : ℝ) : Thing := ⟨BBox.OnSurface ⟨⟨x0, y0, z0⟩, ⟨x1, y1, z1⟩⟩, fun _ => ⟨1, 0, 0⟩⟩

private theorem box_fin (x0 y0 z0 x1 y1 z1 : ℝ) :
    (⟨⟨Ext.fin x0, Ext.fin y0, Ext.fin z0⟩, ⟨Ext.fin x1, Ext.fin y1, Ext.fin z1⟩⟩ : BBox Ext).Is ⟨⟨x0, y0, z0⟩, ⟨x1, y1, z1⟩⟩ :=
  ⟨⟨fin_is _, fin_is _, fin_is _⟩, fin_is _, fin_is _, fin_is _⟩

/-- A block moved by 5 away from the camera is shown there: the hypotheses of `C94_placed` are met. -/
example : ∃ o', (blockBetween (-1) (-1) (-1) 1 1 1).mkTransformed (Affine.translate ⟨Ext.fin 0, Ext.fin 0, Ext.fin (-5)⟩) = .ok o' ∧
    ShowsAll False o' [blockThing (-1) (-1) (-6) 1 1 (-4)] straight ∧ (blockThing (-1) (-1) (-6) 1 1 (-4)).on (straight.at 4) := by
  have pl : (blockBetween (-1) (-1) (-1) 1 1 1).Plain := fun _ _ _ _ h => by cases h
  have hT : (Affine.translate ⟨Ext.fin 0, Ext.fin 0, Ext.fin (-5)⟩ : Affine Ext).Is (Affine.translate ⟨0, 0, -5⟩) :=
    Affine.Is.translate ⟨fin_is _, fin_is _, fin_is _⟩
  have hpt : ∀ q : Vec ℝ, (Affine.translate ⟨0, 0, -5⟩ : Affine ℝ).point q = ⟨q.x, q.y, q.z - 5⟩ := by
    intro q
    simp only [geo, lit_real]
    norm_num
    ring
  obtain ⟨b', B', e1, e2, hi⟩ := BBox.transform_is (box_fin (-1) (-1) (-1) 1 1 1) hT
  have e : (blockBetween (-1) (-1) (-1) 1 1 1).mkTransformed (Affine.translate ⟨Ext.fin 0, Ext.fin 0, Ext.fin (-5)⟩) =
      .ok (.transformed b' (Affine.translate ⟨Ext.fin 0, Ext.fin 0, Ext.fin (-5)⟩)
        (Affine.translate ⟨Ext.fin 0, Ext.fin 0, Ext.fin (-5)⟩).inverse (blockBetween (-1) (-1) (-1) 1 1 1)) := by
    rw [Obj.mkTransformed_plain _ pl]
    simp only [blockBetween, Obj.bounds, ok_bind, e1]
    rfl
  have hB' : B' = ⟨⟨-1, -1, -6⟩, ⟨1, 1, -4⟩⟩ := by
    obtain ⟨B2, e3, hh, -, hw⟩ := BBox.transform_real ⟨⟨-1, -1, -1⟩, ⟨1, 1, 1⟩⟩ (Affine.translate ⟨0, 0, -5⟩)
    rw [e2] at e3; cases e3
    have w := hw ⟨⟨-1, -1, -6⟩, ⟨1, 1, -4⟩⟩ (by
      intro v hv
      rw [hpt]
      simp only [BBox.hull, List.mem_cons, List.not_mem_nil, or_false] at hv
      rcases hv with rfl | rfl | rfl | rfl | rfl | rfl | rfl | rfl <;> norm_num [BBox.Mem])
    have m1 := hh ⟨-1, -1, -1⟩ (by simp [BBox.hull])
    have m2 := hh ⟨1, 1, 1⟩ (by simp [BBox.hull])
    rw [hpt] at m1 m2
    obtain ⟨w1, w2, w3, w4, w5, w6⟩ := w
    obtain ⟨a1, a2, a3, a4, a5, a6⟩ := m1
    obtain ⟨c1, c2, c3, c4, c5, c6⟩ := m2
    simp only [le_real, decide_eq_true_eq] at w1 w2 w3 w4 w5 w6
    have t1 : B'.min = ⟨-1, -1, -6⟩ := Vec.ext (le_antisymm a1 w1) (le_antisymm a3 w3) (le_antisymm (by linarith) w5)
    have t2 : B'.max = ⟨1, 1, -4⟩ := Vec.ext (le_antisymm w2 c2) (le_antisymm w4 c4) (le_antisymm w6 (by linarith))
    cases B'
    simp only at t1 t2
    rw [t1, t2]
  refine ⟨_, e, ?_, ?_⟩
  · refine C94_placed False _ _ pl _ _ hT (by simp only [geo, lit_real]; norm_num) e [blockThing (-1) (-1) (-1) 1 1 1] _
      (.cons ?_ .nil) _ _ rfl (box_fin _ _ _ _ _ _) ?_ _ straight_ne ?_ ?_
    · intro q
      rw [hpt]
      simp only [blockThing, BBox.OnSurface, BBox.Mem, BBox.OnFacePlane, and_true]
      constructor
      · rintro ⟨⟨h1, h2, h3, h4, h5, h6⟩, h⟩
        refine ⟨⟨h1, h2, h3, h4, by linarith, by linarith⟩, ?_⟩
        rcases h with h | h | h | h | h | h
        · exact .inl h
        · exact .inr (.inl h)
        · exact .inr (.inr (.inl h))
        · exact .inr (.inr (.inr (.inl h)))
        · exact .inr (.inr (.inr (.inr (.inl (by linarith)))))
        · exact .inr (.inr (.inr (.inr (.inr (by linarith)))))
      · rintro ⟨⟨h1, h2, h3, h4, h5, h6⟩, h⟩
        refine ⟨⟨h1, h2, h3, h4, by linarith, by linarith⟩, ?_⟩
        rcases h with h | h | h | h | h | h
        · exact .inl h
        · exact .inr (.inl h)
        · exact .inr (.inr (.inl h))
        · exact .inr (.inr (.inr (.inl h)))
        · exact .inr (.inr (.inr (.inr (.inl (by linarith)))))
        · exact .inr (.inr (.inr (.inr (.inr (by linarith)))))
    · intro th hth p hp
      rw [List.mem_singleton.1 hth] at hp
      exact hp.1
    · intro b2 B2 h1 h2
      rw [Obj.bounds] at h1
      cases h1
      obtain rfl := BBox.Is.unique hi h2
      rw [hB']
      constructor
      · norm_num [BBox.NotInFace, straight]
      · norm_num [BBox.OnSurface, BBox.Mem, straight]
    · have hR : (Affine.translate ⟨0, 0, -5⟩ : Affine ℝ).pullRay straight = ⟨⟨0, 0, 5⟩, ⟨0, 0, -1⟩⟩ := by
        simp only [Affine.pullRay, Affine.inverse, Matrix.inverse, Matrix.det, straight, geo, lit_real]
        norm_num
      rw [hR]
      refine C94_box _ _ (plain_paints ⟨fin_is _, fin_is _, fin_is _⟩) _ _ (box_fin _ _ _ _ _ _) ?_ _ (by simp) ?_ ?_
      · norm_num [BBox.Proper]
      · norm_num [BBox.NotInFace]
      · norm_num [BBox.OnSurface, BBox.Mem]
  · rw [straight_at]
    norm_num [blockThing, BBox.OnSurface, BBox.Mem, BBox.OnFacePlane]

/-- Two blocks in a tree, left and right of the middle, before a blue sky. The line of sight passes between them: it meets
the box of the tree but none of its members, so that the tree reports a ghost. The hypotheses of `C94_sky` are met, and the
sky is seen. -/
example (St : Sorter (Obj Ext (Mat Ext))) : ∃ tree l,
    mkTree St [blockBetween (-3) (-1) (-6) (-2) 1 (-4), blockBetween 2 (-1) (-6) 3 1 (-4)] = .ok (tree, l) ∧
    (∀ p : Pixel, p.1 < 1 → p.2 < 1 →
      List.Forall₂ (fun o ths => ShowsAll True o ths ((⟨Real.pi / 2, 0, 0, 0, ⟨0, 0, 0⟩⟩ : View).sight 1 1 p.1 p.2)) [] [] ∧
      List.Forall₂ (fun o ths => ShowsAll True o ths ((⟨Real.pi / 2, 0, 0, 0, ⟨0, 0, 0⟩⟩ : View).sight 1 1 p.1 p.2)) [tree]
        [[blockThing (-3) (-1) (-6) (-2) 1 (-4), blockThing 2 (-1) (-6) 3 1 (-4)]] ∧
      ∀ th ∈ ([] ++ [[blockThing (-3) (-1) (-6) (-2) 1 (-4), blockThing 2 (-1) (-6) 3 1 (-4)]]).flatten, ∀ T,
        th.on (((⟨Real.pi / 2, 0, 0, 0, ⟨0, 0, 0⟩⟩ : View).sight 1 1 p.1 p.2).at T) → T < 10 ^ 99) ∧
    ∀ C, SeesBefore (fun _ => ⟨0, 0, 1⟩)
      ([] ++ [[blockThing (-3) (-1) (-6) (-2) 1 (-4), blockThing 2 (-1) (-6) 3 1 (-4)]]).flatten straight C ↔ C = ⟨0, 0, 1⟩ := by
  obtain ⟨n, l, hn⟩ := C22_builds St [blockBetween (-3) (-1) (-6) (-2) 1 (-4), blockBetween 2 (-1) (-6) 3 1 (-4)] (by simp) (by
    intro o ho
    simp only [List.mem_cons, List.not_mem_nil, or_false] at ho
    rcases ho with rfl | rfl <;> exact ⟨_, rfl, rfl, rfl⟩)
  have ht : mkTree St [blockBetween (-3) (-1) (-6) (-2) 1 (-4), blockBetween 2 (-1) (-6) 3 1 (-4)] = .ok (.tree n, l) := by
    rw [mkTree, hn]; rfl
  have off : ∀ th ∈ [blockThing (-3) (-1) (-6) (-2) 1 (-4), blockThing 2 (-1) (-6) 3 1 (-4)], ∀ T, ¬ th.on (straight.at T) := by
    intro th hth T hon
    rw [straight_at] at hon
    simp only [List.mem_cons, List.not_mem_nil, or_false] at hth
    rcases hth with rfl | rfl
    · have := hon.1.2.1; norm_num at this
    · have := hon.1.1; norm_num at this
  have flat : ([] ++ [[blockThing (-3) (-1) (-6) (-2) 1 (-4), blockThing 2 (-1) (-6) 3 1 (-4)]]).flatten =
      [blockThing (-3) (-1) (-6) (-2) 1 (-4), blockThing 2 (-1) (-6) 3 1 (-4)] := rfl
  have member : ∀ x0 x1 : ℝ, x0 < x1 → x0 ≠ 0 → x1 ≠ 0 →
      ShowsAll True (blockBetween x0 (-1) (-6) x1 1 (-4)) [blockThing x0 (-1) (-6) x1 1 (-4)] straight := by
    intro x0 x1 h1 h2 h3
    refine (C94_box _ _ (plain_paints ⟨fin_is _, fin_is _, fin_is _⟩) _ _ (box_fin _ _ _ _ _ _) ?_ _ straight_ne ?_ ?_).mono
      False.elim
    · refine ⟨h1.le, ?_, ?_⟩ <;> norm_num
    · refine ⟨fun _ => ⟨Ne.symm h2, Ne.symm h3⟩, fun _ => ?_, fun h => ?_⟩
      · norm_num [straight]
      · norm_num [straight] at h
    · rintro ⟨h, -⟩
      have := h.2.2.2.2.2
      norm_num [straight] at this
  refine ⟨_, l, ht, fun p h1 h2 => ?_, fun C => ?_⟩
  · rw [sight_one p h1 h2]
    refine ⟨.nil, .cons ?_ .nil, fun th hth T hon => absurd hon (off th (flat ▸ hth) T)⟩
    refine C94_tree St True _ l _ ht [[blockThing (-3) (-1) (-6) (-2) 1 (-4)], [blockThing 2 (-1) (-6) 3 1 (-4)]] _ straight_ne
      (.cons (member _ _ (by norm_num) (by norm_num) (by norm_num)) (.cons (member _ _ (by norm_num) (by norm_num) (by norm_num))
        .nil)) ?_ ?_ (fun th hth T hon => absurd hon (off th hth T)) (.inr (.inl trivial))
    · refine .cons ⟨_, _, rfl, box_fin _ _ _ _ _ _, by norm_num [BBox.Proper], ?_⟩ (.cons ⟨_, _, rfl, box_fin _ _ _ _ _ _,
        by norm_num [BBox.Proper], ?_⟩ .nil)
      · intro th hth p hp
        rw [List.mem_singleton.1 hth] at hp
        exact hp.1
      · intro th hth p hp
        rw [List.mem_singleton.1 hth] at hp
        exact hp.1
    · refine .inl ?_
      rintro B ⟨o, ho, b, hb, hB⟩
      simp only [List.mem_cons, List.not_mem_nil, or_false] at ho
      rcases ho with rfl | rfl <;> cases hb
      · obtain rfl := BBox.Is.unique (box_fin _ _ _ _ _ _) hB
        norm_num [BBox.OnFacePlane, straight]
      · obtain rfl := BBox.Is.unique (box_fin _ _ _ _ _ _) hB
        norm_num [BBox.OnFacePlane, straight]
  · rw [flat]
    constructor
    · rintro (⟨th, hth, T, hT, hon, -⟩ | ⟨-, h⟩)
      · exact absurd hon (off th hth T)
      · exact h
    · rintro rfl
      exact .inr ⟨fun th hth T _ => off th hth T, rfl⟩

end BR
