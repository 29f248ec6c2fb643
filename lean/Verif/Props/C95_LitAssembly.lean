import Verif.Lemmas.Parts
import Verif.Lemmas.Shot
import Verif.Props.C84_Lit

/-! C95: pictures of things that are put together from lit bodies obey the laws of optics. In extended numbers: exact
arithmetic with infinities. -/

namespace BR
set_option linter.unusedSectionVars false

variable {S : Type}

/-- **C95.** Take a scene without media whose objects present things, each made of some bodies, along the lines of sight and
along all rays that are cast from there, or are the sky; whose lights are lamps; a pinhole camera turned by yaw, pitch and roll and moved
to `eye`; any recursion depth and finite shifts of the sample sequences. Then after any positive number of passes, for any
number of workers, any schedule, any random source with values in the unit square and any seeds, each pixel is the mean,
over the passes, of colours each of which is what the laws of optics give along the line of sight, when light is followed
over at most as many surfaces as the recursion depth and matte surfaces scatter light from one direction each time they
are met. -/
theorem C95_picture (s : Scene Ext) (hm : s.media = []) (hd : 0 ≤ s.recursionDepth) (sky : Option (Vec ℝ → Color ℝ))
    (things : List (List Body)) (lamps : List Bulb) (hl : List.Forall₂ IsBulb s.lights lamps)
    (V : View) (h0 : 0 < V.fov) (h1 : V.fov < Real.pi) (fov yaw pitch roll : Ext) (eye : Vec Ext) (hf : fov.Is V.fov)
    (hy : yaw.Is V.yaw) (hp : pitch.Is V.pitch) (hr : roll.Is V.roll) (he : eye.Is V.eye) (w h : Nat) (aa : Bool)
    (hs : ∀ p : Pixel, p.1 < w → p.2 < h →
      Followed sky s.objects things lamps s.recursionDepth.toNat (V.sight w h p.1 (sampleRow aa w h p.2))) :
    ∃ cam, Cam.projective fov = .ok cam ∧
      ∀ (rng : Rng Ext S), (∀ st, UnitPair (rng.next2 st).1) →
      ∀ (shifts : List (Ext × Ext)), w * h ≤ shifts.length → (∀ x ∈ shifts, (∃ a, x.1.Is a) ∧ ∃ b, x.2.Is b) →
      ∀ (W : Nat), 0 < W → ∀ (seeds : Fin W → S) (nPass : Nat), 0 < nPass →
      ∀ (t : SamplerState Ext (Ctx Ext S) W) (k : Nat),
        Runs (ctxShader (s.imageFunc rng ((cam.yawPitchRoll yaw pitch roll).translate eye))) w h aa nPass
          (samplerInit w h (fun i => Ctx.new shifts (seeds i)) fun _ => Cell.zero) k t →
        t.crashed = false ∧ (t.done → ∀ p : Pixel, p.1 < w → p.2 < h → ∃ C : ℕ → Color ℝ,
          (∀ k, LooksAll (skyColor sky) things lamps s.recursionDepth.toNat (V.sight w h p.1 (sampleRow aa w h p.2)) (C k)) ∧
          ((t.mem p).image).Is (meanColor C nPass)) := by
  obtain ⟨cam, ecam, -⟩ := projective_sees (S := S) hf hy hp hr he h0 h1
  refine ⟨cam, ecam, ?_⟩
  intro rng hrng shifts hshift hfin W hW seeds nPass hn t k hrun
  have hpos : Possible (ctxShader (s.imageFunc rng ((cam.yawPitchRoll yaw pitch roll).translate eye))) w h aa
      (BetweenPixels shifts) fun p _ c => ∃ C, c.Is C ∧
        LooksAll (skyColor sky) things lamps s.recursionDepth.toNat (V.sight w h p.1 (sampleRow aa w h p.2)) C := by
    intro ctx hctx p hx hyy k
    obtain ⟨q, ctx1, hq, hb, hs1, hs2, e⟩ := pixel_shot (s := s) h0 h1 hf hy hp hr he ecam aa rng hshift hfin hctx p hx hyy k
    obtain ⟨c, C, ctx2, e2, hc, hlook, hfr⟩ := lightField_looksAll rng hm hl s.recursionDepth.toNat .direct hq
      (sight_unit V w h _ _) (hs p hx hyy) ctx1.takeRay.2 ⟨hrng, hs1, hs2⟩ hb.depth.ge (by
        show ctx1.depth + _ = _
        rw [hb.depth]; omega)
    refine ⟨c, ctx2.putRay ctx1.takeRay.1, ?_, betweenPixels_frame hb ?_, C, hc, hlook⟩
    · rw [e, e2]; rfl
    · exact hfr.symm
  refine ⟨(C03_random_safe hpos (fun i => betweenPixels_new shifts (seeds i)) t k hrun).1, fun hdone p hx hyy => ?_⟩
  obtain ⟨g, hg, hmem⟩ := C03_every_pass hpos (fun i => betweenPixels_new shifts (seeds i)) hW t k hrun hdone
  choose C hC using hg p hx hyy
  refine ⟨C, fun k => (hC k).2, ?_⟩
  rw [hmem p, if_pos ⟨hx, hyy⟩]
  exact image_mean (fun k => (hC k).1) nPass hn

/-- **C95, shadows.** Where nothing is clear, all light passes if nothing is in the way, and none otherwise. -/
theorem C95_shadow (things : List (List Body)) (hno : ∀ b ∈ things.flatten, ∀ p k, b.look p ≠ .clear k) (R : Ray ℝ) (len : ℝ)
    (c c' : Color ℝ) (h : ThroughAll R len things c c') :
    ((∀ b ∈ things.flatten, ∀ T > 0, b.on (R.at T) → len ≤ T) ∧ c' = c) ∨
    ((∃ b ∈ things.flatten, ∃ T > 0, T < len ∧ b.on (R.at T)) ∧ c' = ⟨0, 0, 0⟩) := by
  induction things generalizing c with
  | nil => exact .inl ⟨by simp, h⟩
  | cons th ths ih =>
    rcases h with ⟨h1, h2⟩ | ⟨b, T, hT, hb, k, hk, -⟩ | ⟨b, T, hT, hb, -, e⟩
    · rcases ih (fun b hb => hno b (by simp only [List.flatten_cons, List.mem_append]; exact .inr hb)) c h2 with
        ⟨h3, e⟩ | ⟨⟨b, hb, h3⟩, e⟩
      · refine .inl ⟨fun b hb => ?_, e⟩
        simp only [List.flatten_cons, List.mem_append] at hb
        rcases hb with hb | hb
        · exact h1 b hb
        · exact h3 b hb
      · exact .inr ⟨⟨b, by simp only [List.flatten_cons, List.mem_append]; exact .inr hb, h3⟩, e⟩
    · exact absurd hk (hno b (by simp only [List.flatten_cons, List.mem_append]; exact .inl hb.1) _ _)
    · exact .inr ⟨⟨b, by simp only [List.flatten_cons, List.mem_append]; exact .inl hb.1, T, hb.2.1.1, hT, hb.2.1.2.1⟩, e⟩

/-- A body as a part of a surface. -/
def Body.toPart (b : Body) : Part where
  on := b.on
  tells P n loc mat := ∃ N m, n.Is N ∧ N ≠ ⟨0, 0, 0⟩ ∧ unitVec N = b.normal P ∧ mat = some m ∧ m.Appears loc (b.look P)

theorem presents_parts {g : Prop} {R : Ray ℝ} {o : Obj Ext (Mat Ext)} {bodies : List Body} :
    PresentsAll g R o bodies ↔ ShowsParts g o (bodies.map Body.toPart) R := by
  constructor
  · intro h r hr
    obtain ⟨hit, e, h⟩ := h r hr
    refine ⟨hit, e, ?_⟩
    rcases h with ⟨T, b, hb, h1, h2, h3, h4, h5⟩ | ⟨h1, h2⟩
    · refine .inl ⟨T, b.toPart, List.mem_map_of_mem hb, h1, h2, h3, h4, ?_⟩
      rintro other ho
      obtain ⟨b', hb', rfl⟩ := List.mem_map.1 ho
      exact h5 b' hb'
    · refine .inr ⟨?_, h2⟩
      rintro th hth
      obtain ⟨b', hb', rfl⟩ := List.mem_map.1 hth
      exact h1 b' hb'
  · intro h r hr
    obtain ⟨hit, e, h⟩ := h r hr
    refine ⟨hit, e, ?_⟩
    rcases h with ⟨T, th, hth, h1, h2, h3, h4, h5⟩ | ⟨h1, h2⟩
    · obtain ⟨b, hb, rfl⟩ := List.mem_map.1 hth
      exact .inl ⟨T, b, hb, h1, h2, h3, h4, fun other ho => h5 _ (List.mem_map_of_mem ho)⟩
    · exact .inr ⟨fun b hb => h1 _ (List.mem_map_of_mem hb), h2⟩

/-- If something holds with ghosts at most in some cases, it does in more. -/
theorem PresentsAll.mono {g g' : Prop} (hg : g → g') {o : Obj Ext (Mat Ext)} {bodies : List Body} {R : Ray ℝ}
    (h : PresentsAll g R o bodies) : PresentsAll g' R o bodies :=
  presents_parts.2 ((presents_parts.1 h).mono hg)

/-! ## Balls and boxes -/

private theorem ball_tells {m : Mat Ext} {look : Vec ℝ → Surface} (hm : ∀ p P, p.Is P → m.Appears p (look P)) {D : ℝ}
    (hD : 0 < D) (C P : Vec ℝ) (n loc : Vec Ext) (hon : AtDistance P C (D / 2)) (hn : n.Is (P.sub C)) (hloc : loc.Is (P.sub C)) :
    (ballBody D C look).toPart.tells P n loc (some m) := by
  have hlen : (P.sub C).dot (P.sub C) = (D / 2) ^ 2 := by
    have := hon.1
    simp only [geo] at this ⊢
    nlinarith
  have hne : P.sub C ≠ ⟨0, 0, 0⟩ := by
    intro e
    rw [e] at hlen
    simp [Vec.dot] at hlen
    nlinarith
  refine ⟨P.sub C, m, hn, hne, ?_, rfl, hm _ _ hloc⟩
  unfold unitVec
  rw [hlen, Real.sqrt_sq (by positivity)]
  simp only [ballBody, geo]
  refine ⟨?_, ?_, ?_⟩ <;> ring

/-- **C95, spheres.** A sphere of positive diameter presents a ball along every ray. -/
theorem C95_sphere (m : Mat Ext) (look : Vec ℝ → Surface) (hm : ∀ p P, p.Is P → m.Appears p (look P)) (d : Ext) (D : ℝ)
    (hd : d.Is D) (hD : 0 < D) (c : Vec Ext) (C : Vec ℝ) (hc : c.Is C) (R : Ray ℝ) (hR : R.dir ≠ ⟨0, 0, 0⟩) :
    PresentsAll False R (Obj.sphere (some m) d c) [ballBody D C look] := by
  rw [presents_parts]
  exact parts_sphere (some m) d D hd hD.le c C hc _ (fun _ => Iff.rfl) (fun P n loc => ball_tells hm hD C P n loc) R hR

private theorem sides_on (B : BBox ℝ) (look : Vec ℝ → Surface) (p : Vec ℝ) :
    (∃ q ∈ (boxSides B look).map Body.toPart, q.on p) ↔ B.OnSurface p := by
  constructor
  · rintro ⟨q, hq, hon⟩
    simp only [boxSides, List.map_cons, List.map_nil, List.mem_cons, List.not_mem_nil, or_false] at hq
    rcases hq with rfl | rfl | rfl | rfl | rfl | rfl <;> exact hon.1
  · intro h
    have z : ∀ x y : ℝ, x = y → |x - y| < 1 / 10 ^ 8 := by
      rintro x y rfl
      norm_num
    have mem : ∀ b ∈ boxSides B look, b.on p → ∃ q ∈ (boxSides B look).map Body.toPart, q.on p :=
      fun b hb ho => ⟨b.toPart, List.mem_map_of_mem hb, ho⟩
    rcases h.2 with e | e | e | e | e | e
    · exact mem _ (.head _) ⟨h, z _ _ e⟩
    · exact mem _ (.tail _ (.head _)) ⟨h, z _ _ e⟩
    · exact mem _ (.tail _ (.tail _ (.head _))) ⟨h, z _ _ e⟩
    · exact mem _ (.tail _ (.tail _ (.tail _ (.head _)))) ⟨h, z _ _ e⟩
    · exact mem _ (.tail _ (.tail _ (.tail _ (.tail _ (.head _))))) ⟨h, z _ _ e⟩
    · exact mem _ (.tail _ (.tail _ (.tail _ (.tail _ (.tail _ (.head _)))))) ⟨h, z _ _ e⟩

private theorem sides_tell {m : Mat Ext} {look : Vec ℝ → Surface} (hm : ∀ p P, p.Is P → m.Appears p (look P)) (B : BBox ℝ)
    (p : Vec ℝ) (n : Vec Ext) (N : Vec ℝ) (loc : Vec Ext) (hon : B.OnSurface p) (hn : n.Is N) (hf : B.FaceNormal p N)
    (hloc : loc.Is (p.sub B.min)) :
    ∃ q ∈ (boxSides B look).map Body.toPart, q.on p ∧ q.tells p n loc (some m) := by
  have mem : ∀ b ∈ boxSides B look, b.on p → b.normal p = N → N.dot N = 1 → b.look p = look (p.sub B.min) →
      ∃ q ∈ (boxSides B look).map Body.toPart, q.on p ∧ q.tells p n loc (some m) := by
    intro b hb ho e1 e2 e3
    refine ⟨b.toPart, List.mem_map_of_mem hb, ho, N, m, hn, ?_, ?_, rfl, ?_⟩
    · rintro rfl; simp [Vec.dot] at e2
    · rw [unitVec_unit e2, e1]
    · rw [e3]; exact hm _ _ hloc
  rcases hf with ⟨rfl, e⟩ | ⟨rfl, e⟩ | ⟨rfl, e⟩ | ⟨rfl, e⟩ | ⟨rfl, e⟩ | ⟨rfl, e⟩
  · exact mem _ (.head _) ⟨hon, e⟩ rfl (by simp [Vec.dot]) rfl
  · exact mem _ (.tail _ (.head _)) ⟨hon, e⟩ rfl (by simp [Vec.dot]) rfl
  · exact mem _ (.tail _ (.tail _ (.head _))) ⟨hon, e⟩ rfl (by simp [Vec.dot]) rfl
  · exact mem _ (.tail _ (.tail _ (.tail _ (.head _)))) ⟨hon, e⟩ rfl (by simp [Vec.dot]) rfl
  · exact mem _ (.tail _ (.tail _ (.tail _ (.tail _ (.head _))))) ⟨hon, e⟩ rfl (by simp [Vec.dot]) rfl
  · exact mem _ (.tail _ (.tail _ (.tail _ (.tail _ (.tail _ (.head _)))))) ⟨hon, e⟩ rfl (by simp [Vec.dot]) rfl

/-- **C95, boxes.** A box presents its six sides along every ray that does not start on it nor run in the plane of a side. -/
theorem C95_box (m : Mat Ext) (look : Vec ℝ → Surface) (hm : ∀ p P, p.Is P → m.Appears p (look P)) (b : BBox Ext) (B : BBox ℝ)
    (hb : b.Is B) (hB : B.Proper) (R : Ray ℝ) (hd : R.dir ≠ ⟨0, 0, 0⟩) (hn : B.NotInFace R) (hs : ¬ B.OnSurface R.start) :
    PresentsAll False R (.box b (some m)) (boxSides B look) := by
  rw [presents_parts]
  exact parts_box (some m) b B hb hB _ (sides_on B look) (sides_tell hm B) R hd hn hs

/-! ## Things made from others -/

/-- **C95, hollow things** look the same. -/
theorem C95_hollow (g : Prop) (o : Obj Ext (Mat Ext)) (bodies : List Body) (R : Ray ℝ) (h : PresentsAll g R o bodies) :
    PresentsAll g R (.hollow o) bodies :=
  presents_parts.2 (parts_hollow g o _ R (presents_parts.1 h))

private theorem flipped_parts (bodies : List Body) :
    List.Forall₂ Part.Flipped (bodies.map Body.toPart) ((bodies.map Body.flipped).map Body.toPart) := by
  induction bodies with
  | nil => exact .nil
  | cons b bs ih =>
    refine .cons (fun p => ⟨Iff.rfl, ?_⟩) ih
    rintro n loc m ⟨N, M, h1, h2, h3, h4, h5⟩
    have one : (lit (-1) : Ext).Is (-1) := by simpa using Ext.Is.lit (-1)
    refine ⟨N.mul (-1), M, h1.mul one, ?_, ?_, h4, h5⟩
    · intro e
      apply h2
      simp only [Vec.mul, Vec.mk.injEq] at e
      obtain ⟨x, y, z⟩ := N
      simp only [Vec.mk.injEq]
      exact ⟨by linarith [e.1], by linarith [e.2.1], by linarith [e.2.2]⟩
    · show unitVec (N.mul (-1)) = ⟨-(b.normal p).x, -(b.normal p).y, -(b.normal p).z⟩
      rw [← h3]
      simp only [unitVec, Vec.mul, Vec.dot, Vec.mk.injEq]
      have e : -1 * N.x * (-1 * N.x) + -1 * N.y * (-1 * N.y) + -1 * N.z * (-1 * N.z) = N.x * N.x + N.y * N.y + N.z * N.z := by
        ring
      rw [e]
      refine ⟨?_, ?_, ?_⟩ <;> ring

/-- **C95, inverted things** look the same but for the side on which the normals are. -/
theorem C95_not (g : Prop) (o : Obj Ext (Mat Ext)) (bodies : List Body) (R : Ray ℝ) (h : PresentsAll g R o bodies) :
    PresentsAll g R (.not o) (bodies.map Body.flipped) :=
  presents_parts.2 (parts_not g o _ _ R (flipped_parts bodies) (presents_parts.1 h))

private theorem coated_parts {m : Mat Ext} {X : Surface} (hm : ∀ p, m.Appears p X) (bodies : List Body) :
    List.Forall₂ (Part.Coated (some m)) (bodies.map Body.toPart) ((bodies.map (Body.coated X)).map Body.toPart) := by
  induction bodies with
  | nil => exact .nil
  | cons b bs ih =>
    refine .cons (fun p => ⟨Iff.rfl, ?_⟩) ih
    rintro n loc m' ⟨N, M, h1, h2, h3, -, -⟩
    exact ⟨N, m, h1, h2, h3, rfl, hm _⟩

/-- **C95, other materials.** A thing given another material is made of that. -/
theorem C95_coated (m : Mat Ext) (X : Surface) (hm : ∀ p, m.Appears p X) (g : Prop) (o : Obj Ext (Mat Ext)) (bodies : List Body)
    (R : Ray ℝ) (h : PresentsAll g R o bodies) : PresentsAll g R (.withMaterial (some m) o) (bodies.map (Body.coated X)) :=
  presents_parts.2 (parts_coated (some m) g o _ _ R (coated_parts hm bodies) (presents_parts.1 h))

private theorem point_sub (T : Affine ℝ) (p v : Vec ℝ) : (T.point (p.add v)).sub (T.point p) = T.dir v := by
  simp only [Affine.point, Affine.dir, geo]
  refine ⟨?_, ?_, ?_⟩ <;> ring

private theorem mul_dot (v w : Vec ℝ) (a b : ℝ) : (v.mul a).dot (w.mul b) = a * b * v.dot w := by
  simp only [geo]; ring

private theorem length3_dot (v : Vec ℝ) : length3 v = Real.sqrt (v.dot v) := by
  unfold length3 Vec.dot
  congr 1
  ring

private theorem dir_mul (T : Affine ℝ) (v : Vec ℝ) (a : ℝ) : T.dir (v.mul a) = (T.dir v).mul a := by
  simp only [Affine.dir, geo]
  refine ⟨?_, ?_, ?_⟩ <;> ring

/-- A vector is its length times its direction. -/
private theorem mul_unitVec {v : Vec ℝ} (h : v ≠ ⟨0, 0, 0⟩) : ∃ a > 0, v = (unitVec v).mul a := by
  have hp := dot_self_pos h
  refine ⟨Real.sqrt (v.dot v), Real.sqrt_pos.2 hp, ?_⟩
  have hs := (Real.sqrt_pos.2 hp).ne'
  obtain ⟨x, y, z⟩ := v
  simp only [unitVec, Vec.mul, Vec.mk.injEq]
  refine ⟨?_, ?_, ?_⟩ <;> field_simp

private theorem placed_parts {t : Affine Ext} {T : Affine ℝ} (ht : t.Is T) {k : ℝ} (hk : 0 < k) (hT : IsSimilarity k T.point)
    {bodies bodies' : List Body} (h : List.Forall₂ (Body.PlacedBy k T.point) bodies bodies') :
    List.Forall₂ (Part.PlacedBy t T.point) (bodies.map Body.toPart) (bodies'.map Body.toPart) := by
  induction h with
  | nil => exact .nil
  | @cons b b' bs bs' hb _ ih =>
    refine .cons (fun p => ⟨(hb p).1, ?_⟩) ih
    rintro hon n loc m ⟨N, M, h1, h2, h3, h4, h5⟩
    obtain ⟨hlook, hnormal⟩ := (hb p).2 hon
    rw [point_sub] at hnormal
    have hu : (b.normal p).dot (b.normal p) = 1 := by rw [← h3]; exact unitVec_dot h2
    -- the moved normal has unit length
    have hu' : (b'.normal (T.point p)).dot (b'.normal (T.point p)) = 1 := by
      have e := hT (p.add (b.normal p)) p
      rw [point_sub, hnormal, show (p.add (b.normal p)).sub p = b.normal p from by
        obtain ⟨x, y, z⟩ := b.normal p
        simp [Vec.add, Vec.sub], length3_dot, length3_dot, hu, mul_dot, Real.sqrt_one, mul_one, Real.sqrt_mul (by positivity),
        Real.sqrt_mul_self hk.le] at e
      have e1 : Real.sqrt ((b'.normal (T.point p)).dot (b'.normal (T.point p))) = 1 := by
        apply mul_left_cancel₀ hk.ne'
        rw [e, mul_one]
      rwa [Real.sqrt_eq_one] at e1
    obtain ⟨a, ha, eN⟩ := mul_unitVec h2
    have eT : T.dir N = (b'.normal (T.point p)).mul (k * a) := by
      rw [eN, h3, dir_mul, hnormal]
      simp only [Vec.mul, Vec.mk.injEq]
      refine ⟨?_, ?_, ?_⟩ <;> ring
    have hne : b'.normal (T.point p) ≠ ⟨0, 0, 0⟩ := by
      intro e
      rw [e] at hu'
      simp [Vec.dot] at hu'
    refine ⟨T.dir N, M, ht.dir h1, ?_, ?_, h4, ?_⟩
    · intro e
      have := mul_dot (b'.normal (T.point p)) (b'.normal (T.point p)) (k * a) (k * a)
      rw [← eT, e, hu'] at this
      have hka : 0 < k * a := by positivity
      simp [Vec.dot] at this
      rcases this with h | h
      · exact hk.ne' h
      · exact ha.ne' h
    · rw [eT, unitVec_scale (by positivity), unitVec_unit hu']
    · show M.Appears loc (b'.look (T.point p))
      rw [hlook]; exact h5

/-- **C95, placed things.** A thing placed by an affine map that multiplies distances by `k` presents its bodies where the
map takes them, along rays that do not start on the new bounding box nor run in the plane of one of its faces. -/
theorem C95_placed (g : Prop) (o o' : Obj Ext (Mat Ext)) (hp : o.Plain) (t : Affine Ext) (T : Affine ℝ) (ht : t.Is T)
    (hdet : T.A.det ≠ 0) (k : ℝ) (hk : 0 < k) (hT : IsSimilarity k T.point) (e : o.mkTransformed t = .ok o')
    (bodies bodies' : List Body) (hpl : List.Forall₂ (Body.PlacedBy k T.point) bodies bodies') (b : BBox Ext) (B : BBox ℝ)
    (hb : o.bounds = .ok b) (hB : b.Is B) (hin : ∀ x ∈ bodies, ∀ p, x.on p → B.Mem p) (R : Ray ℝ) (hd : R.dir ≠ ⟨0, 0, 0⟩)
    (hclear : ∀ b' B', o'.bounds = .ok b' → b'.Is B' → B'.NotInFace R ∧ ¬ B'.OnSurface R.start)
    (h : PresentsAll g (T.pullRay R) o bodies) : PresentsAll g R o' bodies' := by
  rw [presents_parts] at h ⊢
  refine parts_placed g o o' hp t T ht hdet e _ _ (placed_parts ht hk hT hpl) b B hb hB ?_ R hd hclear h
  intro th hth
  obtain ⟨x, hx, rfl⟩ := List.mem_map.1 hth
  exact hin x hx

/-- **C95, trees.** A tree of things with bounding boxes presents the bodies of all its members, along rays on which these
are nearer than `9e99` and that are clear of the boxes. If there are at most seven members, it may report something far
away where there is nothing, but not where the ray misses a box around all. -/
theorem C95_tree (St : Sorter (Obj Ext (Mat Ext))) (g : Prop) (ch l : List (Obj Ext (Mat Ext))) (o : Obj Ext (Mat Ext))
    (h : mkTree St ch = .ok (o, l)) (things : List (List Body)) (R : Ray ℝ) (hd : R.dir ≠ ⟨0, 0, 0⟩)
    (hs : List.Forall₂ (fun o ths => PresentsAll True R o ths) ch things)
    (hb : List.Forall₂ (fun o ths => ∃ b B, o.bounds = .ok b ∧ b.Is B ∧ B.Proper ∧ ∀ x ∈ ths, ∀ p, x.on p → B.Mem p)
      ch things)
    (hclear : ClearOf (fun B => ∃ o ∈ ch, ∃ b, o.bounds = .ok b ∧ b.Is B) R)
    (hfar : ∀ x ∈ things.flatten, ∀ T, x.on (R.at T) → T < 9 * 10 ^ 99)
    (hsmall : 7 < ch.length ∨ g ∨ (∃ x ∈ things.flatten, ∃ T > 0, x.on (R.at T)) ∨
      ∃ A : BBox ℝ, (∀ o ∈ ch, ∀ b B, o.bounds = .ok b → b.Is B → ∀ p, B.Mem p → A.Mem p) ∧ ∀ T > 0, ¬ A.Mem (R.at T)) :
    PresentsAll g R o things.flatten := by
  rw [presents_parts, List.map_flatten]
  have hmem : ∀ q ∈ (things.map (List.map Body.toPart)).flatten, ∃ x ∈ things.flatten, q = x.toPart := by
    intro q hq
    rw [← List.map_flatten] at hq
    obtain ⟨x, hx, rfl⟩ := List.mem_map.1 hq
    exact ⟨x, hx, rfl⟩
  refine parts_tree St g ch l o h _ R hd ?_ ?_ hclear ?_ ?_
  · rw [List.forall₂_map_right_iff]
    exact hs.imp fun o ths h => presents_parts.1 h
  · rw [List.forall₂_map_right_iff]
    refine hb.imp ?_
    rintro o ths ⟨b, B, h1, h2, h3, h4⟩
    refine ⟨b, B, h1, h2, h3, ?_⟩
    intro q hq
    obtain ⟨x, hx, rfl⟩ := List.mem_map.1 hq
    exact h4 x hx
  · intro q hq
    obtain ⟨x, hx, rfl⟩ := hmem q hq
    exact hfar x hx
  · rcases hsmall with h | h | ⟨x, hx, h⟩ | h
    · exact .inl h
    · exact .inr (.inl h)
    · refine .inr (.inr (.inl ⟨x.toPart, ?_, h⟩))
      rw [← List.map_flatten]
      exact List.mem_map_of_mem hx
    · exact .inr (.inr (.inr h))

/-! ## Solids -/

/-- Along the ray, the object is the solid. The ray passes through the surface at every point where it meets it, and all
these are in `D`. From wherever on the ray it is asked, the object reports the first such point, with the normal and the
kind of surface there. -/
def LitAlong (o : Obj Ext (Mat Ext)) (A : LitSolid) (R : Ray ℝ) (D : Finset ℝ) : Prop :=
  SolidParts o ⟨A.surface.map Body.toPart, A.within⟩ R D

/-- **C95, solids** present their surface, along rays that do not start on it. -/
theorem C95_solid (o : Obj Ext (Mat Ext)) (A : LitSolid) (R : Ray ℝ) (D : Finset ℝ) (h : LitAlong o A R D) (h0 : (0 : ℝ) ∉ D) :
    PresentsAll False R o A.surface :=
  presents_parts.2 (solid_parts o _ R D h h0)

/-- **C95, complements.** -/
theorem C95_solid_not (o : Obj Ext (Mat Ext)) (A : LitSolid) (R : Ray ℝ) (D : Finset ℝ) (h : LitAlong o A R D) :
    LitAlong (.not o) A.not R D :=
  solid_parts_not o _ _ (fun _ => Iff.rfl) (flipped_parts A.surface) R D h

private theorem map_part (P : Vec ℝ → Prop) (bodies : List Body) :
    (bodies.map (Body.part P)).map Body.toPart = (bodies.map Body.toPart).map (Part.cut P) := by
  rw [List.map_map, List.map_map]; rfl

/-- **C95, intersections** of two solids whose surfaces the ray passes separately (more than the marching step apart, at
most 100 times each). -/
theorem C95_solid_and (oa ob : Obj Ext (Mat Ext)) (A B : LitSolid) (R : Ray ℝ) (D D' : Finset ℝ) (ha : LitAlong oa A R D)
    (hb : LitAlong ob B R D') (hs : Separated (D ∪ D')) (hd : Disjoint D D') (hn : D.card ≤ 100) (hn' : D'.card ≤ 100) :
    LitAlong (.and oa ob) (A.and B) R (D ∪ D') := by
  have := solid_parts_and oa ob _ _ R D D' ha hb hs hd hn hn'
  unfold LitAlong LitSolid.and
  rw [List.map_append, map_part, map_part]
  exact this

/-- **C95, unions.** -/
theorem C95_solid_or (oa ob : Obj Ext (Mat Ext)) (A B : LitSolid) (R : Ray ℝ) (D D' : Finset ℝ) (ha : LitAlong oa A R D)
    (hb : LitAlong ob B R D') (hs : Separated (D ∪ D')) (hd : Disjoint D D') (hn : D.card ≤ 100) (hn' : D'.card ≤ 100) :
    LitAlong (.or oa ob) (A.or B) R (D ∪ D') := by
  have := solid_parts_or oa ob _ _ R D D' ha hb hs hd hn hn'
  unfold LitAlong LitSolid.or
  rw [List.map_append, map_part, map_part]
  exact this

/-- **C95, restrictions.** What is left of a surface within another solid. -/
theorem C95_restrict (oa ob : Obj Ext (Mat Ext)) (A B : LitSolid) (R : Ray ℝ) (D D' : Finset ℝ) (ha : LitAlong oa A R D)
    (hb : LitAlong ob B R D') (hs : Separated D) (hd : Disjoint D D') (hn : D.card ≤ 100) (h0 : (0 : ℝ) ∉ D) :
    PresentsAll False R (.restrict oa ob) (A.surface.map (Body.part B.within)) := by
  rw [presents_parts, map_part]
  exact restrict_parts oa ob _ _ R D D' ha hb hs hd hn h0

/-- A ball whose surface is given relative to the centre. -/
noncomputable def LitSolid.ball (D : ℝ) (C : Vec ℝ) (look : Vec ℝ → Surface) : LitSolid :=
  ⟨[ballBody D C look], fun p => (p.x - C.x) ^ 2 + (p.y - C.y) ^ 2 + (p.z - C.z) ^ 2 < (D / 2) ^ 2⟩

/-- **C95, balls** that the line of the ray passes through or misses, but does not just touch. -/
theorem C95_solid_ball (m : Mat Ext) (look : Vec ℝ → Surface) (hm : ∀ p P, p.Is P → m.Appears p (look P)) (d : Ext) (D : ℝ)
    (hd : d.Is D) (hD : 0 < D) (c : Vec Ext) (C : Vec ℝ) (hc : c.Is C) (R : Ray ℝ) (hR : R.dir ≠ ⟨0, 0, 0⟩) (X : Finset ℝ)
    (hX : (∃ e x, e < x ∧ AtDistance (R.at e) C (D / 2) ∧ AtDistance (R.at x) C (D / 2) ∧ X = {e, x}) ∨
      ((∀ t, ¬ AtDistance (R.at t) C (D / 2)) ∧ X = ∅)) :
    LitAlong (Obj.sphere (some m) d c) (LitSolid.ball D C look) R X :=
  solid_parts_ball (some m) d D hd hD.le c C hc _ _ rfl (fun _ => Iff.rfl) (fun _ => Iff.rfl)
    (fun P n loc => ball_tells hm hD C P n loc) R hR X hX

/-- The block that fills the box, whose surface is given relative to the lower corner. -/
def LitSolid.block (B : BBox ℝ) (look : Vec ℝ → Surface) : LitSolid :=
  ⟨boxSides B look,
    fun p => (B.min.x < p.x ∧ p.x < B.max.x) ∧ (B.min.y < p.y ∧ p.y < B.max.y) ∧ B.min.z < p.z ∧ p.z < B.max.z⟩

/-- **C95, blocks** that the line of the ray passes through or misses, but does not just touch, nor run in the plane of a
side. -/
theorem C95_solid_block (m : Mat Ext) (look : Vec ℝ → Surface) (hm : ∀ p P, p.Is P → m.Appears p (look P)) (b : BBox Ext)
    (B : BBox ℝ) (hb : b.Is B) (hB : B.Proper) (R : Ray ℝ) (hd : R.dir ≠ ⟨0, 0, 0⟩) (hn : B.NotInFace R) (X : Finset ℝ)
    (hX : (∃ e x, e < x ∧ (∀ t, B.Mem (R.at t) ↔ e ≤ t ∧ t ≤ x) ∧ X = {e, x}) ∨ ((∀ t, ¬ B.Mem (R.at t)) ∧ X = ∅)) :
    LitAlong (.box b (some m)) (LitSolid.block B look) R X :=
  solid_parts_block (some m) b B hb hB _ (sides_on B look) (fun _ => Iff.rfl) R hd hn X (sides_tell hm B) hX

/-- **C95, solids of other materials.** -/
theorem C95_solid_coated (m : Mat Ext) (X : Surface) (hm : ∀ p, m.Appears p X) (o : Obj Ext (Mat Ext)) (A : LitSolid) (R : Ray ℝ)
    (D : Finset ℝ) (h : LitAlong o A R D) : LitAlong (.withMaterial (some m) o) (A.coated X) R D :=
  solid_parts_coated (some m) o ⟨A.surface.map Body.toPart, A.within⟩ ⟨(A.coated X).surface.map Body.toPart, A.within⟩ rfl
    (coated_parts hm A.surface) R D h

/-- **C95, placed solids.** A solid placed by an affine map that multiplies distances by `k` is the placed solid, along rays
that do not run in the plane of a face of the new bounding box; `E` are the points where they pass the surface of that
box. -/
theorem C95_solid_placed (o o' : Obj Ext (Mat Ext)) (hp : o.Plain) (t : Affine Ext) (T : Affine ℝ) (ht : t.Is T)
    (hdet : T.A.det ≠ 0) (k : ℝ) (hk : 0 < k) (hT : IsSimilarity k T.point) (e : o.mkTransformed t = .ok o') (A A' : LitSolid)
    (hA : A.PlacedBy k T.point A') (b : BBox Ext) (B : BBox ℝ) (hb : o.bounds = .ok b) (hB : b.Is B)
    (hin : ∀ x ∈ A.surface, ∀ p, x.on p → B.Mem p) (R : Ray ℝ) (hd : R.dir ≠ ⟨0, 0, 0⟩) (D E : Finset ℝ)
    (hclear : ∀ b' B', o'.bounds = .ok b' → b'.Is B' → B'.NotInFace R ∧ ∀ k ≥ 0, B'.OnSurface (R.at k) → k ∈ E)
    (h : LitAlong o A (T.pullRay R) D) : LitAlong o' A' R (D ∪ E) := by
  refine solid_parts_placed o o' hp t T ht hdet e _ _ hA.2 (placed_parts ht hk hT hA.1) b B hb hB ?_ R hd D E hclear h
  intro th hth
  obtain ⟨x, hx, rfl⟩ := List.mem_map.1 hth
  exact hin x hx

/-! ## Lamps behind clear things in trees -/

/-- Straight ahead. -/
private def ahead : Ray ℝ := ⟨⟨0, 0, 0⟩, ⟨0, 0, -1⟩⟩

private theorem ahead_ne : ahead.dir ≠ ⟨0, 0, 0⟩ := by simp [ahead]

private theorem ahead_at (t : ℝ) : ahead.at t = ⟨0, 0, -t⟩ := by simp [ahead, Ray.at, Vec.madd]

private theorem num_is (q : ℝ) : (Ext.fin q).Is q := ⟨false, rfl⟩

/-- The box between two corners. -/
private def span (x0 y0 z0 x1 y1 z1 : ℝ) : BBox ℝ := ⟨⟨x0, y0, z0⟩, ⟨x1, y1, z1⟩⟩

private noncomputable def spanExt (x0 y0 z0 x1 y1 z1 : ℝ) : BBox Ext :=
  ⟨⟨Ext.fin x0, Ext.fin y0, Ext.fin z0⟩, ⟨Ext.fin x1, Ext.fin y1, Ext.fin z1⟩⟩

private theorem span_is (x0 y0 z0 x1 y1 z1 : ℝ) : (spanExt x0 y0 z0 x1 y1 z1).Is (span x0 y0 z0 x1 y1 z1) :=
  ⟨⟨num_is _, num_is _, num_is _⟩, num_is _, num_is _, num_is _⟩

/-- A clear grey block around `(0, 0, -z)`. -/
noncomputable def greyBlock (z : ℝ) : Obj Ext (Mat Ext) :=
  .box ⟨⟨Ext.fin (-1), Ext.fin (-1), Ext.fin (-z - 1)⟩, ⟨Ext.fin 1, Ext.fin 1, Ext.fin (-z + 1)⟩⟩
    (some (.transparent (fun _ => .ok ⟨Ext.fin (1 / 2), Ext.fin (1 / 2), Ext.fin (1 / 2)⟩) false))

private noncomputable def greySides (z : ℝ) : List Body :=
  boxSides (span (-1) (-1) (-z - 1) 1 1 (-z + 1)) fun _ => .clear ⟨1 / 2, 1 / 2, 1 / 2⟩

private theorem grey_proper (z : ℝ) : (span (-1) (-1) (-z - 1) 1 1 (-z + 1)).Proper := by
  refine ⟨by norm_num [span], by norm_num [span], ?_⟩
  simp only [span]
  linarith

private theorem grey_presents (z : ℝ) (hz : 1 < z) : PresentsAll False ahead (greyBlock z) (greySides z) := by
  refine C95_box _ _ (fun p P _ => .transparent rfl ⟨num_is _, num_is _, num_is _⟩) _ _ (span_is _ _ _ _ _ _) ?_ _ ahead_ne ?_ ?_
  · exact grey_proper z
  · refine ⟨fun _ => ?_, fun _ => ?_, fun h => ?_⟩
    · norm_num [span, ahead]
    · norm_num [span, ahead]
    · norm_num [ahead] at h
  · rintro ⟨h, -⟩
    have := h.2.2.2.2.2
    simp only [span, ahead] at this
    linarith

private theorem grey_on (z : ℝ) : ∃ b ∈ greySides z, b.on (ahead.at (z - 1)) := by
  refine ⟨_, .tail _ (.tail _ (.tail _ (.tail _ (.tail _ (.head _))))), ⟨?_, ?_⟩, ?_⟩
  · rw [ahead_at]
    simp only [BBox.Mem, span]
    refine ⟨by norm_num, by norm_num, by norm_num, by norm_num, by linarith, by linarith⟩
  · rw [ahead_at]
    exact .inr (.inr (.inr (.inr (.inr (by simp only [span]; ring)))))
  · rw [ahead_at]
    simp only [span]
    rw [show -(z - 1) - (-z + 1) = 0 by ring]
    norm_num

private theorem grey_look (z : ℝ) : ∀ b ∈ greySides z, ∀ p, b.look p = .clear ⟨1 / 2, 1 / 2, 1 / 2⟩ := by
  intro b hb p
  simp only [greySides, boxSides, List.mem_cons, List.not_mem_nil, or_false] at hb
  rcases hb with rfl | rfl | rfl | rfl | rfl | rfl <;> rfl

/-- A thing that is clear all over takes its share. -/
private theorem through_clear {R : Ray ℝ} {len : ℝ} {th : List Body} {ths : List (List Body)} {k c c' : Color ℝ}
    (hk : ∀ b ∈ th, ∀ p, b.look p = .clear k) (hon : ∃ b ∈ th, ∃ T > 0, T < len ∧ b.on (R.at T))
    (h : ThroughAll R len (th :: ths) c c') : ThroughAll R len ths ⟨c.R * k.R, c.G * k.G, c.B * k.B⟩ c' := by
  obtain ⟨b0, hb0, T0, h0, h1, h2⟩ := hon
  rcases h with ⟨h, -⟩ | ⟨b, T, hT, hb, k', e, h⟩ | ⟨b, T, hT, hb, e, -⟩
  · have := h b0 hb0 T0 h0 h2
    linarith
  · rw [hk b hb.1] at e
    cases e
    exact h
  · exact absurd (hk b hb.1 _) (e k)

/-- **C95, a disagreement.** Two clear grey blocks dim the light of a lamp behind them to a quarter; but if they are put into
a tree, only to a half: a tree takes the share of the first of its members only. -/
theorem C95_clear_disagrees (St : Sorter (Obj Ext (Mat Ext))) (depth : Int) : ∃ tree l,
    mkTree St [greyBlock 5, greyBlock 15] = .ok (tree, l) ∧ ∀ r : Ray Ext, r.Is ⟨⟨0, 0, 0⟩, ⟨0, 0, -1⟩⟩ →
      (∃ c r', (⟨[], [greyBlock 5, greyBlock 15], [], depth⟩ : Scene Ext).occlude r (lit 20) ⟨lit 1, lit 1, lit 1⟩ = .ok (c, r') ∧
        c.Is ⟨1 / 4, 1 / 4, 1 / 4⟩) ∧
      ∃ c r', (⟨[], [tree], [], depth⟩ : Scene Ext).occlude r (lit 20) ⟨lit 1, lit 1, lit 1⟩ = .ok (c, r') ∧
        c.Is ⟨1 / 2, 1 / 2, 1 / 2⟩ := by
  obtain ⟨n, l, hn⟩ := C22_builds St [greyBlock 5, greyBlock 15] (by simp) (by
    intro o ho
    simp only [List.mem_cons, List.not_mem_nil, or_false] at ho
    rcases ho with rfl | rfl <;> exact ⟨_, rfl, rfl, rfl⟩)
  have ht : mkTree St [greyBlock 5, greyBlock 15] = .ok (.tree n, l) := by
    rw [mkTree, hn]; rfl
  have sides : ∀ z, ∀ b ∈ greySides z, ∀ p, b.on p → (span (-1) (-1) (-z - 1) 1 1 (-z + 1)).Mem p := by
    intro z b hb p hp
    simp only [greySides, boxSides, List.mem_cons, List.not_mem_nil, or_false] at hb
    rcases hb with rfl | rfl | rfl | rfl | rfl | rfl <;> exact hp.1.1
  have far : ∀ z, ∀ b ∈ greySides z, ∀ T, b.on (ahead.at T) → T ≤ z + 1 := by
    intro z b hb T hon
    have := (sides z b hb _ hon).2.2.2.2.1
    rw [ahead_at] at this
    simp only [span] at this
    linarith
  have prop : ∀ z, (span (-1) (-1) (-z - 1) 1 1 (-z + 1)).Proper := by
    exact grey_proper
  have htree : PresentsAll ((20 : ℝ) ≤ 9 * 10 ^ 99) ahead (.tree n) [greySides 5, greySides 15].flatten := by
    refine C95_tree St _ _ l _ ht _ _ ahead_ne (.cons ((grey_presents 5 (by norm_num)).mono False.elim)
      (.cons ((grey_presents 15 (by norm_num)).mono False.elim) .nil)) (.cons ⟨_, _, rfl, span_is _ _ _ _ _ _, prop 5, sides 5⟩
      (.cons ⟨_, _, rfl, span_is _ _ _ _ _ _, prop 15, sides 15⟩ .nil)) (.inl ?_) ?_ (.inr (.inl (by norm_num)))
    · rintro B ⟨o, ho, b, hb, hB⟩
      simp only [List.mem_cons, List.not_mem_nil, or_false] at ho
      rcases ho with rfl | rfl <;> cases hb
      · obtain rfl := BBox.Is.unique (span_is _ _ _ _ _ _) hB
        norm_num [BBox.OnFacePlane, ahead, span]
      · obtain rfl := BBox.Is.unique (span_is _ _ _ _ _ _) hB
        norm_num [BBox.OnFacePlane, ahead, span]
    · intro x hx T hon
      simp only [List.flatten_cons, List.flatten_nil, List.append_nil, List.mem_append] at hx
      have : T ≤ 16 := by
        rcases hx with hx | hx
        · have := far 5 x hx T hon; linarith
        · have := far 15 x hx T hon; linarith
      exact lt_of_le_of_lt this (by norm_num)
  have onBefore : ∀ z, 1 < z → z < 20 → ∃ b ∈ greySides z, ∃ T > 0, T < 20 ∧ b.on (ahead.at T) := by
    intro z h1 h2
    obtain ⟨b, hb, hon⟩ := grey_on z
    exact ⟨b, hb, z - 1, by linarith, by linarith, hon⟩
  have twenty : (lit 20 : Ext).Is 20 := by simpa using Ext.Is.lit 20
  refine ⟨_, l, ht, fun r hr => ⟨?_, ?_⟩⟩
  · obtain ⟨c, C, e, hc, h⟩ := occludeLoop_is hr twenty (sky := none) (.cons (.inl ((grey_presents 5 (by norm_num)).mono False.elim))
      (.cons (.inl ((grey_presents 15 (by norm_num)).mono False.elim)) .nil)) (by simp) (c := ⟨lit 1, lit 1, lit 1⟩) (C := ⟨1, 1, 1⟩)
      ⟨lit1_is, lit1_is, lit1_is⟩
    refine ⟨c, r, e, hc.of_eq ?_⟩
    have h1 := through_clear (grey_look 5) (onBefore 5 (by norm_num) (by norm_num)) h
    have h2 := through_clear (grey_look 15) (onBefore 15 (by norm_num) (by norm_num)) h1
    rw [show C = _ from h2]
    norm_num
  · obtain ⟨c, C, e, hc, h⟩ := occludeLoop_is hr twenty (sky := none) (.cons (.inl htree) .nil) (by simp) (c := ⟨lit 1, lit 1, lit 1⟩) (C := ⟨1, 1, 1⟩)
      ⟨lit1_is, lit1_is, lit1_is⟩
    refine ⟨c, r, e, hc.of_eq ?_⟩
    have h1 := through_clear (k := ⟨1 / 2, 1 / 2, 1 / 2⟩) ?_ ?_ h
    · rw [show C = _ from h1]
      norm_num
    · intro x hx p
      simp only [List.flatten_cons, List.flatten_nil, List.append_nil, List.mem_append] at hx
      rcases hx with hx | hx
      · exact grey_look 5 x hx p
      · exact grey_look 15 x hx p
    · obtain ⟨b, hb, h⟩ := onBefore 5 (by norm_num) (by norm_num)
      exact ⟨b, by simp only [List.flatten_cons, List.mem_append]; exact .inl hb, h⟩

/-! ## Non-vacuity -/

/-- A white matte block between two corners. -/
private noncomputable def chalkBlock (x0 y0 z0 x1 y1 z1 : ℝ) : Obj Ext (Mat Ext) :=
  .box (spanExt x0 y0 z0 x1 y1 z1) (some (.matte fun _ => .ok ⟨lit 1, lit 1, lit 1⟩))

private noncomputable def chalkSides (x0 y0 z0 x1 y1 z1 : ℝ) : List Body :=
  boxSides (span x0 y0 z0 x1 y1 z1) fun _ => .matte ⟨1, 1, 1⟩

private theorem chalk_presents {x0 y0 z0 x1 y1 z1 : ℝ} (hp : (span x0 y0 z0 x1 y1 z1).Proper) (R : Ray ℝ)
    (hd : R.dir ≠ ⟨0, 0, 0⟩) (hn : (span x0 y0 z0 x1 y1 z1).NotInFace R) (hs : ¬ (span x0 y0 z0 x1 y1 z1).OnSurface R.start) :
    PresentsAll False R (chalkBlock x0 y0 z0 x1 y1 z1) (chalkSides x0 y0 z0 x1 y1 z1) :=
  C95_box _ _ (fun _ _ _ => .matte rfl ⟨lit1_is, lit1_is, lit1_is⟩) _ _ (span_is _ _ _ _ _ _) hp R hd hn hs

/-- A chalk block in front of the camera, and another above the line of sight. -/
private noncomputable def twoBlocks : Scene Ext where
  lights := [.point ⟨lit 0, lit 0, lit 0⟩ ⟨lit 100, lit 0, lit 0⟩, .point ⟨lit 0, lit 3, lit 0⟩ ⟨lit 0, lit 100, lit 0⟩]
  objects := [chalkBlock (-1) (-1) (-6) 1 1 (-4), chalkBlock (-1) 1 (-3) 1 2 (-1)]
  media := []
  recursionDepth := 1

private noncomputable def twoThings : List (List Body) := [chalkSides (-1) (-1) (-6) 1 1 (-4), chalkSides (-1) 1 (-3) 1 2 (-1)]

/-- A red lamp at the camera, and a green one behind the upper block. -/
private def twoLamps : List Bulb := [⟨⟨0, 0, 0⟩, ⟨100, 0, 0⟩⟩, ⟨⟨0, 3, 0⟩, ⟨0, 100, 0⟩⟩]

private theorem chalk_mem {x0 y0 z0 x1 y1 z1 : ℝ} {b : Body} (hb : b ∈ chalkSides x0 y0 z0 x1 y1 z1) {p : Vec ℝ} (h : b.on p) :
    (span x0 y0 z0 x1 y1 z1).OnSurface p := by
  simp only [chalkSides, boxSides, List.mem_cons, List.not_mem_nil, or_false] at hb
  rcases hb with rfl | rfl | rfl | rfl | rfl | rfl <;> exact h.1

private theorem chalk_look {b : Body} (hb : b ∈ twoThings.flatten) (p : Vec ℝ) : b.look p = .matte ⟨1, 1, 1⟩ := by
  simp only [twoThings, chalkSides, boxSides, List.flatten_cons, List.flatten_nil, List.append_nil, List.mem_append, List.mem_cons,
    List.not_mem_nil, or_false] at hb
  rcases hb with (rfl | rfl | rfl | rfl | rfl | rfl) | (rfl | rfl | rfl | rfl | rfl | rfl) <;> rfl

/-- The line of sight meets the front of the block at 4. -/
private theorem sight_meets {b : Body} {T : ℝ} (h : Meets twoThings.flatten ahead b T) :
    T = 4 ∧ b.normal (ahead.at T) = ⟨0, 0, 1⟩ := by
  obtain ⟨hb, ⟨h0, hon, -⟩, hall⟩ := h
  have h4 : T ≤ 4 := by
    refine hall _ (List.mem_append_left _ (.tail _ (.tail _ (.tail _ (.tail _ (.tail _ (.head _))))))) 4 (by norm_num) ?_
    rw [ahead_at]
    refine ⟨⟨?_, ?_⟩, ?_⟩ <;> norm_num [BBox.Mem, BBox.OnFacePlane, span]
  simp only [twoThings, List.flatten_cons, List.flatten_nil, List.append_nil, List.mem_append] at hb
  rcases hb with hb | hb
  · have hm := (chalk_mem hb hon).1
    rw [ahead_at] at hm
    have hT : T = 4 := by
      have := hm.2.2.2.2.2
      simp only [span] at this
      linarith
    subst hT
    refine ⟨rfl, ?_⟩
    rw [ahead_at] at hon ⊢
    simp only [chalkSides, boxSides, List.mem_cons, List.not_mem_nil, or_false] at hb
    rcases hb with rfl | rfl | rfl | rfl | rfl | rfl
    · have := hon.2; norm_num [span] at this
    · have := hon.2; norm_num [span] at this
    · have := hon.2; norm_num [span] at this
    · have := hon.2; norm_num [span] at this
    · have := hon.2; norm_num [span] at this
    · rfl
  · have hm := (chalk_mem hb hon).1
    rw [ahead_at] at hm
    have := hm.2.2.1
    norm_num [span] at this

private theorem gap_facts : 0 < gap ∧ gap < 1 := by unfold gap; norm_num

/-- Along rays towards lamps the blocks are presented. -/
private theorem blocks_present (g : Prop) (R : Ray ℝ) (hz : R.dir.z ≠ 0) (hs : R.start.x = 0 ∧ R.start.y = 0)
    (h4 : -4 < R.start.z) : List.Forall₂ (StandsFor none g R) twoBlocks.objects twoThings := by
  have hne : R.dir ≠ ⟨0, 0, 0⟩ := fun h => hz (by rw [h])
  refine .cons (.inl ((chalk_presents ?_ R hne ?_ ?_).mono False.elim))
    (.cons (.inl ((chalk_presents ?_ R hne ?_ ?_).mono False.elim)) .nil)
  · norm_num [BBox.Proper, span]
  · refine ⟨fun _ => ?_, fun _ => ?_, fun h => absurd h hz⟩
    · rw [hs.1]; norm_num [span]
    · rw [hs.2]; norm_num [span]
  · rintro ⟨h, -⟩
    have := h.2.2.2.2.2
    simp only [span] at this
    linarith
  · norm_num [BBox.Proper, span]
  · refine ⟨fun _ => ?_, fun _ => ?_, fun h => absurd h hz⟩
    · rw [hs.1]; norm_num [span]
    · rw [hs.2]; norm_num [span]
  · rintro ⟨h, -⟩
    have := h.2.2.1
    rw [hs.2] at this
    norm_num [span] at this

/-- The hypotheses of `C95_picture` are met by the two blocks before a camera with one pixel. The pixel is lit by the red
lamp at a distance of `4 - gap`, but not by the green one, since the upper block is in between. -/
example : List.Forall₂ IsBulb twoBlocks.lights twoLamps ∧
    (∀ p : Pixel, p.1 < 1 → p.2 < 1 → Followed none twoBlocks.objects twoThings twoLamps twoBlocks.recursionDepth.toNat
      ((⟨Real.pi / 2, 0, 0, 0, ⟨0, 0, 0⟩⟩ : View).sight 1 1 p.1 (sampleRow false 1 1 p.2))) ∧
    ∀ C, LooksAll (skyColor none) twoThings twoLamps 1 ((⟨Real.pi / 2, 0, 0, 0, ⟨0, 0, 0⟩⟩ : View).sight 1 1 0 (sampleRow false 1 1 0)) C →
      C = ⟨100 / (4 * Real.pi * (4 - gap) ^ 2), 0, 0⟩ := by
  obtain ⟨g0, g1⟩ := gap_facts
  have hsight : (⟨Real.pi / 2, 0, 0, 0, ⟨0, 0, 0⟩⟩ : View).sight 1 1 0 (sampleRow false 1 1 0) = ahead := by
    have turn0 : ∀ v : Vec ℝ, turned 0 0 0 v = v := by intro v; simp [turned, rodrigues, geo]
    have tan4 : Real.tan (Real.pi / 2 / 2) = 1 := by
      rw [show Real.pi / 2 / 2 = Real.pi / 4 by ring, Real.tan_pi_div_four]
    simp only [View.sight, turn0, pixelDir, tan4, unitVec, ahead, sampleRow]
    norm_num [geo]
  have hfac : facing ⟨0, 0, 1⟩ ahead.dir = ⟨0, 0, 1⟩ := by
    unfold facing
    rw [if_neg]
    simp only [geo, ahead]; norm_num
  have hP : (ahead.at 4).add ((⟨0, 0, 1⟩ : Vec ℝ).mul gap) = ⟨0, 0, gap - 4⟩ := by
    simp only [geo, ahead]; refine ⟨by norm_num, by norm_num, by ring⟩
  refine ⟨.cons ⟨_, _, rfl, ⟨lit0_is, lit0_is, lit0_is⟩, by simpa using Ext.Is.lit 100, lit0_is, lit0_is⟩
    (.cons ⟨_, _, rfl, ⟨lit0_is, by simpa using Ext.Is.lit 3, lit0_is⟩, lit0_is, by simpa using Ext.Is.lit 100, lit0_is⟩ .nil), ?_, ?_⟩
  · rintro ⟨x, y⟩ h1 h2
    obtain rfl : x = 0 := by simpa using h1
    obtain rfl : y = 0 := by simpa using h2
    rw [show ((0 : ℕ) : ℝ) = 0 from Nat.cast_zero, hsight]
    refine ⟨blocks_present _ _ (by norm_num [ahead]) ⟨rfl, rfl⟩ (by norm_num [ahead]), by simp, ?_⟩
    intro b T hm
    obtain ⟨rfl, hn⟩ := sight_meets hm
    rw [hn, chalk_look hm.1]
    refine ⟨?_, fun _ _ _ => trivial⟩
    rw [hfac, hP]
    have key : ∀ ly : ℝ, (⟨0, ly, 0⟩ : Vec ℝ) ≠ ⟨0, 0, gap - 4⟩ ∧
        List.Forall₂ (StandsFor none (length3 ((⟨0, ly, 0⟩ : Vec ℝ).sub ⟨0, 0, gap - 4⟩) ≤ 9 * 10 ^ 99)
          ⟨⟨0, 0, gap - 4⟩, unitVec ((⟨0, ly, 0⟩ : Vec ℝ).sub ⟨0, 0, gap - 4⟩)⟩) twoBlocks.objects twoThings := by
      intro ly
      refine ⟨fun h => ?_, blocks_present _ _ ?_ ⟨rfl, rfl⟩ ?_⟩
      · injection h with _ _ h; linarith
      · have hd : (⟨0, ly, 0⟩ : Vec ℝ).sub ⟨0, 0, gap - 4⟩ ≠ ⟨0, 0, 0⟩ := by
          intro h
          simp only [Vec.sub] at h
          injection h with _ _ h
          linarith
        have := (Real.sqrt_pos.2 (dot_self_pos hd)).ne'
        simp only [unitVec, Vec.mul]
        refine mul_ne_zero (one_div_ne_zero this) ?_
        simp only [Vec.sub]
        linarith
      · simp only; linarith
    intro L hL
    simp only [twoLamps, List.mem_cons, List.not_mem_nil, or_false] at hL
    rcases hL with rfl | rfl
    · exact ⟨(key 0).1, fun _ => ⟨(key 0).2, by simp⟩⟩
    · exact ⟨(key 3).1, fun _ => ⟨(key 3).2, by simp⟩⟩
  · intro C h
    rw [hsight] at h
    have noclear : ∀ b ∈ twoThings.flatten, ∀ p k, b.look p ≠ .clear k := by
      intro b hb p k h
      rw [chalk_look hb] at h
      cases h
    rcases h with ⟨b, T, hm, hg⟩ | ⟨hno, -⟩
    swap
    · exfalso
      refine hno _ (List.mem_append_left _ (.tail _ (.tail _ (.tail _ (.tail _ (.tail _ (.head _))))))) 4 (by norm_num) ?_
      rw [ahead_at]
      refine ⟨⟨?_, ?_⟩, ?_⟩ <;> norm_num [BBox.Mem, BBox.OnFacePlane, span]
    obtain ⟨rfl, hn⟩ := sight_meets hm
    rw [hn, chalk_look hm.1] at hg
    obtain ⟨ω, A, B, -, hA, hB, rfl⟩ := hg
    rw [hfac, hP] at hA
    obtain rfl : B = ⟨0, 0, 0⟩ := hB
    obtain ⟨A1, A', hA1, ⟨A2, A3, hA2, rfl, rfl⟩, rfl⟩ := hA
    -- the red lamp
    have hlen : length3 ⟨0 - 0, 0 - 0, 0 - (gap - 4)⟩ = 4 - gap := by
      unfold length3
      rw [show ((0 : ℝ) - 0) ^ 2 + (0 - 0) ^ 2 + (0 - (gap - 4)) ^ 2 = (4 - gap) ^ 2 by ring, Real.sqrt_sq (by linarith)]
    have hd : (4 - gap) ≠ 0 := by linarith
    have hcos : ((0 - 0) * 0 + (0 - 0) * 0 + (0 - (gap - 4)) * 1) / (4 - gap) = (1 : ℝ) := by
      rw [show ((0 - 0) * 0 + (0 - 0) * 0 + (0 - (gap - 4)) * 1 : ℝ) = 4 - gap by ring, div_self hd]
    have e1 : A1 = ⟨100 / (4 * Real.pi * (4 - gap) ^ 2), 0, 0⟩ := by
      simp only [FallsOn, hlen, hcos] at hA1
      rcases hA1 with ⟨h, -⟩ | ⟨-, c, hc, rfl⟩
      · norm_num at h
      · rcases C95_shadow _ noclear _ _ _ _ hc with ⟨-, rfl⟩ | ⟨⟨b, hb, T, hT, -, hon⟩, -⟩
        · simp [div_eq_mul_inv]
        · exfalso
          have e : (0 - (gap - 4)) / (4 - gap) = 1 := by rw [show 0 - (gap - 4) = 4 - gap by ring, div_self hd]
          rw [e] at hon
          simp only [twoThings, List.flatten_cons, List.flatten_nil, List.append_nil, List.mem_append] at hb
          rcases hb with hb | hb
          · have := (chalk_mem hb hon).1.2.2.2.2.2
            simp only [span, Ray.at, Vec.madd] at this
            linarith
          · have := (chalk_mem hb hon).1.2.2.1
            norm_num [span, Ray.at, Vec.madd] at this
    -- the green lamp
    obtain ⟨ℓ, hℓ⟩ : ∃ ℓ, ℓ = length3 ⟨0 - 0, 3 - 0, 0 - (gap - 4)⟩ := ⟨_, rfl⟩
    have hℓ0 : 0 < ℓ := by
      rw [hℓ]
      unfold length3
      apply Real.sqrt_pos.2
      nlinarith
    have e2 : A2 = ⟨0, 0, 0⟩ := by
      simp only [FallsOn, ← hℓ] at hA2
      rcases hA2 with ⟨-, h⟩ | ⟨-, c, hc, rfl⟩
      · exact h
      · rcases C95_shadow _ noclear _ _ _ _ hc with ⟨hfree, -⟩ | ⟨-, rfl⟩
        · exfalso
          have hle := hfree _ (List.mem_append_right _ (.tail _ (.tail _ (.tail _ (.head _))))) (2 / 3 * ℓ) (by positivity) ?_
          · linarith
          have ez : 2 / 3 * ℓ * ((0 - (gap - 4)) / ℓ) = 2 / 3 * (4 - gap) := by field_simp; ring
          have ey : 2 / 3 * ℓ * ((3 - 0) / ℓ) = 2 := by field_simp; norm_num
          simp only [BBox.OnSurface, BBox.Mem, BBox.OnFacePlane, span, Ray.at, Vec.madd, ez, ey]
          refine ⟨⟨⟨by norm_num, by norm_num, by norm_num, by norm_num, by linarith, by linarith⟩, ?_⟩, by norm_num⟩
          exact .inr (.inr (.inr (.inl (by norm_num))))
        · simp
    rw [e1, e2]
    simp

private theorem chalk_moved (q : Vec ℝ) :
    (span (-1) (-1) (-6) 1 1 (-4)).OnSurface ⟨q.x, q.y, q.z - 5⟩ ↔ (span (-1) (-1) (-1) 1 1 1).OnSurface q := by
  simp only [span, BBox.OnSurface, BBox.Mem, BBox.OnFacePlane]
  rw [show (-6 ≤ q.z - 5) = (-1 ≤ q.z) from propext ⟨fun h => by linarith, fun h => by linarith⟩,
    show (q.z - 5 ≤ -4) = (q.z ≤ 1) from propext ⟨fun h => by linarith, fun h => by linarith⟩,
    show (q.z - 5 = -6) = (q.z = -1) from propext ⟨fun h => by linarith, fun h => by linarith⟩,
    show (q.z - 5 = -4) = (q.z = 1) from propext ⟨fun h => by linarith, fun h => by linarith⟩]

/-- A chalk block moved by 5 away from the camera is presented there: the hypotheses of `C95_placed` are met. -/
example : ∃ o', (chalkBlock (-1) (-1) (-1) 1 1 1).mkTransformed (Affine.translate ⟨Ext.fin 0, Ext.fin 0, Ext.fin (-5)⟩) = .ok o' ∧
    PresentsAll False ahead o' (chalkSides (-1) (-1) (-6) 1 1 (-4)) := by
  have pl : (chalkBlock (-1) (-1) (-1) 1 1 1).Plain := fun _ _ _ _ h => by cases h
  have hT : (Affine.translate ⟨Ext.fin 0, Ext.fin 0, Ext.fin (-5)⟩ : Affine Ext).Is (Affine.translate ⟨0, 0, -5⟩) :=
    Affine.Is.translate ⟨num_is _, num_is _, num_is _⟩
  have hpt : ∀ q : Vec ℝ, (Affine.translate ⟨0, 0, -5⟩ : Affine ℝ).point q = ⟨q.x, q.y, q.z - 5⟩ := by
    intro q
    simp only [geo, lit_real]
    norm_num
    ring
  obtain ⟨b', B', e1, e2, hi⟩ := BBox.transform_is (span_is (-1) (-1) (-1) 1 1 1) hT
  have e : (chalkBlock (-1) (-1) (-1) 1 1 1).mkTransformed (Affine.translate ⟨Ext.fin 0, Ext.fin 0, Ext.fin (-5)⟩) =
      .ok (.transformed b' (Affine.translate ⟨Ext.fin 0, Ext.fin 0, Ext.fin (-5)⟩)
        (Affine.translate ⟨Ext.fin 0, Ext.fin 0, Ext.fin (-5)⟩).inverse (chalkBlock (-1) (-1) (-1) 1 1 1)) := by
    rw [Obj.mkTransformed_plain _ pl]
    simp only [chalkBlock, Obj.bounds, ok_bind, e1]
    rfl
  have hB' : B' = span (-1) (-1) (-6) 1 1 (-4) := by
    obtain ⟨B2, e3, hh, -, hw⟩ := BBox.transform_real (span (-1) (-1) (-1) 1 1 1) (Affine.translate ⟨0, 0, -5⟩)
    rw [e2] at e3; cases e3
    have w := hw (span (-1) (-1) (-6) 1 1 (-4)) (by
      intro v hv
      rw [hpt]
      simp only [BBox.hull, span, List.mem_cons, List.not_mem_nil, or_false] at hv
      rcases hv with rfl | rfl | rfl | rfl | rfl | rfl | rfl | rfl <;> norm_num [BBox.Mem, span])
    have m1 := hh ⟨-1, -1, -1⟩ (by simp [BBox.hull, span])
    have m2 := hh ⟨1, 1, 1⟩ (by simp [BBox.hull, span])
    rw [hpt] at m1 m2
    obtain ⟨w1, w2, w3, w4, w5, w6⟩ := w
    obtain ⟨a1, a2, a3, a4, a5, a6⟩ := m1
    obtain ⟨c1, c2, c3, c4, c5, c6⟩ := m2
    simp only [le_real, decide_eq_true_eq, span] at w1 w2 w3 w4 w5 w6
    have t1 : B'.min = ⟨-1, -1, -6⟩ := Vec.ext (le_antisymm a1 w1) (le_antisymm a3 w3) (le_antisymm (by linarith) w5)
    have t2 : B'.max = ⟨1, 1, -4⟩ := Vec.ext (le_antisymm w2 c2) (le_antisymm w4 c4) (le_antisymm w6 (by linarith))
    cases B'
    simp only at t1 t2
    rw [t1, t2]
    rfl
  refine ⟨_, e, ?_⟩
  refine C95_placed False _ _ pl _ _ hT (by simp only [geo, lit_real]; norm_num) 1 one_pos ?_ e (chalkSides (-1) (-1) (-1) 1 1 1) _
    ?_ _ _ rfl (span_is _ _ _ _ _ _) (fun x hx p hp => (chalk_mem hx hp).1) _ ahead_ne ?_ ?_
  · intro p q
    rw [hpt, hpt, one_mul]
    unfold length3
    simp only [Vec.sub]
    congr 2
    ring
  · have side : ∀ (f f' : Vec ℝ → ℝ) (N : Vec ℝ), (∀ q : Vec ℝ, f' ⟨q.x, q.y, q.z - 5⟩ = f q) → Body.PlacedBy 1 (Affine.translate ⟨0, 0, -5⟩ : Affine ℝ).point
        ⟨fun p => (span (-1) (-1) (-1) 1 1 1).OnSurface p ∧ |f p| < 1 / 10 ^ 8, fun _ => N, fun _ => .matte ⟨1, 1, 1⟩⟩
        ⟨fun p => (span (-1) (-1) (-6) 1 1 (-4)).OnSurface p ∧ |f' p| < 1 / 10 ^ 8, fun _ => N, fun _ => .matte ⟨1, 1, 1⟩⟩ := by
      intro f f' N hf q
      simp only [hpt, chalk_moved, hf, true_and]
      intro _
      obtain ⟨x, y, z⟩ := N
      simp only [Vec.add, Vec.sub, Vec.mul, Vec.mk.injEq]
      refine ⟨?_, ?_, ?_⟩ <;> ring
    refine .cons (side (fun p => p.x - -1) (fun p => p.x - -1) _ fun _ => rfl) (.cons (side (fun p => p.x - 1) (fun p => p.x - 1) _ fun _ => rfl)
      (.cons (side (fun p => p.y - -1) (fun p => p.y - -1) _ fun _ => rfl) (.cons (side (fun p => p.y - 1) (fun p => p.y - 1) _ fun _ => rfl)
      (.cons (side (fun p => p.z - -1) (fun p => p.z - -6) _ fun _ => by ring)
      (.cons (side (fun p => p.z - 1) (fun p => p.z - -4) _ fun _ => by ring) .nil)))))
  · intro b2 B2 h1 h2
    rw [Obj.bounds] at h1
    cases h1
    obtain rfl := BBox.Is.unique hi h2
    rw [hB']
    constructor
    · norm_num [BBox.NotInFace, ahead, span]
    · norm_num [BBox.OnSurface, BBox.Mem, ahead, span]
  · have hR : (Affine.translate ⟨0, 0, -5⟩ : Affine ℝ).pullRay ahead = ⟨⟨0, 0, 5⟩, ⟨0, 0, -1⟩⟩ := by
      simp only [Affine.pullRay, Affine.inverse, Matrix.inverse, Matrix.det, ahead, geo, lit_real]
      norm_num
    rw [hR]
    refine chalk_presents ?_ _ (by simp) ?_ ?_
    · norm_num [BBox.Proper, span]
    · norm_num [BBox.NotInFace, span]
    · norm_num [BBox.OnSurface, BBox.Mem, span]

/-- What a chalk ball and the outside of another have in common: the ray enters it at 4 and leaves it
at 5, where the normal of the second ball is turned. The hypotheses of `C95_solid_and` and `C95_solid_not` are met. -/
example : LitAlong (.and chalkBall (.not (Obj.sphere (some (.reflective ⟨lit 1, lit 1, lit 1⟩)) (Ext.fin 2) ⟨Ext.fin 0, Ext.fin 0, Ext.fin (-6)⟩)))
    ((LitSolid.ball 2 ⟨0, 0, -5⟩ fun _ => .matte ⟨1, 1, 1⟩).and (LitSolid.ball 2 ⟨0, 0, -6⟩ fun _ => .mirror ⟨1, 1, 1⟩).not)
    ahead ({4, 6} ∪ {5, 7}) := by
  refine C95_solid_and _ _ _ _ _ _ _ ?_ (C95_solid_not _ _ _ _ ?_) ?_ ?_ ((Finset.card_le_two).trans (by norm_num))
    ((Finset.card_le_two).trans (by norm_num))
  · refine C95_solid_ball _ _ (fun _ _ _ => .matte rfl ⟨lit1_is, lit1_is, lit1_is⟩) _ 2 (by simpa using Ext.Is.lit 2) (by norm_num) _ _
      ⟨lit0_is, lit0_is, by simpa using Ext.Is.lit (-5)⟩ _ ahead_ne _ (.inl ⟨4, 6, by norm_num, ?_, ?_, rfl⟩)
    · rw [ahead_at]; norm_num [AtDistance]
    · rw [ahead_at]; norm_num [AtDistance]
  · refine C95_solid_ball _ _ (fun _ _ _ => .reflective ⟨lit1_is, lit1_is, lit1_is⟩) _ 2 (num_is _) (by norm_num) _ _
      ⟨num_is _, num_is _, num_is _⟩ _ ahead_ne _ (.inl ⟨5, 7, by norm_num, ?_, ?_, rfl⟩)
    · rw [ahead_at]; norm_num [AtDistance]
    · rw [ahead_at]; norm_num [AtDistance]
  · intro c hc d hd
    simp only [Finset.mem_union, Finset.mem_insert, Finset.mem_singleton] at hc hd
    rcases hc with (rfl | rfl) | (rfl | rfl) <;> rcases hd with (rfl | rfl) | (rfl | rfl) <;> norm_num
  · rw [Finset.disjoint_left]
    intro c hc hd
    simp only [Finset.mem_insert, Finset.mem_singleton] at hc hd
    rcases hc with rfl | rfl <;> rcases hd with h | h <;> norm_num at h

end BR
