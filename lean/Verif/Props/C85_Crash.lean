import Verif.Lemmas.BoxErr
import Verif.Lemmas.Showable
import Verif.Props.C03_Schedule
import Verif.Props.C58_Deterministic
import Verif.Model.Workers

/-! C85: showing a scene does not crash the program. -/

namespace BR
set_option linter.unusedSectionVars false

section
variable {F S : Type} [Add F] [Sub F] [Mul F] [Div F] [Neg F] [GoFloat F] [CmpModel F]

/-- **C85.** In any arithmetic whose comparisons make sense and whose subtraction does not turn a larger minus a smaller
number negative: light can be followed from every ray into every sturdy scene, for any recursion depth that is not
negative, any media and any random source, without a panic; and the context is handed back as it was. -/
theorem C85_light (hsub : SubLaw F) (s : Scene F) (hs : s.Sturdy) (hd : 0 ≤ s.recursionDepth) (rng : Rng F S) (f : Field)
    (r : Ray F) (c : Ctx F S) (h0 : c.depth = 0) (hc : c.Ready) :
    ∃ col c', s.lightField rng s.recursionDepth.toNat f r c = .ok (col, c') ∧ c'.depth = 0 ∧ c'.Ready ∧ c'.frame = c.frame := by
  obtain ⟨col, c', e, hd', hr, h1, h2, h3, h4⟩ := lightField_does (rng := rng) (fr := c.frame) hsub
    (fun o ho => (hs.1 o ho).fit) (fun l hl => (hs.2 l hl).fit) s.recursionDepth.toNat 0 le_rfl
    (by rw [zero_add]; exact Int.toNat_of_nonneg hd) f r c ⟨h0, hc, rfl, rfl, rfl, rfl⟩
  refine ⟨col, c', e, hd', hr, ?_⟩
  unfold Ctx.frame at *
  rw [h1, h2, h3, h4, hd', h0]

end

section
variable {S : Type}

theorem generate2_flo (s : HaltonSeq Flo) (hu : 2 ≤ s.baseU) (hu' : s.baseU < 2 ^ 53) (hv : 2 ≤ s.baseV)
    (hv' : s.baseV < 2 ^ 53) : ∃ uv, s.generate2 = .ok uv := by
  obtain ⟨u, eu⟩ := halton_flo s.baseU hu hu' s.index
  obtain ⟨v, ev⟩ := halton_flo s.baseV hv hv' s.index
  unfold HaltonSeq.generate2
  rw [eu, ok_bind, ev, ok_bind]
  exact ⟨_, rfl⟩

theorem between_ready {shifts : List (Flo × Flo)} {c : Ctx Flo S} (h : BetweenPixels shifts c) : c.Ready := by
  obtain ⟨a1, a2, -, -⟩ := h.seq1
  obtain ⟨b1, b2, -, -⟩ := h.seq2
  simp only [HaltonSeq.new] at a1 a2 b1 b2
  exact ⟨generate2_flo _ (by omega) (by omega) (by omega) (by omega),
    generate2_flo _ (by omega) (by omega) (by omega) (by omega)⟩

theorem rayFrom_between {shifts : List (Flo × Flo)} (rng : Rng Flo S) (cam : Cam Flo) {c : Ctx Flo S}
    (h : BetweenPixels shifts c) (u v : Flo) : BetweenPixels shifts (cam.rayFrom rng c u v).2 := by
  unfold Cam.rayFrom BaseCam.rayFrom Ctx.generateLens
  dsimp only
  split
  · split
    · exact ⟨h.depth, h.seq1, h.seq2, h.seqL, h.aa⟩
    · exact h
  · exact h
  · exact h

/-- `(u, v)` is a place on the image that a pass over the pixels of a `w` by `h` image asks the camera about. -/
def OnScreen (w h : Nat) (aa : Bool) (shifts : List (Flo × Flo)) (u v : Flo) : Prop :=
  ∃ p : Nat × Nat, p.1 < w ∧ p.2 < h ∧ ∃ uv : Flo × Flo, indexToCam (w : Int) (h : Int) (ofInt p.1) (ofInt p.2) = .ok uv ∧
    if aa = true then ∃ j, (HaltonSeq.new 2 3 1 shifts).generate2 = .ok j ∧ u = uv.1 + pixelSize w h * (j.1 - lit (1 / 2)) ∧
      v = uv.2 + pixelSize w h * (j.2 - lit (1 / 2))
    else u = uv.1 ∧ v = uv.2

/-- If light can be followed from every ray of the camera into a scene, pictures of it can be taken. -/
theorem picture_safe (s : Scene Flo) (rng : Rng Flo S) (P : Ray Flo → Prop)
    (hlight : ∀ (f : Field) (r : Ray Flo) (c : Ctx Flo S), P r → c.depth = 0 → c.Ready →
      ∃ col c', s.lightField rng s.recursionDepth.toNat f r c = .ok (col, c') ∧ c'.depth = 0 ∧ c'.Ready ∧ c'.frame = c.frame)
    (cam : Cam Flo) (w h : Nat)
    (hw : w ≤ 2 ^ 50) (hh : h ≤ 2 ^ 50) (aa : Bool) (shifts : List (Flo × Flo))
    (hcam : ∀ (c : Ctx Flo S) (u v : Flo), OnScreen w h aa shifts u v → P (cam.rayFrom rng c u v).1)
    (hshift : w * h ≤ shifts.length) (W : Nat) (seeds : Fin W → S) (nPass : Nat) (m0 : Pixel → Cell Flo)
    (t : SamplerState Flo (Ctx Flo S) W) (k : Nat)
    (hrun : Runs (ctxShader (s.imageFunc rng cam)) w h aa nPass
      (samplerInit w h (fun i => Ctx.new shifts (seeds i)) m0) k t) : t.crashed = false := by
  have hpos : Possible (ctxShader (s.imageFunc rng cam)) w h aa (BetweenPixels shifts) fun _ _ _ => True := by
    intro ctx hctx p hx hy k
    obtain ⟨uv, euv⟩ := indexToCam_flo hw hh p hx hy
    have hlt : w * p.2 + p.1 < shifts.length := by
      refine lt_of_lt_of_le ?_ hshift
      calc w * p.2 + p.1 < w * p.2 + w := by omega
        _ = w * (p.2 + 1) := by rw [Nat.mul_succ]
        _ ≤ w * h := Nat.mul_le_mul_left _ hy
    have hget : shifts[w * p.2 + p.1]? = some shifts[w * p.2 + p.1] := List.getElem?_eq_getElem hlt
    obtain ⟨ctx1, e1, hb1⟩ : ∃ ctx1, ctx.init (w * p.2 + p.1) k = .ok ctx1 ∧ BetweenPixels shifts ctx1 := by
      rcases init_between hctx hctx (w * p.2 + p.1) k with ⟨e, e1, -⟩ | ⟨d, -, e1, -, -, hb⟩
      · exfalso
        unfold Ctx.init at e1
        rw [HaltonSeq.init_like hctx.seq1, HaltonSeq.init_like hctx.seq2, HaltonSeq.init_like hctx.seqL] at e1
        simp only [HaltonSeq.init, HaltonSeq.new, hget, ok_bind] at e1
        cases e1
      · exact ⟨d, e1, hb⟩
    have img : ∀ u v, OnScreen w h aa shifts u v →
        ∃ c ctx', s.imageFunc rng cam ctx1 u v = .ok (c, ctx') ∧ BetweenPixels shifts ctx' := by
      intro u v huv
      unfold Scene.imageFunc
      have hb2 : BetweenPixels shifts (cam.rayFrom rng ctx1.takeRay.2 u v).2 :=
        rayFrom_between rng cam (c := ctx1.takeRay.2) ⟨hb1.depth, hb1.seq1, hb1.seq2, hb1.seqL, hb1.aa⟩ u v
      obtain ⟨c, c', e, -, -, hf⟩ := hlight .direct (cam.rayFrom rng ctx1.takeRay.2 u v).1
        (cam.rayFrom rng ctx1.takeRay.2 u v).2 (hcam _ _ _ huv) hb2.depth (between_ready hb2)
      refine ⟨c, c'.putRay ctx1.takeRay.1, ?_, ?_⟩
      · dsimp only
        rw [e]; rfl
      · exact betweenPixels_frame hb2 (show _ = c'.frame from hf.symm)
    unfold passColor
    rw [euv]
    simp only [ok_bind, ctxShader, e1]
    cases aa with
    | false =>
      obtain ⟨c, ctx', e, hb⟩ := img uv.1 uv.2 ⟨p, hx, hy, uv, euv, rfl, rfl⟩
      exact ⟨c, ctx', e, hb, trivial⟩
    | true =>
      obtain ⟨j, ej⟩ := generate2_flo ctx1.aa (by rw [hb1.aa]; simp [HaltonSeq.new]) (by rw [hb1.aa]; simp [HaltonSeq.new])
        (by rw [hb1.aa]; simp [HaltonSeq.new]) (by rw [hb1.aa]; simp [HaltonSeq.new])
      obtain ⟨c, ctx', e, hb⟩ := img (uv.1 + pixelSize w h * (j.1 - lit (1 / 2))) (uv.2 + pixelSize w h * (j.2 - lit (1 / 2)))
        ⟨p, hx, hy, uv, euv, j, hb1.aa ▸ ej, rfl, rfl⟩
      refine ⟨c, ctx', ?_, hb, trivial⟩
      rw [if_pos rfl, ej, ok_bind]
      exact e
  exact (C03_random_safe hpos (fun i => betweenPixels_new shifts (seeds i)) t k hrun).1

/-- **C85.** Computing with rounded double precision numbers, a picture of a sturdy scene is taken without a crash: with
any camera, any image of up to `2^50` by `2^50` pixels, with or without anti-aliasing, any number of passes and workers,
any shifts of the sample sequences and random numbers, however the workers are scheduled. -/
theorem C85_picture (s : Scene Flo) (hs : s.Sturdy) (hd : 0 ≤ s.recursionDepth) (cam : Cam Flo) (w h : Nat)
    (hw : w ≤ 2 ^ 50) (hh : h ≤ 2 ^ 50) (aa : Bool) (rng : Rng Flo S) (shifts : List (Flo × Flo))
    (hshift : w * h ≤ shifts.length) (W : Nat) (seeds : Fin W → S) (nPass : Nat) (m0 : Pixel → Cell Flo)
    (t : SamplerState Flo (Ctx Flo S) W) (k : Nat)
    (hrun : Runs (ctxShader (s.imageFunc rng cam)) w h aa nPass
      (samplerInit w h (fun i => Ctx.new shifts (seeds i)) m0) k t) : t.crashed = false :=
  picture_safe s rng (fun _ => True) (fun f r c _ => C85_light subLaw_flo s hs hd rng f r c) cam w h hw hh aa shifts
    (fun _ _ _ _ => trivial) hshift W seeds nPass m0 t k hrun

end

/-- **C85, boxes.** In double precision a box finds the face that was hit, if the coordinates of its corners and of the
start of the ray are at most four million (`2^22`) and some component of the direction is at least `1/4`, as it is for unit
vectors. Beyond that it need not: see `C85_violated_box` and `C85_violated_infinite`. -/
theorem C85_box_partial {M : Type} (m : Option M) (b : BBox Flo) (r : Ray Flo)
    (hmin : ∀ i, ∃ x, (b.min.get i).Is x ∧ |x| ≤ 2 ^ 22) (hmax : ∀ i, ∃ x, (b.max.get i).Is x ∧ |x| ≤ 2 ^ 22)
    (hs : ∀ i, ∃ x, (r.start.get i).Is x ∧ |x| ≤ 2 ^ 22) (hd : ∀ i, ∃ x, (r.dir.get i).Is x ∧ |x| ≤ 2 ^ 100)
    (hbig : ∃ i x, (r.dir.get i).Is x ∧ 1 / 4 ≤ |x|) : ∃ h, (Obj.box b m).intersect r = .ok (h, r) := by
  obtain ⟨h, e⟩ := box_hit_flo b m r hmin hmax hs hd hbig
  exact ⟨h, by rw [Obj.intersect, e]; rfl⟩

/-! ## What can be shown -/

section
variable {F : Type} [Add F] [Sub F] [Mul F] [Div F] [Neg F] [GoFloat F] [CmpModel F]

/-- **C85.** Balls, cylinders and backdrops of a material can be shown, and so can whatever meshes the constructors make
without an error. -/
theorem C85_shapes (m : Mat F) (hm : m.Total) (S : Sorter (Obj F (Mat F))) :
    (∀ diam center, (Obj.sphere (some m) diam center).Showable) ∧
    (∀ diam height center, (Obj.cylinder (some m) diam height center).Showable) ∧
    (∀ dir diam height center, (Obj.quadric (Obj.cylinderDirQ (some m) dir diam height center)).Showable) ∧
    (Obj.backdrop (some m) : Obj F (Mat F)).Showable ∧
    (∀ a b c o, triangle S (some m) a b c = .ok o → o.Showable) ∧
    (∀ a b c d o, quadrilateral S (some m) a b c d = .ok o → o.Showable) ∧
    (∀ width depth center o, rectangle S (some m) width depth center = .ok o → o.Showable) ∧
    (∀ diam center o, disk S (some m) diam center = .ok o → o.Showable) ∧
    (∀ v f uv o, meshWithUV S (some m) v f uv = .ok o → o.Showable) ∧
    (∀ v f o, plyObj S (some m) v f = .ok o → o.Showable) ∧
    (∀ nu nv f o, parametric S (some m) nu nv f = .ok o → o.Showable) :=
  ⟨fun _ _ => (quadric_good hm _ rfl).1, fun _ _ _ => (quadric_good hm _ rfl).1, fun _ _ _ _ => (quadric_good hm _ rfl).1,
   ⟨by rw [Obj.Sturdy]; trivial, by rw [Obj.Wears]; exact ⟨m, rfl, hm⟩⟩,
   fun _ _ _ _ e => (meshWithUV_good hm S _ _ _ _ e).1, fun _ _ _ _ _ e => (meshWithUV_good hm S _ _ _ _ e).1,
   fun _ _ _ _ e => (rectangle_good hm S _ _ _ _ e).1, fun _ _ _ e => (disk_good hm S _ _ _ e).1,
   fun _ _ _ _ e => (meshWithUV_good hm S _ _ _ _ e).1, fun _ _ _ e => (plyObj_good hm S _ _ _ e).1,
   fun _ _ _ _ e => (parametric_good hm S _ _ _ _ e).1⟩

/-- **C85.** Objects made from showable ones, whose inside can be asked for, are again such: placed, combined, hollow,
given another material, or put in a tree that has a material or at least eight members. -/
theorem C85_combined (S : Sorter (Obj F (Mat F))) :
    (∀ t (o o' : Obj F (Mat F)), o.Good → o.mkTransformed t = .ok o' → o'.Good) ∧
    (∀ a b : Obj F (Mat F), a.Good → b.Good → (Obj.and a b).Good ∧ (Obj.or a b).Good ∧ (Obj.restrict a b).Good ∧
      (Obj.difference a b).Good ∧ (Obj.remove a b).Good ∧ (Obj.hollow a).Good) ∧
    (∀ (m : Mat F) (o : Obj F (Mat F)), m.Total → o.Sturdy → o.Decides → (Obj.withMaterial (some m) o).Good) ∧
    (∀ (os : List (Obj F (Mat F))) o l, (∀ x ∈ os, x.Good) → 7 < os.length → mkTree S os = .ok (o, l) → o.Good) ∧
    (∀ (m : Mat F) (os : List (Obj F (Mat F))) o l, m.Total → (∀ x ∈ os, x.Sturdy ∧ x.Decides) → mkTree S os = .ok (o, l) →
      (Obj.withMaterial (some m) o).Good) := by
  have tree : ∀ (os : List (Obj F (Mat F))) o l, (∀ x ∈ os, x.Sturdy ∧ x.Decides) → mkTree S os = .ok (o, l) →
      o.Sturdy ∧ o.Decides ∧ ∃ root, o = .tree root ∧ buildTree S os = .ok (root, l) := by
    intro os o l hos e
    unfold mkTree at e
    obtain ⟨⟨root, l'⟩, eb, e⟩ := bind_eq_ok.1 e
    simp only [pure_ok, Except.ok.injEq, Prod.mk.injEq] at e
    obtain ⟨rfl, rfl⟩ := e
    refine ⟨?_, ?_, root, rfl, eb⟩
    · rw [Obj.Sturdy]; exact buildTree_sturdy S os (fun o ho => (hos o ho).1) _ _ eb
    · rw [Obj.Decides]; exact buildTree_decides S os (fun o ho => (hos o ho).2) _ _ eb
  refine ⟨fun t o o' => transformed_good t o o', ?_, ?_, ?_, ?_⟩
  · rintro a b ⟨⟨a1, a2⟩, a3⟩ ⟨⟨b1, b2⟩, b3⟩
    refine ⟨⟨⟨?_, ?_⟩, ?_⟩, ⟨⟨?_, ?_⟩, ?_⟩, ⟨⟨?_, ?_⟩, ?_⟩, ⟨⟨?_, ?_⟩, ?_⟩, ⟨⟨?_, ?_⟩, ?_⟩, ⟨⟨?_, ?_⟩, ?_⟩⟩ <;>
      simp only [Obj.Sturdy, Obj.Wears, Obj.Decides, Obj.difference, Obj.remove] <;> tauto
  · intro m o hm h1 h2
    exact ⟨⟨by rw [Obj.Sturdy]; exact h1, by rw [Obj.Wears]; exact ⟨m, rfl, hm⟩⟩, by rw [Obj.Decides]; exact h2⟩
  · intro os o l hos hlen e
    obtain ⟨h1, h2, root, rfl, eb⟩ := tree os o l (fun x hx => ⟨(hos x hx).1.1, (hos x hx).2⟩) e
    refine ⟨⟨h1, ?_⟩, h2⟩
    have hw := buildTree_wears Mat.Total S os (fun x hx => (hos x hx).1.2) _ _ eb
    rw [buildTree, if_neg (show ¬os.length ≤ maxFacePerLeaf from not_le.2 hlen)] at eb
    obtain ⟨bb, -, eb⟩ := bind_eq_ok.1 eb
    dsimp only at eb
    obtain ⟨⟨a, la⟩, -, eb⟩ := bind_eq_ok.1 eb
    obtain ⟨⟨b, lb⟩, -, eb⟩ := bind_eq_ok.1 eb
    simp only [pure_ok, Except.ok.injEq, Prod.mk.injEq] at eb
    rw [← eb.1] at hw ⊢
    rw [Node.Wears] at hw
    rw [Obj.Wears]
    exact hw
  · intro m os o l hm hos e
    obtain ⟨h1, h2, -⟩ := tree os o l hos e
    exact ⟨⟨by rw [Obj.Sturdy]; exact h1, by rw [Obj.Wears]; exact ⟨m, rfl, hm⟩⟩, by rw [Obj.Decides]; exact h2⟩

/-- **C85.** The lamps of the library can be shown: point lights, rectangles and discs, also placed elsewhere, and the
sun. -/
theorem C85_lamps (S : Sorter (Obj F (Mat F))) :
    (∀ pos power, (Light.point pos power : Light F).object.Good) ∧
    (∀ brightness w h center l, Light.rectangleLight S brightness w h center = .ok l → l.object.Good) ∧
    (∀ brightness diam center l, Light.diskLight S brightness diam center = .ok l → l.object.Good) ∧
    (∀ t (l l' : Light F), l.object.Good → l.mkTransformed t = .ok l' → l'.object.Good) ∧
    (∀ brightness a yaw pitch l, Light.sunLight S brightness a yaw pitch = .ok l → l.object.Good) := by
  refine ⟨point_good, fun _ _ _ _ l => rectangleLight_good S _ _ _ _ l, fun _ _ _ l => diskLight_good S _ _ _ l,
    fun t l l' => lightTransformed_good t l l', fun _ _ _ _ l e => ?_⟩
  unfold Light.sunLight at e
  dsimp only at e
  obtain ⟨d, ed, e⟩ := bind_eq_ok.1 e
  exact lightTransformed_good _ _ _ (diskLight_good S _ _ _ _ ed) e

/-- **C85.** Textures made from such that have a colour everywhere have one everywhere. -/
theorem C85_textures :
    (∀ c : Color F, Tex.Total c.tex) ∧
    (∀ (t : Tex F) u v, t.Total → Tex.Total (Texture.pan t u v) ∧ Tex.Total (Texture.scaleUV t u v) ∧
      Tex.Total (Texture.mapFisheye t)) ∧
    (∀ (a b : Tex F) w u v, a.Total → b.Total → Tex.Total (Texture.checkers u v a b) ∧ Tex.Total (Texture.grid w u v a b)) := by
  refine ⟨fun c p => ⟨c, rfl⟩, fun t u v ht => ⟨fun p => ht _, fun p => ht _, fun p => ht _⟩,
    fun a b w u v ha hb => ⟨fun p => ?_, fun p => ?_⟩⟩
  · unfold Texture.checkers
    dsimp only
    split
    · exact ha _
    · exact hb _
  · unfold Texture.grid Texture.atUV
    dsimp only
    split
    · exact hb _
    · exact ha _

end

/-! ## Examples -/

/-- A scene of a matte ball with a hole, a mirror on the floor, a glass ball, a backdrop and a point light. -/
noncomputable def showScene (F : Type) [Add F] [Sub F] [Mul F] [Div F] [Neg F] [GoFloat F] (floor : Obj F (Mat F)) : Scene F :=
  ⟨[.point ⟨lit 0, lit 5, lit 0⟩ ⟨lit 100, lit 100, lit 100⟩],
   [.difference (.sphere (some (.matte (Color.tex ⟨lit 1, lit 0, lit 0⟩))) (lit 1) ⟨lit 0, lit 0, lit 0⟩)
      (.sphere (some (.matte (Color.tex ⟨lit 0, lit 1, lit 0⟩))) (lit 1) ⟨lit 1, lit 0, lit 0⟩),
    .sphere (some (.refractive (lit 1) (lit (3 / 2)))) (lit 1) ⟨lit 0, lit 0, lit 2⟩,
    .withMaterial (some (.reflectFresnel (lit (3 / 2)) (.matte (Color.tex ⟨lit 1, lit 1, lit 1⟩)))) floor,
    .backdrop (some (.flat (Texture.checkers (lit 3) (lit 3) (Color.tex ⟨lit 1, lit 1, lit 1⟩) (Color.tex ⟨lit 0, lit 0, lit 0⟩))))],
   [], 6⟩

theorem showScene_sturdy {F : Type} [Add F] [Sub F] [Mul F] [Div F] [Neg F] [GoFloat F] [CmpModel F] (floor : Obj F (Mat F))
    (hf : floor.Good) : (showScene F floor).Sturdy := by
  have mt : ∀ c : Color F, (Mat.matte c.tex : Mat F).Total := fun c p => ⟨c, rfl⟩
  refine ⟨?_, ?_⟩
  · simp only [showScene, List.forall_mem_cons, List.not_mem_nil, false_implies, implies_true, and_true]
    refine ⟨?_, ?_, ?_, ?_⟩
    · exact ((C85_combined ⟨fun _ l => l, fun _ l => List.Perm.refl l⟩).2.1 _ _ (quadric_good (mt _) _ rfl) (quadric_good (mt _) _ rfl)).2.2.2.1.1
    · exact (quadric_good (m := .refractive (lit 1) (lit (3 / 2))) trivial _ rfl).1
    · exact ⟨by rw [Obj.Sturdy]; exact hf.1.1, by rw [Obj.Wears]; exact ⟨_, rfl, fun p => ⟨_, rfl⟩⟩⟩
    · exact ⟨by rw [Obj.Sturdy]; trivial, by
        rw [Obj.Wears]
        exact ⟨_, rfl, (C85_textures.2.2 _ _ (lit 0) (lit 3) (lit 3) (C85_textures.1 _) (C85_textures.1 _)).1⟩⟩
  · simp only [showScene, List.forall_mem_cons, List.not_mem_nil, false_implies, implies_true, and_true]
    exact (point_good _ _).1

/-- `C85_picture` applies to this scene, seen by any camera, even with all its random choices and schedules. -/
example {S : Type} (so : Sorter (Obj Flo (Mat Flo))) (floor : Obj Flo (Mat Flo))
    (hfl : rectangle so (some .black) (lit 9) (lit 9) ⟨lit 0, lit 0, lit 0⟩ = .ok floor) (cam : Cam Flo) (rng : Rng Flo S)
    (shifts : List (Flo × Flo)) (hshift : 1920 * 1080 ≤ shifts.length) (seeds : Fin 8 → S) (m0 : Pixel → Cell Flo) (t) (k : Nat)
    (hrun : Runs (ctxShader ((showScene Flo floor).imageFunc rng cam)) 1920 1080 true 100
      (samplerInit 1920 1080 (fun i => Ctx.new shifts (seeds i)) m0) k t) : t.crashed = false :=
  C85_picture _ (showScene_sturdy floor (rectangle_good (m := .black) trivial so _ _ _ _ hfl)) (by change (0 : Int) ≤ 6; decide)
    cam 1920 1080 (by norm_num) (by norm_num) true rng shifts hshift 8 seeds 100 m0 t k hrun

/-- The unit box, hit by a ray along an axis. -/
example : ∃ h, (Obj.box (M := Unit) ⟨⟨lit 0, lit 0, lit 0⟩, ⟨lit 1, lit 1, lit 1⟩⟩ none).intersect
    (⟨⟨lit 0, lit 0, lit 0⟩, ⟨lit 0, lit 0, lit 1⟩⟩ : Ray Flo) = .ok (h, ⟨⟨lit 0, lit 0, lit 0⟩, ⟨lit 0, lit 0, lit 1⟩⟩) := by
  have i1 : (lit 1 : Flo).Is 1 := flo_lit_one
  have i0 : (lit 0 : Flo).Is 0 := flo_of_key CmpModel.key_zero
  have z : ∃ x, (lit 0 : Flo).Is x ∧ |x| ≤ 2 ^ 22 := ⟨0, i0, by norm_num⟩
  have o : ∃ x, (lit 1 : Flo).Is x ∧ |x| ≤ 2 ^ 22 := ⟨1, i1, by norm_num⟩
  refine C85_box_partial none _ _ (fun i => ?_) (fun i => ?_) (fun i => ?_) (fun i => ?_) ⟨2, 1, i1, by norm_num⟩
  · fin_cases i <;> exact z
  · fin_cases i <;> exact o
  · fin_cases i <;> exact z
  · fin_cases i
    exacts [⟨0, i0, by norm_num⟩, ⟨0, i0, by norm_num⟩, ⟨1, i1, by norm_num⟩]

end BR
