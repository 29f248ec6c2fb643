import Verif.Lemmas.ExtMesh
import Verif.Lemmas.MeshFile
import Verif.Props.C15_RayUnchanged
import Verif.Props.C17_CsgHits
import Verif.Props.C29_Transformed
import Verif.Props.C80_Picture

/-! Objects that are put together from parts of surfaces, in extended numbers: which part is met along a ray and what the
hit tells there. -/

namespace BR
set_option linter.unusedSectionVars false

/-- A part of a surface: where it is, and what the normal, local position and material of a hit on it must be. -/
structure Part where
  on : Vec ℝ → Prop
  tells : Vec ℝ → Vec Ext → Vec Ext → Option (Mat Ext) → Prop

/-- The part where `P` holds. -/
def Part.cut (P : Vec ℝ → Prop) (q : Part) : Part := ⟨fun p => q.on p ∧ P p, q.tells⟩

/-- Along the ray, the object shows the parts: it reports a nearest point of all of them and what is said there. Where
there is none it reports a miss or, if `ghost`, something at a distance that is not below `9e99`. -/
def ShowsParts (ghost : Prop) (o : Obj Ext (Mat Ext)) (parts : List Part) (R : Ray ℝ) : Prop :=
  ∀ r : Ray Ext, r.Is R → ∃ hit, o.intersect r = .ok (hit, r) ∧
    ((∃ T, ∃ th ∈ parts, hit.t.Is T ∧ 0 < T ∧ th.on (R.at T) ∧ th.tells (R.at T) hit.normal hit.loc hit.mat ∧
        ∀ other ∈ parts, ∀ T' > 0, other.on (R.at T') → T ≤ T') ∨
      ((∀ th ∈ parts, ∀ T > 0, ¬ th.on (R.at T)) ∧
        ((lit 0 <. hit.t) = false ∨ ghost ∧ (hit.t <. (lit (9 * 10 ^ 99) : Ext)) = false)))

theorem ShowsParts.mono {g g' : Prop} (hg : g → g') {o : Obj Ext (Mat Ext)} {things : List Part} {R : Ray ℝ}
    (h : ShowsParts g o things R) : ShowsParts g' o things R := by
  intro r hr
  obtain ⟨hit, e, h | ⟨h1, h2 | ⟨h2, h3⟩⟩⟩ := h r hr
  · exact ⟨hit, e, .inl h⟩
  · exact ⟨hit, e, .inr ⟨h1, .inl h2⟩⟩
  · exact ⟨hit, e, .inr ⟨h1, .inr ⟨hg h2, h3⟩⟩⟩

private theorem zero_is : (lit 0 : Ext).Is 0 := by simpa using Ext.Is.lit 0
private theorem big_is : (lit (9 * 10 ^ 99) : Ext).Is (9 * 10 ^ 99) := ⟨false, by rw [Ext.lit_ext]; push_cast; rfl⟩

private theorem is_unique {a : Ext} {x y : ℝ} (h : a.Is x) (h' : a.Is y) : x = y := by
  obtain ⟨s, rfl⟩ := h
  obtain ⟨s', e⟩ := h'
  injection e

private theorem pos_of {a : Ext} {x : ℝ} (h : a.Is x) (h0 : 0 < x) : (lit 0 <. a) = true := by
  rw [zero_is.lt h]; simpa using h0

/-- `q'` is the part `q` placed by the map `T` of space; normals are mapped by `t`. -/
def Part.PlacedBy (t : Affine Ext) (T : Vec ℝ → Vec ℝ) (q q' : Part) : Prop :=
  ∀ p, (q'.on (T p) ↔ q.on p) ∧ (q.on p → ∀ n loc m, q.tells p n loc m → q'.tells (T p) (t.dir n) loc m)

/-- `q'` is the part `q` with normals reversed. -/
def Part.Flipped (q q' : Part) : Prop :=
  ∀ p, (q'.on p ↔ q.on p) ∧ ∀ n loc m, q.tells p n loc m → q'.tells p (n.mul (lit (-1))) loc m

/-- `q'` is the part `q` with the material `mat`. -/
def Part.Coated (mat : Option (Mat Ext)) (q q' : Part) : Prop :=
  ∀ p, (q'.on p ↔ q.on p) ∧ ∀ n loc m, q.tells p n loc m → q'.tells p n loc mat

theorem parts_hollow (g : Prop) (o : Obj Ext (Mat Ext)) (parts : List Part) (R : Ray ℝ) (h : ShowsParts g o parts R) :
    ShowsParts g (.hollow o) parts R := by
  intro r hr
  obtain ⟨hit, e, h⟩ := h r hr
  exact ⟨hit, by rw [Obj.intersect, e], h⟩

/-- Objects whose hits differ from those of another only in normal and material. -/
private theorem parts_changed (g : Prop) (o o' : Obj Ext (Mat Ext)) (parts parts' : List Part) (R : Ray ℝ)
    (fn : Vec Ext → Vec Ext) (fm : Option (Mat Ext) → Option (Mat Ext))
    (ho : ∀ r hit, o.intersect r = .ok (hit, r) → o'.intersect r = .ok (⟨hit.t, fn hit.normal, hit.loc, fm hit.mat⟩, r))
    (hq : List.Forall₂ (fun q q' : Part => ∀ p, (q'.on p ↔ q.on p) ∧ ∀ n loc m, q.tells p n loc m → q'.tells p (fn n) loc (fm m))
      parts parts') (h : ShowsParts g o parts R) : ShowsParts g o' parts' R := by
  intro r hr
  obtain ⟨hit, e, h⟩ := h r hr
  refine ⟨_, ho r hit e, ?_⟩
  rcases h with ⟨T, th, hth, h1, h2, h3, h4, h5⟩ | ⟨h1, h2⟩
  · obtain ⟨th', hth', hpl⟩ := forall₂_left hq th hth
    refine .inl ⟨T, th', hth', h1, h2, (hpl _).1.2 h3, (hpl _).2 _ _ _ h4, ?_⟩
    intro other ho T' hT' hon
    obtain ⟨other', ho', hpl'⟩ := forall₂_right hq other ho
    exact h5 other' ho' T' hT' ((hpl' _).1.1 hon)
  · refine .inr ⟨?_, h2⟩
    intro th hth T hT hon
    obtain ⟨th', hth', hpl⟩ := forall₂_right hq th hth
    exact h1 th' hth' T hT ((hpl _).1.1 hon)

theorem parts_not (g : Prop) (o : Obj Ext (Mat Ext)) (parts parts' : List Part) (R : Ray ℝ)
    (hq : List.Forall₂ Part.Flipped parts parts') (h : ShowsParts g o parts R) : ShowsParts g (.not o) parts' R :=
  parts_changed g o _ parts parts' R (fun n => n.mul (lit (-1))) id (fun r hit e => by rw [Obj.intersect, e]; rfl) hq h

theorem parts_coated (mat : Option (Mat Ext)) (g : Prop) (o : Obj Ext (Mat Ext)) (parts parts' : List Part) (R : Ray ℝ)
    (hq : List.Forall₂ (Part.Coated mat) parts parts') (h : ShowsParts g o parts R) :
    ShowsParts g (.withMaterial mat o) parts' R :=
  parts_changed g o _ parts parts' R id (fun _ => mat) (fun r hit e => by rw [Obj.intersect, e]; rfl) hq h

/-- **Placed objects.** An object placed by an invertible affine map shows its things where the map takes them, along
rays that do not start on the new bounding box nor run in the plane of one of its faces. -/
theorem parts_placed (g : Prop) (o o' : Obj Ext (Mat Ext)) (hp : o.Plain) (t : Affine Ext) (T : Affine ℝ) (ht : t.Is T)
    (hdet : T.A.det ≠ 0) (e : o.mkTransformed t = .ok o') (things things' : List Part)
    (hth : List.Forall₂ (Part.PlacedBy t T.point) things things') (b : BBox Ext) (B : BBox ℝ) (hb : o.bounds = .ok b) (hB : b.Is B)
    (hin : ∀ th ∈ things, ∀ p, th.on p → B.Mem p) (R : Ray ℝ) (hd : R.dir ≠ ⟨0, 0, 0⟩)
    (hclear : ∀ b' B', o'.bounds = .ok b' → b'.Is B' → B'.NotInFace R ∧ ¬ B'.OnSurface R.start)
    (h : ShowsParts g o things (T.pullRay R)) : ShowsParts g o' things' R := by
  obtain ⟨bb, b', h1, h2, rfl⟩ := o.mkTransformed_ok o' hp t e
  rw [hb] at h1; cases h1
  obtain ⟨b1, B', e1, e2, hi⟩ := BBox.transform_is hB ht
  rw [e1] at h2; cases h2
  obtain ⟨B2, e3, -, himg, -⟩ := B.transform_real T
  rw [e2] at e3; cases e3
  obtain ⟨hn, hs⟩ := hclear b' B' (by rw [Obj.bounds]) hi
  -- where the things are met
  have meets : ∀ th ∈ things, ∀ th' ∈ things', Part.PlacedBy t T.point th th' → ∀ s,
      (th'.on (R.at s) ↔ th.on ((T.pullRay R).at s)) ∧ (th.on ((T.pullRay R).at s) → ∀ n loc m,
        th.tells ((T.pullRay R).at s) n loc m → th'.tells (R.at s) (t.dir n) loc m) := by
    intro th _ th' _ hpl s
    rw [C29_points T hdet R s]
    exact hpl _
  intro r hr
  have hoff := C19_off_surface b' B' hi (BBox.transform_proper e2) r R hr hd hn hs
  have hpull : (t.pullRay r).Is (T.pullRay R) := ⟨(ht.inverse hdet).point hr.1, (ht.inverse hdet).dir hr.2⟩
  cases hint : b'.intersects r with
  | false =>
    refine ⟨HitRecord.miss, by rw [Obj.intersect, hint]; rfl, .inr ⟨?_, .inl (by simp [HitRecord.miss])⟩⟩
    intro th' hth' s hs0 hon
    obtain ⟨th, hthm, hpl⟩ := forall₂_right hth th' hth'
    have : b'.intersects r = true := by
      refine hoff.2 ⟨s, hs0, ?_⟩
      rw [C29_points T hdet R s]
      exact himg _ (hin th hthm _ ((meets th hthm th' hth' hpl s).1.1 hon))
    rw [hint] at this; cases this
  | true =>
    obtain ⟨hit, eh, hc⟩ := h (t.pullRay r) hpull
    refine ⟨{ hit with normal := t.dir hit.normal }, ?_, ?_⟩
    · rw [Obj.intersect, hint]
      simp only [Bool.not_true, Bool.false_eq_true, if_false]
      change (do let (h, _) ← o.intersect (t.pullRay r); return ({ h with normal := t.dir h.normal }, r)) = _
      rw [eh]
      rfl
    · rcases hc with ⟨s, th, hthm, k1, k2, k3, k4, k5⟩ | ⟨k1, k2⟩
      · obtain ⟨th', hth', hpl⟩ := forall₂_left hth th hthm
        obtain ⟨m1, m2⟩ := meets th hthm th' hth' hpl s
        refine .inl ⟨s, th', hth', k1, k2, m1.2 k3, ?_, ?_⟩
        · exact m2 k3 _ _ _ k4
        · intro other' ho' s' hs' hon
          obtain ⟨other, ho, hpl⟩ := forall₂_right hth other' ho'
          exact k5 other ho s' hs' ((meets other ho other' ho' hpl s').1.1 hon)
      · refine .inr ⟨?_, k2⟩
        intro th' hth' s hs0 hon
        obtain ⟨th, hthm, hpl⟩ := forall₂_right hth th' hth'
        exact k1 th hthm s hs0 ((meets th hthm th' hth' hpl s).1.1 hon)

/-- The common box of the members is within every box that holds their boxes. -/
private theorem hull_within {ch : List (Obj Ext (Mat Ext))} {bb : BBox Ext} {B : BBox ℝ} (hbb : makeBoundingBox ch = .ok bb)
    (hB : bb.Is B) (bounds : Obj Ext (Mat Ext) → BBox ℝ)
    (hb : ∀ o ∈ ch, ∃ b, o.bounds = .ok b ∧ b.Is (bounds o) ∧ (bounds o).Proper) (A : BBox ℝ)
    (hA : ∀ o ∈ ch, ∀ p, (bounds o).Mem p → A.Mem p) (p : Vec ℝ) (hp : B.Mem p) : A.Mem p := by
  obtain ⟨B', hB', -, -, f1, f2, f3, f4, f5, f6⟩ := common_box_faces ch bb hbb bounds hb
  obtain rfl : B' = B := BBox.Is.unique hB' hB
  have corner : ∀ o ∈ ch, A.Mem (bounds o).min ∧ A.Mem (bounds o).max := by
    intro o ho
    obtain ⟨b, -, -, q1, q2, q3⟩ := hb o ho
    exact ⟨hA o ho _ ⟨le_rfl, q1, le_rfl, q2, le_rfl, q3⟩, hA o ho _ ⟨q1, le_rfl, q2, le_rfl, q3, le_rfl⟩⟩
  obtain ⟨p1, p2, p3, p4, p5, p6⟩ := hp
  refine ⟨?_, ?_, ?_, ?_, ?_, ?_⟩
  · obtain ⟨o, ho, e | e⟩ := f1
    · have := (corner o ho).1.1; linarith
    · have := (corner o ho).2.1; linarith
  · obtain ⟨o, ho, e | e⟩ := f2
    · have := (corner o ho).1.2.1; linarith
    · have := (corner o ho).2.2.1; linarith
  · obtain ⟨o, ho, e | e⟩ := f3
    · have := (corner o ho).1.2.2.1; linarith
    · have := (corner o ho).2.2.2.1; linarith
  · obtain ⟨o, ho, e | e⟩ := f4
    · have := (corner o ho).1.2.2.2.1; linarith
    · have := (corner o ho).2.2.2.2.1; linarith
  · obtain ⟨o, ho, e | e⟩ := f5
    · have := (corner o ho).1.2.2.2.2.1; linarith
    · have := (corner o ho).2.2.2.2.2.1; linarith
  · obtain ⟨o, ho, e | e⟩ := f6
    · have := (corner o ho).1.2.2.2.2.2; linarith
    · have := (corner o ho).2.2.2.2.2.2; linarith

/-- **Trees.** A tree shows the things of all its members, along rays that start clear of the bounding boxes of its
members. It may report a ghost (`g`) if it has at most seven members and the ray meets none of its things but meets every box
that holds the boxes of all members. Members may report ghosts, which the tree hides. -/
theorem parts_tree (St : Sorter (Obj Ext (Mat Ext))) (g : Prop) (ch l : List (Obj Ext (Mat Ext))) (o : Obj Ext (Mat Ext))
    (h : mkTree St ch = .ok (o, l)) (things : List (List Part)) (R : Ray ℝ) (hd : R.dir ≠ ⟨0, 0, 0⟩)
    (hs : List.Forall₂ (fun o ths => ShowsParts True o ths R) ch things)
    (hb : List.Forall₂ (fun o ths => ∃ b B, o.bounds = .ok b ∧ b.Is B ∧ B.Proper ∧ ∀ th ∈ ths, ∀ p, th.on p → B.Mem p)
      ch things)
    (hclear : ClearOf (fun B => ∃ o ∈ ch, ∃ b, o.bounds = .ok b ∧ b.Is B) R)
    (hfar : ∀ th ∈ things.flatten, ∀ T, th.on (R.at T) → T < 9 * 10 ^ 99)
    (hsmall : 7 < ch.length ∨ g ∨ (∃ th ∈ things.flatten, ∃ T > 0, th.on (R.at T)) ∨
      ∃ A : BBox ℝ, (∀ o ∈ ch, ∀ b B, o.bounds = .ok b → b.Is B → ∀ p, B.Mem p → A.Mem p) ∧ ∀ T > 0, ¬ A.Mem (R.at T)) :
    ShowsParts g o things.flatten R := by
  obtain ⟨⟨n, l'⟩, hn, h⟩ := bind_eq_ok.1 h
  cases h
  have hs' : ∀ {o ths}, (o, ths) ∈ ch.zip things → ShowsParts True o ths R := (List.forall₂_iff_zip.1 hs).2
  have hb' : ∀ {o ths}, (o, ths) ∈ ch.zip things → ∃ b B, o.bounds = .ok b ∧ b.Is B ∧ B.Proper ∧
      ∀ th ∈ ths, ∀ p, th.on p → B.Mem p := (List.forall₂_iff_zip.1 hb).2
  intro r hr
  obtain ⟨hit, e, hh⟩ := tree_of_surfaces St ch n l hn r R hr hd
    (fun o s => ∃ ths, (o, ths) ∈ ch.zip things ∧ s = fun p => ∃ th ∈ ths, th.on p) (by
      intro o ho
      obtain ⟨i, hi, rfl⟩ := List.getElem_of_mem ho
      have hl := hs.length_eq
      refine ⟨_, things[i]'(hl ▸ hi), ?_, rfl⟩
      exact List.mem_of_getElem? (i := i) (by simp [hi, hl ▸ hi])) (by
      rintro o ho s ⟨ths, hz, rfl⟩
      obtain ⟨hit, e, hh⟩ := hs' hz r hr
      refine ⟨hit, e, ?_⟩
      rcases hh with ⟨T, th, hth, h1, h2, h3, -, h5⟩ | ⟨h1, h2⟩
      · refine .inl ⟨T, h1, h2, ⟨th, hth, h3⟩, ?_⟩
        rintro T' hT' ⟨th', hth', hon⟩
        exact h5 th' hth' T' hT' hon
      · refine .inr ⟨?_, h2.imp id And.right⟩
        rintro T hT ⟨th, hth, hon⟩
        exact h1 th hth T hT hon) (by
      rintro o ho s ⟨ths, hz, rfl⟩
      obtain ⟨b, B, h1, h2, h3, h4⟩ := hb' hz
      refine ⟨b, B, h1, h2, h3, ?_⟩
      rintro p ⟨th, hth, hon⟩
      exact h4 th hth p hon) hclear (by
      rintro o ho s ⟨ths, hz, rfl⟩ T ⟨th, hth, hon⟩
      exact hfar th (List.mem_flatten.2 ⟨ths, (List.of_mem_zip hz).2, hth⟩) T hon)
  refine ⟨hit, e, ?_⟩
  have part : ∀ th ∈ things.flatten, ∃ o ∈ ch, ∃ ths, (o, ths) ∈ ch.zip things ∧ th ∈ ths := by
    intro th hth
    obtain ⟨ths, hths, hth⟩ := List.mem_flatten.1 hth
    obtain ⟨i, hi, rfl⟩ := List.getElem_of_mem hths
    have hl := hs.length_eq
    have hz : (ch[i]'(hl.symm ▸ hi), things[i]) ∈ ch.zip things :=
      List.mem_of_getElem? (i := i) (by simp [hi, hl.symm ▸ hi])
    exact ⟨_, (List.of_mem_zip hz).1, _, hz, hth⟩
  rcases hh with ⟨T, o, ho, s, ⟨ths, hz, rfl⟩, h1, h2, h3, h4, h5⟩ | ⟨hnone, hcase, -⟩
  · left
    obtain ⟨hit', e', hh⟩ := hs' hz r hr
    rw [h4] at e'
    cases e'
    obtain ⟨th0, hth0, hon0⟩ := h3
    rcases hh with ⟨T', th, hth, k1, k2, k3, k4, k5⟩ | ⟨k1, -⟩
    · obtain rfl := is_unique h1 k1
      refine ⟨T, th, List.mem_flatten.2 ⟨ths, (List.of_mem_zip hz).2, hth⟩, h1, h2, k3, k4, ?_⟩
      intro other ho T' hT' hon
      obtain ⟨o', ho', ths', hz', hm⟩ := part other ho
      exact h5 o' ho' _ ⟨ths', hz', rfl⟩ T' hT' ⟨other, hm, hon⟩
    · exact absurd hon0 (k1 th0 hth0 T h2)
  · have hno : ∀ th ∈ things.flatten, ∀ T > 0, ¬ th.on (R.at T) := by
      intro th hth T hT hon
      obtain ⟨o', ho', ths', hz', hm⟩ := part th hth
      exact hnone o' ho' _ ⟨ths', hz', rfl⟩ T hT ⟨th, hm, hon⟩
    refine .inr ⟨hno, ?_⟩
    rcases hcase with hc | ⟨hlen, hbox, rfl⟩
    · exact .inl hc
    · rcases hsmall with h7 | hg | ⟨th, hth, T, hT, hon⟩ | ⟨A, hA, hmiss⟩
      · omega
      · refine .inr ⟨hg, ?_⟩
        change ((lit (9 * 10 ^ 99) : Ext) <. lit (9 * 10 ^ 99)) = false
        rw [big_is.lt big_is]; simp
      · exact absurd hon (hno th hth T hT)
      · exfalso
        -- the box of the tree is not met
        classical
        obtain ⟨-, ⟨bb, hbbm, ebb⟩, -⟩ := buildTree_boxes St ch n l hn
        have hbs : ∀ o, ∃ B : BBox ℝ, o ∈ ch → ∃ b, o.bounds = .ok b ∧ b.Is B ∧ B.Proper := by
          intro o
          by_cases ho : o ∈ ch
          · obtain ⟨ths, -, b, B, h1, h2, h3, -⟩ := forall₂_left hb o ho
            exact ⟨B, fun _ => ⟨b, h1, h2, h3⟩⟩
          · exact ⟨⟨⟨0, 0, 0⟩, ⟨0, 0, 0⟩⟩, fun h => absurd h ho⟩
        choose bounds hbd using hbs
        obtain ⟨B, k1, k2, k3, k4, k5⟩ := clear_hull (ch := ch) (bounds := bounds) (R := R) (hclear.mono (by
          rintro B ⟨o, ho, rfl⟩
          obtain ⟨b, h1, h2, -⟩ := hbd o ho
          exact ⟨o, ho, b, h1, h2⟩)) (fun _ h => h) hbbm hbd
        have hni : bb.intersects r = false := by
          rw [Bool.eq_false_iff]
          intro hi
          obtain ⟨T, hT, hm⟩ := (C19_off_surface bb B k1 k2 r R hr hd k4 k5).1 hi
          refine hmiss T hT (hull_within hbbm k1 bounds hbd A ?_ _ hm)
          intro o ho p hp
          obtain ⟨b, h1, h2, -⟩ := hbd o ho
          exact hA o ho b _ h1 h2 p hp
        have := BBox.intersect_le_zero bb B k1 k2 r R hr hd k4 hni
        rw [ebb, show bb.toF = bb from rfl, this] at hbox
        cases hbox

/-! ## Solids -/

/-- Something solid: the parts of its surface, and what is within. -/
structure PartSolid where
  surface : List Part
  within : Vec ℝ → Prop

/-- Which points of the ray are within the solid. -/
noncomputable def PartSolid.along (A : PartSolid) (R : Ray ℝ) (t : ℝ) : Bool := by
  classical exact decide (A.within (R.at t))

theorem PartSolid.along_iff {A : PartSolid} {R : Ray ℝ} {t : ℝ} : A.along R t = true ↔ A.within (R.at t) := by simp [PartSolid.along]

/-- Along the ray, the object is the solid. The ray passes through the surface of the solid at every point where it meets it,
and all these are in `D`. From wherever on the ray it is asked, the object reports the first such point, with the colour
of the surface there. -/
structure SolidParts (o : Obj Ext (Mat Ext)) (A : PartSolid) (R : Ray ℝ) (D : Finset ℝ) : Prop where
  profile : o.Profile R D (A.along R)
  surface : ∀ t > 0, (∃ th ∈ A.surface, th.on (R.at t)) ↔ Crosses (A.along R) t
  paint : ∀ k ≥ 0, ∀ r : Ray Ext, r.Is ⟨R.at k, R.dir⟩ → ∀ hit r', o.intersect r = .ok (hit, r') → ∀ T, hit.t.Is T → 0 < T →
    ∃ th ∈ A.surface, th.on (R.at (k + T)) ∧ th.tells (R.at (k + T)) hit.normal hit.loc hit.mat

private theorem at_at (R : Ray ℝ) (k t : ℝ) : (⟨R.at k, R.dir⟩ : Ray ℝ).at t = R.at (k + t) := by
  simp only [Ray.at, geo]; refine ⟨?_, ?_, ?_⟩ <;> ring

private theorem at_zero (R : Ray ℝ) : (⟨R.at 0, R.dir⟩ : Ray ℝ) = R := by
  simp only [Ray.at, geo]; simp

/-- **Solids** show their surface, along rays that do not start on it. -/
theorem solid_parts (o : Obj Ext (Mat Ext)) (A : PartSolid) (R : Ray ℝ) (D : Finset ℝ) (h : SolidParts o A R D) (h0 : (0 : ℝ) ∉ D) :
    ShowsParts False o A.surface R := by
  intro r hr
  have hr0 : r.Is ⟨R.at 0, R.dir⟩ := by rw [at_zero]; exact hr
  obtain ⟨hit, e, hc⟩ := h.profile.hit 0 le_rfl h0 r hr0
  refine ⟨hit, e, ?_⟩
  rcases hc with ⟨c, ⟨⟨hc0, hcr⟩, hleast⟩, ht⟩ | ⟨hno, hmiss⟩
  · rw [sub_zero] at ht
    obtain ⟨th, hth, hon, hcol⟩ := h.paint 0 le_rfl r hr0 hit r e c ht hc0
    rw [zero_add] at hon hcol
    exact .inl ⟨c, th, hth, ht, hc0, hon, hcol, fun other ho T' hT' hon' =>
      hleast ⟨hT', (h.surface T' hT').1 ⟨other, ho, hon'⟩⟩⟩
  · exact .inr ⟨fun th hth T hT hon => hno T hT ((h.surface T hT).1 ⟨th, hth, hon⟩), .inl hmiss⟩

private theorem crosses_not (I : ℝ → Bool) (c : ℝ) : Crosses (fun t => !I t) c ↔ Crosses I c := by
  unfold Crosses
  simp only [ne_eq, Bool.not_eq_eq_eq_not, Bool.not_not]

/-- **Complements.** -/
theorem solid_parts_not (o : Obj Ext (Mat Ext)) (A A' : PartSolid) (hw : ∀ p, A'.within p ↔ ¬ A.within p)
    (hq : List.Forall₂ Part.Flipped A.surface A'.surface) (R : Ray ℝ) (D : Finset ℝ) (h : SolidParts o A R D) :
    SolidParts (.not o) A' R D := by
  have e : A'.along R = fun t => !A.along R t := by
    funext t
    rw [Bool.eq_iff_iff, PartSolid.along_iff, Bool.not_eq_true', ← Bool.not_eq_true, PartSolid.along_iff]
    exact hw _
  refine ⟨?_, ?_, ?_⟩
  · rw [e]; exact C17_not_first _ _ _ _ h.profile
  · intro t ht
    rw [e, crosses_not, ← h.surface t ht]
    constructor
    · rintro ⟨th, hth, hon⟩
      obtain ⟨th', hth', hpl⟩ := forall₂_right hq th hth
      exact ⟨th', hth', (hpl _).1.1 hon⟩
    · rintro ⟨th, hth, hon⟩
      obtain ⟨th', hth', hpl⟩ := forall₂_left hq th hth
      exact ⟨th', hth', (hpl _).1.2 hon⟩
  · intro k hk r hr hit r' hi T hT hT0
    rw [Obj.intersect] at hi
    obtain ⟨⟨hit0, r0⟩, h1, h2⟩ := bind_eq_ok.1 hi
    cases h2
    obtain ⟨th, hth, hon, hsay⟩ := h.paint k hk r hr hit0 _ h1 T hT hT0
    obtain ⟨th', hth', hpl⟩ := forall₂_left hq th hth
    exact ⟨th', hth', (hpl _).1.2 hon, (hpl _).2 _ _ _ hsay⟩

/-- **Other materials.** -/
theorem solid_parts_coated (mat : Option (Mat Ext)) (o : Obj Ext (Mat Ext)) (A A' : PartSolid) (hw : A'.within = A.within)
    (hq : List.Forall₂ (Part.Coated mat) A.surface A'.surface) (R : Ray ℝ) (D : Finset ℝ) (h : SolidParts o A R D) :
    SolidParts (.withMaterial mat o) A' R D := by
  have ea : A'.along R = A.along R := by
    unfold PartSolid.along
    rw [hw]
  refine ⟨?_, ?_, ?_⟩
  · rw [ea]
    refine ⟨h.profile.const, fun t ht hD p hp => by rw [Obj.inside]; exact h.profile.inside t ht hD p hp, fun k hk hD r hr => ?_⟩
    obtain ⟨hit, e, hc⟩ := h.profile.hit k hk hD r hr
    exact ⟨{ hit with mat := mat }, by rw [Obj.intersect, e]; rfl, hc⟩
  · intro t ht
    rw [ea, ← h.surface t ht]
    constructor
    · rintro ⟨th, hth, hon⟩
      obtain ⟨th', hth', hpl⟩ := forall₂_right hq th hth
      exact ⟨th', hth', (hpl _).1.1 hon⟩
    · rintro ⟨th, hth, hon⟩
      obtain ⟨th', hth', hpl⟩ := forall₂_left hq th hth
      exact ⟨th', hth', (hpl _).1.2 hon⟩
  · intro k hk r hr hit r' hi T hT hT0
    rw [Obj.intersect] at hi
    obtain ⟨⟨hit0, r0⟩, h1, h2⟩ := bind_eq_ok.1 hi
    cases h2
    obtain ⟨th, hth, hon, hsay⟩ := h.paint k hk r hr hit0 _ h1 T hT hT0
    obtain ⟨th', hth', hpl⟩ := forall₂_left hq th hth
    exact ⟨th', hth', (hpl _).1.2 hon, (hpl _).2 _ _ _ hsay⟩

/-- Where the surface of one operand counts. -/
private theorem surface_part {oa ob : Obj Ext (Mat Ext)} {A B : PartSolid} {R : Ray ℝ} {D D' : Finset ℝ} (ha : SolidParts oa A R D)
    (hb : SolidParts ob B R D') (hd : Disjoint D D') (want : Bool) (t : ℝ) (ht : 0 < t) :
    (∃ th ∈ A.surface.map (Part.cut fun p => B.within p ↔ want = true), th.on (R.at t)) ∨
      (∃ th ∈ B.surface.map (Part.cut fun p => A.within p ↔ want = true), th.on (R.at t)) ↔
    Crosses (fun t => both want (A.along R t) (B.along R t)) t := by
  have hA : (∃ th ∈ A.surface.map (Part.cut fun p => B.within p ↔ want = true), th.on (R.at t)) ↔
      Crosses (A.along R) t ∧ B.along R t = want := by
    rw [← ha.surface t ht, show (B.along R t = want) ↔ _ from Bool.eq_iff_iff, PartSolid.along_iff]
    constructor
    · rintro ⟨th, hth, hon⟩
      obtain ⟨th', h', rfl⟩ := List.mem_map.1 hth
      exact ⟨⟨th', h', hon.1⟩, hon.2⟩
    · rintro ⟨⟨th, hth, hon⟩, hw⟩
      exact ⟨_, List.mem_map_of_mem hth, hon, hw⟩
  have hB : (∃ th ∈ B.surface.map (Part.cut fun p => A.within p ↔ want = true), th.on (R.at t)) ↔
      Crosses (B.along R) t ∧ A.along R t = want := by
    rw [← hb.surface t ht, show (A.along R t = want) ↔ _ from Bool.eq_iff_iff, PartSolid.along_iff]
    constructor
    · rintro ⟨th, hth, hon⟩
      obtain ⟨th', h', rfl⟩ := List.mem_map.1 hth
      exact ⟨⟨th', h', hon.1⟩, hon.2⟩
    · rintro ⟨⟨th, hth, hon⟩, hw⟩
      exact ⟨_, List.mem_map_of_mem hth, hon, hw⟩
  rw [hA, hB]
  have hcomm : (fun t => both want (A.along R t) (B.along R t)) = fun t => both want (B.along R t) (A.along R t) := by
    funext t
    cases want <;> simp [both, Bool.and_comm, Bool.or_comm]
  by_cases hm : t ∈ D'
  · have hn : t ∉ D := fun h => Finset.disjoint_left.1 hd h hm
    rw [hcomm, cross_both (I := B.along R) ha.profile hn]
    constructor
    · rintro (h | h)
      · exact absurd (ha.profile.cross_mem h.1) hn
      · exact h
    · exact .inr
  · rw [cross_both (I := A.along R) hb.profile hm]
    constructor
    · rintro (h | h)
      · exact h
      · exact absurd (hb.profile.cross_mem h.1) hm
    · exact .inl

/-- The colour of a hit on a combination. -/
private theorem hitOf_paint {oa ob : Obj Ext (Mat Ext)} {A B : PartSolid} {R : Ray ℝ} {D D' : Finset ℝ} (ha : SolidParts oa A R D)
    (hb : SolidParts ob B R D') (hd : Disjoint D D') (want : Bool) {k : ℝ} (hk : 0 ≤ k) {hit : HitRecord Ext (Mat Ext)}
    (h : HitOf oa ob want ⟨R.at k, R.dir⟩ hit) {T : ℝ} (hT : hit.t.Is T) :
    ∃ th ∈ A.surface.map (Part.cut fun p => B.within p ↔ want = true), th.on (R.at (k + T)) ∧
      th.tells (R.at (k + T)) hit.normal hit.loc hit.mat := by
  obtain ⟨k1, T1, r', r'', h0, hk1, hr', e, ht0, hT1, ht, hrec, hin, hp⟩ := h
  obtain rfl := is_unique hT ht
  rw [at_at] at hr' hp
  obtain ⟨th, hth, hon, hcol⟩ := ha.paint (k + k1) (by linarith) r' hr' h0 r'' e T1 ht0 hT1
  rw [add_assoc] at hon hcol
  have hpos : 0 < k + (k1 + T1) := by linarith
  have hD : k + (k1 + T1) ∈ D := ha.profile.cross_mem ((ha.surface _ hpos).1 ⟨th, hth, hon⟩)
  have hw := hb.profile.inside _ hpos (fun h => Finset.disjoint_left.1 hd hD h) _ hp
  rw [hin] at hw
  injection hw with hw
  refine ⟨_, List.mem_map_of_mem hth, ⟨hon, ?_⟩, ?_⟩
  · dsimp only
    rw [← PartSolid.along_iff, ← hw]
  · rw [hrec]
    exact hcol

/-- What is within both solids. -/
def PartSolid.and (A B : PartSolid) : PartSolid :=
  ⟨A.surface.map (Part.cut B.within) ++ B.surface.map (Part.cut A.within), fun p => A.within p ∧ B.within p⟩

/-- What is within one of the solids. -/
def PartSolid.or (A B : PartSolid) : PartSolid :=
  ⟨A.surface.map (Part.cut fun p => ¬ B.within p) ++ B.surface.map (Part.cut fun p => ¬ A.within p),
    fun p => A.within p ∨ B.within p⟩

/-- **Intersections** of two solids whose surfaces the ray passes separately (more than the marching step apart, at most
100 times each). -/
theorem solid_parts_and (oa ob : Obj Ext (Mat Ext)) (A B : PartSolid) (R : Ray ℝ) (D D' : Finset ℝ) (ha : SolidParts oa A R D)
    (hb : SolidParts ob B R D') (hs : Separated (D ∪ D')) (hd : Disjoint D D') (hn : D.card ≤ 100) (hn' : D'.card ≤ 100) :
    SolidParts (.and oa ob) (A.and B) R (D ∪ D') := by
  have e : (A.and B).along R = fun t => both true (A.along R t) (B.along R t) := by
    funext t
    rw [Bool.eq_iff_iff, PartSolid.along_iff]
    simp only [both, if_true, Bool.and_eq_true, PartSolid.along_iff]
    rfl
  have es : ∀ A B : PartSolid, (A.surface.map (Part.cut B.within)) =
      A.surface.map (Part.cut fun p => B.within p ↔ true = true) := by
    intro A B
    simp
  refine ⟨?_, ?_, ?_⟩
  · rw [e]; exact C17_and_first_partial _ _ _ _ _ _ _ ha.profile hb.profile hs hd hn hn'
  · intro t ht
    rw [e, ← surface_part ha hb hd true t ht, ← es, ← es]
    simp only [PartSolid.and, List.mem_append, or_and_right, exists_or]
  · intro k hk r hr hit r' hi T hT hT0
    simp only [PartSolid.and, List.mem_append, or_and_right, exists_or]
    rw [es A B, es B A]
    rcases C17_and_sound _ _ _ _ hr _ _ hi (pos_of hT hT0) with h | h
    · exact .inl (hitOf_paint ha hb hd true hk h hT)
    · exact .inr (hitOf_paint hb ha hd.symm true hk h hT)

/-- **Unions** of two solids whose surfaces the ray passes separately. -/
theorem solid_parts_or (oa ob : Obj Ext (Mat Ext)) (A B : PartSolid) (R : Ray ℝ) (D D' : Finset ℝ) (ha : SolidParts oa A R D)
    (hb : SolidParts ob B R D') (hs : Separated (D ∪ D')) (hd : Disjoint D D') (hn : D.card ≤ 100) (hn' : D'.card ≤ 100) :
    SolidParts (.or oa ob) (A.or B) R (D ∪ D') := by
  have e : (A.or B).along R = fun t => both false (A.along R t) (B.along R t) := by
    funext t
    rw [Bool.eq_iff_iff, PartSolid.along_iff]
    simp only [both, Bool.false_eq_true, if_false, Bool.or_eq_true, PartSolid.along_iff]
    rfl
  have es : ∀ A B : PartSolid, (A.surface.map (Part.cut fun p => ¬ B.within p)) =
      A.surface.map (Part.cut fun p => B.within p ↔ false = true) := by
    intro A B
    simp
  refine ⟨?_, ?_, ?_⟩
  · rw [e]; exact C17_or_first_partial _ _ _ _ _ _ _ ha.profile hb.profile hs hd hn hn'
  · intro t ht
    rw [e, ← surface_part ha hb hd false t ht, ← es, ← es]
    simp only [PartSolid.or, List.mem_append, or_and_right, exists_or]
  · intro k hk r hr hit r' hi T hT hT0
    simp only [PartSolid.or, List.mem_append, or_and_right, exists_or]
    rw [es A B, es B A]
    rcases C17_or_sound _ _ _ _ hr _ _ hi (pos_of hT hT0) with h | h
    · exact .inl (hitOf_paint ha hb hd false hk h hT)
    · exact .inr (hitOf_paint hb ha hd.symm false hk h hT)

/-- **Restrictions.** `Restrict(a, b)` shows the surface of the solid `a` where it is within the solid `b`. -/
theorem restrict_parts (oa ob : Obj Ext (Mat Ext)) (A B : PartSolid) (R : Ray ℝ) (D D' : Finset ℝ) (ha : SolidParts oa A R D)
    (hb : SolidParts ob B R D') (hs : Separated D) (hd : Disjoint D D') (hn : D.card ≤ 100) (h0 : (0 : ℝ) ∉ D) :
    ShowsParts False (.restrict oa ob) (A.surface.map (Part.cut B.within)) R := by
  have es : (A.surface.map (Part.cut B.within)) = A.surface.map (Part.cut fun p => B.within p ↔ true = true) := by simp
  intro r hr
  have hr0 : r.Is ⟨R.at 0, R.dir⟩ := by rw [at_zero]; exact hr
  obtain ⟨hit, e, hc⟩ := C17_restrict_first_partial oa ob R D D' _ _ ha.profile hb.profile hs hd hn 0 le_rfl h0 r hr0
  refine ⟨hit, e, ?_⟩
  have met : ∀ T > 0, (∃ th ∈ A.surface.map (Part.cut B.within), th.on (R.at T)) →
      Crosses (A.along R) T ∧ B.along R T = true := by
    rintro T hT ⟨th, hth, hon⟩
    obtain ⟨th', h', rfl⟩ := List.mem_map.1 hth
    exact ⟨(ha.surface T hT).1 ⟨th', h', hon.1⟩, PartSolid.along_iff.2 hon.2⟩
  rcases hc with ⟨c, ⟨⟨hc0, -⟩, hleast⟩, ht⟩ | ⟨hno, hmiss⟩
  · rw [sub_zero] at ht
    obtain ⟨th, hth, hon, hcol⟩ := hitOf_paint ha hb hd true le_rfl (C17_restrict_sound _ _ _ _ hr0 _ _ e (pos_of ht hc0)) ht
    rw [zero_add] at hon hcol
    exact .inl ⟨c, th, by rw [es]; exact hth, ht, hc0, hon, hcol, fun other ho T' hT' hon' =>
      hleast ⟨hT', met T' hT' ⟨other, ho, hon'⟩⟩⟩
  · refine .inr ⟨fun th hth T hT hon => ?_, .inl hmiss⟩
    obtain ⟨m1, m2⟩ := met T hT ⟨th, hth, hon⟩
    rw [hno T hT m1] at m2
    cases m2

/-- Solids that the ray passes through once. -/
private theorem SolidParts.of_interval {o : Obj Ext (Mat Ext)} {A : PartSolid} {R : Ray ℝ} {e x : ℝ} (hex : e < x)
    (hp : o.Profile R {e, x} (within e x)) (hin : ∀ t, A.within (R.at t) ↔ e < t ∧ t < x)
    (hon : ∀ t, (∃ th ∈ A.surface, th.on (R.at t)) ↔ t = e ∨ t = x)
    (paint : ∀ k ≥ 0, ∀ r : Ray Ext, r.Is ⟨R.at k, R.dir⟩ → ∀ hit r', o.intersect r = .ok (hit, r') → ∀ T, hit.t.Is T →
      0 < T → ∃ th ∈ A.surface, th.on (R.at (k + T)) ∧ th.tells (R.at (k + T)) hit.normal hit.loc hit.mat) :
    SolidParts o A R {e, x} := by
  have ea : A.along R = within e x := by
    funext t
    rw [Bool.eq_iff_iff, PartSolid.along_iff, hin]
    simp [within]
  exact ⟨by rw [ea]; exact hp, fun t _ => by rw [ea, hon, crosses_within hex], paint⟩

/-- Solids that the ray does not meet. -/
private theorem SolidParts.of_missed {o : Obj Ext (Mat Ext)} {A : PartSolid} {R : Ray ℝ} (hin : ∀ t, ¬ A.within (R.at t))
    (hon : ∀ t, ∀ th ∈ A.surface, ¬ th.on (R.at t))
    (hout : ∀ t > 0, ∀ p : Vec Ext, p.Is (R.at t) → o.inside p = .ok false)
    (hmiss : ∀ k ≥ 0, ∀ r : Ray Ext, r.Is ⟨R.at k, R.dir⟩ → ∃ hit, o.intersect r = .ok (hit, r) ∧ (lit 0 <. hit.t) = false) :
    SolidParts o A R ∅ := by
  have ea : A.along R = fun _ => false := by
    funext t
    rw [Bool.eq_iff_iff, PartSolid.along_iff]
    simpa using hin t
  have nc : ∀ c, ¬ Crosses (fun _ => false) c := by
    rintro c ⟨ε, he, h⟩
    exact h (ε / 2) (by positivity) (by linarith) rfl
  refine ⟨?_, ?_, ?_⟩
  · rw [ea]
    refine ⟨fun _ _ _ _ => rfl, fun t ht _ p hp => hout t ht p hp, fun k hk _ r hr => ?_⟩
    obtain ⟨hit, e, h⟩ := hmiss k hk r hr
    exact ⟨hit, e, .inr ⟨fun c _ => nc c, h⟩⟩
  · intro t _
    rw [ea]
    exact ⟨fun ⟨th, hth, h⟩ => absurd h (hon t th hth), fun h => absurd h (nc t)⟩
  · intro k hk r hr hit r' e T hT hT0
    obtain ⟨hit', e', h⟩ := hmiss k hk r hr
    rw [e] at e'
    cases e'
    rw [pos_of hT hT0] at h
    cases h

/-- **Boxes**, along every ray that does not start on the surface nor run in the plane of a face. -/
theorem parts_box (mat : Option (Mat Ext)) (b : BBox Ext) (B : BBox ℝ) (hb : b.Is B) (hB : B.Proper) (parts : List Part)
    (hparts : ∀ p, (∃ q ∈ parts, q.on p) ↔ B.OnSurface p)
    (htell : ∀ p n N loc, B.OnSurface p → n.Is N → B.FaceNormal p N → loc.Is (p.sub B.min) →
      ∃ q ∈ parts, q.on p ∧ q.tells p n loc mat)
    (R : Ray ℝ) (hd : R.dir ≠ ⟨0, 0, 0⟩) (hn : B.NotInFace R) (hs : ¬ B.OnSurface R.start) :
    ShowsParts False (.box b mat) parts R := by
  intro r hr
  obtain ⟨hit, e, hmiss, hhit⟩ := C19_box_object b B hb hB r R hr hd hn mat
  refine ⟨hit, by rw [Obj.intersect, e]; rfl, ?_⟩
  have hoff := C19_off_surface b B hb hB r R hr hd hn hs
  cases hi : b.intersects r with
  | false =>
    right
    refine ⟨?_, .inl (by rw [hmiss hi]; simp [HitRecord.miss])⟩
    intro th hth T hT hon
    replace hon := (hparts _).1 ⟨th, hth, hon⟩
    have := hoff.2 ⟨T, hT, hon.1⟩
    rw [hi] at this; cases this
  | true =>
    left
    obtain ⟨T, N, hT, hT0, hon, hN, hf, hmat, hloc⟩ := hhit hi
    obtain ⟨T1, hT1, hT10, -, hout, hin⟩ := C19_distance b B hb hB r R hr hd hn hi
    have et : hit.t = b.intersect r := by
      unfold BBox.hit at e
      dsimp only at e
      rw [show (b.intersect r >. lit 0) = b.intersects r from rfl, hi] at e
      simp only [Bool.not_true, Bool.false_eq_true, if_false] at e
      obtain ⟨n, -, e⟩ := bind_eq_ok.1 e
      cases e
      rfl
    obtain rfl : T1 = T := is_unique hT1 (et ▸ hT)
    obtain ⟨q, hq, hqon, hqt⟩ := htell _ _ _ _ hon hN hf hloc
    refine ⟨T1, q, hq, hT, hT0, hqon, by rw [hmat]; exact hqt, ?_⟩
    intro other ho T' hT' hon'
    replace hon' := (hparts _).1 ⟨other, ho, hon'⟩
    by_cases hst : B.Mem R.start
    · by_contra hlt
      rw [not_le] at hlt
      have hnf : ¬ B.OnFacePlane R.start := fun h => hs ⟨hst, h⟩
      unfold BBox.OnFacePlane at hnf
      push Not at hnf
      obtain ⟨n1, n2, n3, n4, n5, n6⟩ := hnf
      obtain ⟨a1, a2, a3, a4, a5, a6⟩ := hst
      obtain ⟨m1, m2, m3, m4, m5, m6⟩ := hon.1
      obtain ⟨-, hf⟩ := hon'
      simp only [BBox.OnFacePlane, Ray.at, Vec.madd] at hf m1 m2 m3 m4 m5 m6
      -- strictly inside at the start, so strictly inside before the end
      have lo : ∀ {x d m : ℝ}, m ≤ x → x ≠ m → m ≤ x + T1 * d → x + T' * d ≠ m := by
        intro x d m h1 h2 h3 h4
        have h1' : m < x := lt_of_le_of_ne h1 (Ne.symm h2)
        nlinarith
      have hi : ∀ {x d m : ℝ}, x ≤ m → x ≠ m → x + T1 * d ≤ m → x + T' * d ≠ m := by
        intro x d m h1 h2 h3 h4
        have h1' : x < m := lt_of_le_of_ne h1 h2
        nlinarith
      rcases hf with hf | hf | hf | hf | hf | hf
      · exact lo a1 n1 m1 hf
      · exact hi a2 n2 m2 hf
      · exact lo a3 n3 m3 hf
      · exact hi a4 n4 m4 hf
      · exact lo a5 n5 m5 hf
      · exact hi a6 n6 m6 hf
    · by_contra hlt
      exact hout hst T' hT'.le (not_le.1 hlt) hon'.1

/-- What a sphere reports along a ray. -/
theorem sphere_reports (mat : Option (Mat Ext)) (d : Ext) (D : ℝ) (hd : d.Is D) (hD : 0 ≤ D) (c : Vec Ext) (C : Vec ℝ)
    (hc : c.Is C) (R : Ray ℝ) (hR : R.dir ≠ ⟨0, 0, 0⟩) (r : Ray Ext) (hr : r.Is R) :
    ∃ hit, (Obj.sphere mat d c).intersect r = .ok (hit, r) ∧ ReportsFirst (fun p => AtDistance p C (D / 2)) R False hit ∧
      ∀ T, hit.t.Is T → 0 < T → hit.normal.Is ((R.at T).sub C) ∧ hit.loc.Is ((R.at T).sub C) ∧ hit.mat = mat := by
  have hlead : (Obj.sphereQ mat D C).lead R.dir ≠ 0 := by
    have := dot_self_pos hR
    simp only [Quadric.lead, Obj.sphereQ, lit_real]
    simp only [Vec.dot] at this
    push_cast
    nlinarith
  have hQ : (Obj.sphereQ mat d c).Is (Obj.sphereQ mat D C) := by
    have two : (lit 2 : Ext).Is (lit 2 : ℝ) := Ext.Is.lit 2
    have r := hd.div two (by norm_num)
    have one : (lit 1 : Ext).Is (lit 1 : ℝ) := Ext.Is.lit 1
    have t : (tiny : Ext).Is tiny := Ext.Is.lit _
    exact ⟨hc, ⟨one, one, one⟩, r.mul r, ⟨(Vec.Is.add ⟨r.neg, r.neg, r.neg⟩ hc).add ⟨t.neg, t.neg, t.neg⟩,
      (Vec.Is.add ⟨r, r, r⟩ hc).add ⟨t, t, t⟩⟩, rfl⟩
  have miss0 : (HitRecord.miss : HitRecord Ext (Mat Ext)).t.Is 0 := zero_is
  have one : (lit 1 : Ext).Is 1 := by simpa using Ext.Is.lit 1
  refine ⟨(Obj.sphereQ mat d c).hit r, by rfl, ?_⟩
  have hspec := C25_sphere mat D C hD R (by simpa [Vec.zero] using hR)
  rcases quadric_follows hQ hr hlead with ⟨e, E⟩ | ⟨t, T, ht, e, E⟩
  · rw [e]
    refine ⟨.inr ⟨?_, .inl (by rw [zero_is.lt miss0]; simp)⟩, ?_⟩
    · rcases hspec with ⟨t, ht, et⟩ | ⟨hno, -⟩
      · exfalso
        rw [E] at et
        have h0 := ht.1.1
        have := congrArg HitRecord.t et
        simp only [HitRecord.miss, lit_real, Rat.cast_zero] at this
        linarith
      · exact fun T hT => hno T hT
    · intro T hT hT0
      have := is_unique hT miss0
      linarith
  · rw [e]
    have at_is := hr.at ht
    refine ⟨?_, ?_⟩
    · rcases hspec with ⟨t', ht', et'⟩ | ⟨hno, et'⟩
      · have hT : T = t' := by rw [E] at et'; exact congrArg HitRecord.t et'
        subst hT
        exact .inl ⟨T, ht, ht'.1.1, ht'.1.2, fun T' hT' hon => ht'.2 T' hT' hon⟩
      · have hT : T = 0 := by
          rw [E] at et'
          have := congrArg HitRecord.t et'
          simpa [Quadric.record, HitRecord.miss] using this
        refine .inr ⟨fun T hT => hno T hT, .inl ?_⟩
        show (lit 0 <. t) = false
        rw [zero_is.lt ht, hT]
        simp
    · intro T' hT' hT0
      obtain rfl : T' = T := is_unique hT' ht
      have hsub := at_is.sub hc
      exact ⟨Vec.Is.of_eq (x := ⟨_, _, _⟩) ⟨one.mul hsub.1, one.mul hsub.2.1, one.mul hsub.2.2⟩ (by simp), hsub, rfl⟩

/-- **Spheres.** -/
theorem parts_sphere (mat : Option (Mat Ext)) (d : Ext) (D : ℝ) (hd : d.Is D) (hD : 0 ≤ D) (c : Vec Ext) (C : Vec ℝ)
    (hc : c.Is C) (q : Part) (hon : ∀ p, q.on p ↔ AtDistance p C (D / 2))
    (htell : ∀ P n loc, AtDistance P C (D / 2) → n.Is (P.sub C) → loc.Is (P.sub C) → q.tells P n loc mat) (R : Ray ℝ)
    (hR : R.dir ≠ ⟨0, 0, 0⟩) : ShowsParts False (Obj.sphere mat d c) [q] R := by
  intro r hr
  obtain ⟨hit, e, h, hsay⟩ := sphere_reports mat d D hd hD c C hc R hR r hr
  refine ⟨hit, e, ?_⟩
  rcases h with ⟨T, h1, h2, h3, h4⟩ | ⟨h1, h2 | ⟨h2, -⟩⟩
  · obtain ⟨s1, s2, s3⟩ := hsay T h1 h2
    refine .inl ⟨T, q, List.mem_singleton.2 rfl, h1, h2, (hon _).2 h3, by rw [s3]; exact htell _ _ _ h3 s1 s2, ?_⟩
    intro other ho T' hT' h
    rw [List.mem_singleton.1 ho, hon] at h
    exact h4 T' hT' h
  · refine .inr ⟨fun th hth T hT h => ?_, .inl h2⟩
    rw [List.mem_singleton.1 hth, hon] at h
    exact h1 T hT h
  · exact h2.elim

/-- **Balls** that the line of the ray passes through or misses, but does not just touch. -/
theorem solid_parts_ball (mat : Option (Mat Ext)) (d : Ext) (D : ℝ) (hd : d.Is D) (hD : 0 ≤ D) (c : Vec Ext) (C : Vec ℝ)
    (hc : c.Is C) (A : PartSolid) (q : Part) (hA : A.surface = [q]) (hon : ∀ p, q.on p ↔ AtDistance p C (D / 2))
    (hin : ∀ p, A.within p ↔ (p.x - C.x) ^ 2 + (p.y - C.y) ^ 2 + (p.z - C.z) ^ 2 < (D / 2) ^ 2)
    (htell : ∀ P n loc, AtDistance P C (D / 2) → n.Is (P.sub C) → loc.Is (P.sub C) → q.tells P n loc mat)
    (R : Ray ℝ) (hR : R.dir ≠ ⟨0, 0, 0⟩) (X : Finset ℝ)
    (hX : (∃ e x, e < x ∧ AtDistance (R.at e) C (D / 2) ∧ AtDistance (R.at x) C (D / 2) ∧ X = {e, x}) ∨
      ((∀ t, ¬ AtDistance (R.at t) C (D / 2)) ∧ X = ∅)) :
    SolidParts (Obj.sphere mat d c) A R X := by
  obtain ⟨a, ha⟩ : ∃ a, a = R.dir.x ^ 2 + R.dir.y ^ 2 + R.dir.z ^ 2 := ⟨_, rfl⟩
  have ha0 : 0 < a := by
    have := dot_self_pos hR
    simp only [Vec.dot] at this
    rw [ha]
    nlinarith
  obtain ⟨b, hb⟩ : ∃ b, b = R.dir.x * (R.start.x - C.x) + R.dir.y * (R.start.y - C.y) + R.dir.z * (R.start.z - C.z) :=
    ⟨_, rfl⟩
  have hq : ∀ t, d2 (R.at t) C - (D / 2) ^ 2 = a * t ^ 2 + 2 * b * t + (d2 R.start C - (D / 2) ^ 2) := by
    intro t
    rw [ha, hb]
    simp only [d2, Ray.at, Vec.madd]
    ring
  have at_iff : ∀ t, AtDistance (R.at t) C (D / 2) ↔ d2 (R.at t) C - (D / 2) ^ 2 = 0 := fun t =>
    ⟨fun h => sub_eq_zero.2 h.1, fun h => ⟨sub_eq_zero.1 h, by linarith⟩⟩
  have in_iff : ∀ t, A.within (R.at t) ↔ d2 (R.at t) C - (D / 2) ^ 2 < 0 := fun t => (hin _).trans sub_neg.symm
  have shows := fun k => sphere_reports mat d D hd hD c C hc ⟨R.at k, R.dir⟩ hR
  rcases hX with ⟨e, x, hex, he, hx, rfl⟩ | ⟨hno, rfl⟩
  · have e1 := hq e
    have e2 := hq x
    rw [(at_iff e).1 he] at e1
    rw [(at_iff x).1 hx] at e2
    have hB : 2 * b = -a * (e + x) := by
      have : (x - e) * (a * (e + x) + 2 * b) = 0 := by linear_combination e1 - e2
      rcases mul_eq_zero.1 this with h | h <;> linarith
    have hQ : ∀ t, d2 (R.at t) C - (D / 2) ^ 2 = a * ((t - e) * (t - x)) := by
      intro t
      rw [hq t]
      linear_combination (t - e) * hB - e1
    refine .of_interval hex (C17_sphere_profile _ d D hd hD c C hc R hR e x hex he hx) (fun t => ?_) (fun t => ?_) ?_
    · rw [in_iff, hQ]
      constructor
      · intro h
        have h1 : (t - e) * (t - x) < 0 := by
          by_contra hn
          exact absurd h (not_lt.2 (mul_nonneg ha0.le (not_lt.1 hn)))
        rcases mul_neg_iff.1 h1 with g | g
        · constructor <;> linarith [g.1, g.2]
        · linarith [g.1, g.2]
      · rintro ⟨h1, h2⟩
        exact mul_neg_of_pos_of_neg ha0 (mul_neg_of_pos_of_neg (by linarith) (by linarith))
    · simp only [hA, List.mem_singleton, exists_eq_left]
      rw [hon, at_iff, hQ, mul_eq_zero, mul_eq_zero, sub_eq_zero, sub_eq_zero]
      constructor
      · rintro (h | h)
        · exact absurd h ha0.ne'
        · exact h
      · exact .inr
    · intro k _ r hr hit r' hi T hT hT0
      obtain ⟨hit', e', hrep, hsay⟩ := shows k r hr
      rw [hi] at e'
      cases e'
      rcases hrep with ⟨T1, h1, -, hon1, -⟩ | ⟨-, h | h⟩
      · obtain rfl := is_unique hT h1
        obtain ⟨s1, s2, s3⟩ := hsay T hT hT0
        rw [at_at] at hon1 s1 s2
        refine ⟨q, by rw [hA]; simp, (hon _).2 hon1, ?_⟩
        rw [s3]
        exact htell _ _ _ hon1 s1 s2
      · rw [pos_of hT hT0] at h; cases h
      · exact h.1.elim
  · have hpos : ∀ t, ¬ d2 (R.at t) C - (D / 2) ^ 2 < 0 := by
      intro t ht
      rw [hq] at ht
      obtain ⟨k, hk⟩ : ∃ k, k = d2 R.start C - (D / 2) ^ 2 := ⟨_, rfl⟩
      rw [← hk] at ht
      have hdisc : 0 ≤ b ^ 2 - a * k := by nlinarith [sq_nonneg (a * t + b)]
      refine hno ((-b + Real.sqrt (b ^ 2 - a * k)) / a) ((at_iff _).2 ?_)
      rw [hq, ← hk]
      have hs := Real.sq_sqrt hdisc
      field_simp
      nlinarith
    refine .of_missed (fun t h => hpos t ((in_iff t).1 h)) ?_ ?_ ?_
    · intro t th hth hont
      rw [hA, List.mem_singleton] at hth
      rw [hth, hon] at hont
      exact hno t hont
    · intro t _ p hp
      rw [sphere_inside _ hd hD hc hp]
      congr 1
      rw [decide_eq_false_iff_not]
      intro h
      exact hpos t (sub_neg.2 h)
    · intro k _ r hr
      obtain ⟨hit, e, hrep, -⟩ := shows k r hr
      refine ⟨hit, e, ?_⟩
      rcases hrep with ⟨T1, -, -, hon1, -⟩ | ⟨-, h | h⟩
      · rw [at_at] at hon1
        exact absurd hon1 (hno _)
      · exact h
      · exact h.1.elim

/-- The line of a ray and a box. -/
private theorem block_line {B : BBox ℝ} {R : Ray ℝ} (hn : B.NotInFace R) {e x : ℝ} (hex : e < x)
    (hm : ∀ t, B.Mem (R.at t) ↔ e ≤ t ∧ t ≤ x) (A : PartSolid) (hin : ∀ p, A.within p ↔ (B.min.x < p.x ∧ p.x < B.max.x) ∧ (B.min.y < p.y ∧ p.y < B.max.y) ∧ B.min.z < p.z ∧ p.z < B.max.z) (t : ℝ) :
    (A.within (R.at t) ↔ e < t ∧ t < x) ∧ (B.OnSurface (R.at t) ↔ t = e ∨ t = x) := by
  have he := (hm e).2 ⟨le_rfl, hex.le⟩
  have hx := (hm x).2 ⟨hex.le, le_rfl⟩
  have hstrict : ∀ t, e < t → t < x → A.within (R.at t) := by
    intro t h1 h2
    obtain ⟨a1, a2, a3, a4, a5, a6⟩ := he
    obtain ⟨b1, b2, b3, b4, b5, b6⟩ := hx
    simp only [Ray.at, Vec.madd] at a1 a2 a3 a4 a5 a6 b1 b2 b3 b4 b5 b6
    rw [mul_comm] at a1 a2 a3 a4 a5 a6 b1 b2 b3 b4 b5 b6
    rw [hin]
    simp only [Ray.at, Vec.madd, mul_comm t]
    exact ⟨strict_coord hn.1 ⟨a1, a2⟩ ⟨b1, b2⟩ h1 h2, strict_coord hn.2.1 ⟨a3, a4⟩ ⟨b3, b4⟩ h1 h2,
      strict_coord hn.2.2 ⟨a5, a6⟩ ⟨b5, b6⟩ h1 h2⟩
  have hmem : ∀ t, A.within (R.at t) → B.Mem (R.at t) := by
    intro t h
    obtain ⟨⟨c1, c2⟩, ⟨c3, c4⟩, c5, c6⟩ := (hin _).1 h
    exact ⟨c1.le, c2.le, c3.le, c4.le, c5.le, c6.le⟩
  have hopen : IsOpen {t | A.within (R.at t)} := by
    simp only [hin]
    have lo : ∀ m s d : ℝ, IsOpen {t : ℝ | m < s + t * d} := fun m s d => isOpen_lt (by fun_prop) (by fun_prop)
    have hi : ∀ m s d : ℝ, IsOpen {t : ℝ | s + t * d < m} := fun m s d => isOpen_lt (by fun_prop) (by fun_prop)
    exact ((lo _ _ _).inter (hi _ _ _)).inter (((lo _ _ _).inter (hi _ _ _)).inter ((lo _ _ _).inter (hi _ _ _)))
  have hend : ∀ t, A.within (R.at t) → e < t ∧ t < x := by
    intro t ht
    obtain ⟨ε, h0, hb⟩ := Metric.isOpen_iff.1 hopen t ht
    have near : ∀ δ, |δ| < ε → e ≤ t + δ ∧ t + δ ≤ x := by
      intro δ hδ
      refine (hm _).1 (hmem _ (hb (a := t + δ) ?_))
      rw [Metric.mem_ball, Real.dist_eq, add_sub_cancel_left]
      exact hδ
    have h1 := near (-(ε / 2)) (by rw [abs_neg, abs_of_pos (by positivity)]; linarith)
    have h2 := near (ε / 2) (by rw [abs_of_pos (by positivity)]; linarith)
    exact ⟨by linarith [h1.1], by linarith [h2.2]⟩
  refine ⟨⟨hend t, fun h => hstrict t h.1 h.2⟩, ?_, ?_⟩
  · rintro ⟨h1, h2⟩
    have h3 := (hm t).1 h1
    by_contra hne
    push Not at hne
    obtain ⟨⟨c1, c2⟩, ⟨c3, c4⟩, c5, c6⟩ := (hin _).1 (hstrict t (lt_of_le_of_ne h3.1 (Ne.symm hne.1)) (lt_of_le_of_ne h3.2 hne.2))
    rcases h2 with h2 | h2 | h2 | h2 | h2 | h2 <;> linarith
  · have key : ∀ t, B.Mem (R.at t) → ¬ (e < t ∧ t < x) → B.OnSurface (R.at t) := by
      intro t h1 h2
      refine ⟨h1, ?_⟩
      by_contra hf
      unfold BBox.OnFacePlane at hf
      push Not at hf
      obtain ⟨n1, n2, n3, n4, n5, n6⟩ := hf
      obtain ⟨m1, m2, m3, m4, m5, m6⟩ := h1
      exact h2 (hend t ((hin _).2 ⟨⟨lt_of_le_of_ne m1 n1.symm, lt_of_le_of_ne m2 n2⟩, ⟨lt_of_le_of_ne m3 n3.symm, lt_of_le_of_ne m4 n4⟩,
        lt_of_le_of_ne m5 n5.symm, lt_of_le_of_ne m6 n6⟩))
    rintro (rfl | rfl)
    · exact key _ he (by simp)
    · exact key _ hx (by simp)

/-- **Blocks** that the line of the ray passes through or misses, but does not just touch, nor run in the plane of a
face. -/
theorem solid_parts_block (mat : Option (Mat Ext)) (b : BBox Ext) (B : BBox ℝ) (hb : b.Is B) (hB : B.Proper) (A : PartSolid)
    (hon : ∀ p, (∃ q ∈ A.surface, q.on p) ↔ B.OnSurface p)
    (hin : ∀ p, A.within p ↔ (B.min.x < p.x ∧ p.x < B.max.x) ∧ (B.min.y < p.y ∧ p.y < B.max.y) ∧ B.min.z < p.z ∧ p.z < B.max.z)
    (R : Ray ℝ) (hd : R.dir ≠ ⟨0, 0, 0⟩) (hn : B.NotInFace R) (X : Finset ℝ)
    (htell : ∀ p n N loc, B.OnSurface p → n.Is N → B.FaceNormal p N → loc.Is (p.sub B.min) →
      ∃ q ∈ A.surface, q.on p ∧ q.tells p n loc mat)
    (hX : (∃ e x, e < x ∧ (∀ t, B.Mem (R.at t) ↔ e ≤ t ∧ t ≤ x) ∧ X = {e, x}) ∨ ((∀ t, ¬ B.Mem (R.at t)) ∧ X = ∅)) :
    SolidParts (.box b mat) A R X := by
  have hnk : ∀ k, B.NotInFace ⟨R.at k, R.dir⟩ := by
    intro k
    obtain ⟨n1, n2, n3⟩ := hn
    refine ⟨fun h => ?_, fun h => ?_, fun h => ?_⟩
    · have := n1 h; simpa [Ray.at, Vec.madd, show R.dir.x = 0 from h] using this
    · have := n2 h; simpa [Ray.at, Vec.madd, show R.dir.y = 0 from h] using this
    · have := n3 h; simpa [Ray.at, Vec.madd, show R.dir.z = 0 from h] using this
  rcases hX with ⟨e, x, hex, hm, rfl⟩ | ⟨hno, rfl⟩
  · refine .of_interval hex (C17_box_profile b B hb hB _ R hd hn e x hex hm) (fun t => (block_line hn hex hm A hin t).1)
      (fun t => ?_) ?_
    · rw [hon]
      exact (block_line hn hex hm A hin t).2
    · intro k _ r hr hit r' hi T hT hT0
      obtain ⟨hit', e', hmiss, hhit⟩ := C19_box_object b B hb hB r _ hr hd (hnk k) mat
      rw [Obj.intersect, e'] at hi
      cases hi
      cases hint : b.intersects r with
      | false =>
        have := pos_of hT hT0
        rw [hmiss hint] at this
        simp [HitRecord.miss] at this
      | true =>
        obtain ⟨T1, N, h1, -, hon1, hN, hf, hmat, hloc⟩ := hhit hint
        obtain rfl := is_unique hT h1
        rw [at_at] at hon1 hf hloc
        rw [hmat]
        exact htell _ _ _ _ hon1 hN hf hloc
  · have hmem : ∀ p, A.within p → B.Mem p := by
      intro p h
      obtain ⟨⟨c1, c2⟩, ⟨c3, c4⟩, c5, c6⟩ := (hin _).1 h
      exact ⟨c1.le, c2.le, c3.le, c4.le, c5.le, c6.le⟩
    refine .of_missed (fun t h => hno t (hmem _ h)) ?_ ?_ ?_
    · intro t th hth hont
      exact hno t ((hon _).1 ⟨th, hth, hont⟩).1
    · intro t _ p hp
      rw [Obj.inside]
      congr 1
      rw [Bool.eq_false_iff]
      intro h
      unfold BBox.inside at h
      rw [hb.1.1.lt hp.1, hp.1.lt hb.2.1, hb.1.2.1.lt hp.2.1, hp.2.1.lt hb.2.2.1, hb.1.2.2.lt hp.2.2, hp.2.2.lt hb.2.2.2] at h
      simp only [Bool.and_eq_true, decide_eq_true_eq] at h
      obtain ⟨⟨⟨⟨⟨c1, c2⟩, c3⟩, c4⟩, c5⟩, c6⟩ := h
      exact hno t ⟨c1.le, c2.le, c3.le, c4.le, c5.le, c6.le⟩
    · intro k _ r hr
      obtain ⟨hit, e, hmiss, -⟩ := C19_box_object b B hb hB r _ hr hd (hnk k) mat
      refine ⟨hit, by rw [Obj.intersect, e]; rfl, ?_⟩
      rw [hmiss ?_]
      · simp [HitRecord.miss]
      · rw [Bool.eq_false_iff]
        intro h
        obtain ⟨⟨t, -, h⟩, -⟩ := (C19_test_partial b B hb hB r _ hr hd (hnk k)).1 h
        rw [at_at] at h
        exact hno _ h

/-- **Placed solids.** A solid placed by an invertible affine map is the placed solid, along rays that do not run in the
plane of a face of the new bounding box; `E` are the points where they pass the surface of that box. -/
theorem solid_parts_placed (o o' : Obj Ext (Mat Ext)) (hp : o.Plain) (t : Affine Ext) (T : Affine ℝ) (ht : t.Is T)
    (hdet : T.A.det ≠ 0) (e : o.mkTransformed t = .ok o') (A A' : PartSolid) (hw : ∀ p, A'.within (T.point p) ↔ A.within p)
    (hA : List.Forall₂ (Part.PlacedBy t T.point) A.surface A'.surface) (b : BBox Ext)
    (B : BBox ℝ) (hb : o.bounds = .ok b) (hB : b.Is B) (hin : ∀ th ∈ A.surface, ∀ p, th.on p → B.Mem p) (R : Ray ℝ)
    (hd : R.dir ≠ ⟨0, 0, 0⟩) (D E : Finset ℝ)
    (hclear : ∀ b' B', o'.bounds = .ok b' → b'.Is B' → B'.NotInFace R ∧ ∀ k ≥ 0, B'.OnSurface (R.at k) → k ∈ E)
    (h : SolidParts o A (T.pullRay R) D) : SolidParts o' A' R (D ∪ E) := by
  obtain ⟨bb, b', h1, h2, rfl⟩ := o.mkTransformed_ok o' hp t e
  rw [hb] at h1; cases h1
  obtain ⟨b1, B', e1, e2, hi⟩ := BBox.transform_is hB ht
  rw [e1] at h2; cases h2
  obtain ⟨B2, e3, -, himg, -⟩ := B.transform_real T
  rw [e2] at e3; cases e3
  obtain ⟨hn, hs⟩ := hclear b' B' (by rw [Obj.bounds]) hi
  have hnk : ∀ k, B'.NotInFace ⟨R.at k, R.dir⟩ := by
    intro k
    obtain ⟨n1, n2, n3⟩ := hn
    refine ⟨fun h => ?_, fun h => ?_, fun h => ?_⟩
    · have := n1 h; simpa [Ray.at, Vec.madd, show R.dir.x = 0 from h] using this
    · have := n2 h; simpa [Ray.at, Vec.madd, show R.dir.y = 0 from h] using this
    · have := n3 h; simpa [Ray.at, Vec.madd, show R.dir.z = 0 from h] using this
  have hpk : ∀ k, T.pullRay ⟨R.at k, R.dir⟩ = ⟨(T.pullRay R).at k, (T.pullRay R).dir⟩ := by
    intro k
    unfold Affine.pullRay
    congr 1
    simp only [Ray.at, geo]
    refine ⟨?_, ?_, ?_⟩ <;> ring
  have hpull : ∀ (k : ℝ) (r : Ray Ext), r.Is ⟨R.at k, R.dir⟩ → (t.pullRay r).Is ⟨(T.pullRay R).at k, (T.pullRay R).dir⟩ := by
    intro k r hr
    rw [← hpk]
    exact ⟨(ht.inverse hdet).point hr.1, (ht.inverse hdet).dir hr.2⟩
  have ea : A'.along R = A.along (T.pullRay R) := by
    funext s
    rw [Bool.eq_iff_iff, PartSolid.along_iff, PartSolid.along_iff, C29_points T hdet R s]
    exact hw _
  have meets : ∀ th th', Part.PlacedBy t T.point th th' → ∀ s, (th'.on (R.at s) ↔ th.on ((T.pullRay R).at s)) ∧
      (th.on ((T.pullRay R).at s) → ∀ n loc m, th.tells ((T.pullRay R).at s) n loc m → th'.tells (R.at s) (t.dir n) loc m) := by
    intro th th' hpl s
    rw [C29_points T hdet R s]
    exact hpl _
  have hon : ∀ s, (∃ th ∈ A'.surface, th.on (R.at s)) ↔ ∃ th ∈ A.surface, th.on ((T.pullRay R).at s) := by
    intro s
    constructor
    · rintro ⟨th', hth', hon⟩
      obtain ⟨th, hth, hpl⟩ := forall₂_right hA th' hth'
      exact ⟨th, hth, (meets th th' hpl s).1.1 hon⟩
    · rintro ⟨th, hth, hon⟩
      obtain ⟨th', hth', hpl⟩ := forall₂_left hA th hth
      exact ⟨th', hth', (meets th th' hpl s).1.2 hon⟩
  have hsame : ∀ r, b'.intersects r = true → ∀ hit r0, o.intersect (t.pullRay r) = .ok (hit, r0) →
      (Obj.transformed b' t t.inverse o).intersect r = .ok ({ hit with normal := t.dir hit.normal }, r) := by
    intro r hint hit r0 eh
    rw [Obj.intersect, hint]
    simp only [Bool.not_true, Bool.false_eq_true, if_false]
    change (do let (h, _) ← o.intersect (t.pullRay r); return ({ h with normal := t.dir h.normal }, r)) = _
    rw [eh]
    rfl
  refine ⟨?_, fun s hs0 => by rw [ea, hon]; exact h.surface s hs0, ?_⟩
  · rw [ea]
    refine ⟨fun s s' hlt hD => h.profile.const s s' hlt fun d hd => hD d (Finset.mem_union_left _ hd), fun s hs0 hsD p hp => ?_,
      fun k hk hkD r hr => ?_⟩
    · rw [Obj.inside]
      refine h.profile.inside s hs0 (fun h => hsD (Finset.mem_union_left _ h)) _ ?_
      have := (ht.inverse hdet).point hp
      rwa [C29_points T hdet R s, (C27_inverse_point T hdet _).1] at this
    · rw [Finset.mem_union, not_or] at hkD
      have hoff := C19_off_surface b' B' hi (BBox.transform_proper e2) r ⟨R.at k, R.dir⟩ hr hd (hnk k)
        (fun h => hkD.2 (hs k hk h))
      cases hint : b'.intersects r with
      | false =>
        refine ⟨HitRecord.miss, by rw [Obj.intersect, hint]; rfl, .inr ⟨?_, by simp [HitRecord.miss]⟩⟩
        intro c hc hcr
        obtain ⟨th, hth, honc⟩ := (h.surface c (lt_of_le_of_lt hk hc)).2 hcr
        have : b'.intersects r = true := by
          refine hoff.2 ⟨c - k, by linarith, ?_⟩
          rw [at_at, add_sub_cancel, C29_points T hdet R c]
          exact himg _ (hin th hth _ honc)
        rw [hint] at this; cases this
      | true =>
        obtain ⟨hit, eh, hc⟩ := h.profile.hit k hk hkD.1 _ (hpull k r hr)
        exact ⟨_, hsame r hint hit _ eh, hc⟩
  · intro k hk r hr hit r' hint' S hS hS0
    cases hint : b'.intersects r with
    | false =>
      rw [Obj.intersect, hint] at hint'
      cases hint'
      have := pos_of hS hS0
      simp [HitRecord.miss] at this
    | true =>
      rw [Obj.intersect, hint] at hint'
      simp only [Bool.not_true, Bool.false_eq_true, if_false] at hint'
      obtain ⟨⟨hit0, r0⟩, h1, h2⟩ := bind_eq_ok.1 hint'
      cases h2
      obtain ⟨th, hth, honS, hcol⟩ := h.paint k hk _ (hpull k r hr) hit0 r0 h1 S hS hS0
      obtain ⟨th', hth', hpl⟩ := forall₂_left hA th hth
      obtain ⟨m1, m2⟩ := meets th th' hpl (k + S)
      exact ⟨th', hth', m1.2 honS, m2 honS _ _ _ hcol⟩

end BR
