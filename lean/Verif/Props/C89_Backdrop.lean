import Verif.Lemmas.Backdrop
import Verif.Lemmas.FarLaw
import Verif.Props.C22_TreeConstruction
import Verif.Props.C85_Violated
import Verif.Props.C86_BallHit

/-! C89: in front of a backdrop also small trees can be shown. -/

namespace BR
set_option linter.unusedSectionVars false

section
variable {F S : Type} [Add F] [Sub F] [Mul F] [Div F] [Neg F] [GoFloat F] [CmpModel F]

theorem seen_meek (law : FarLaw F) (s : Scene F) (hs : s.Backed) (f : Field) :
    (∀ o ∈ s.seen f, Meek o) ∧ ∃ m, Obj.backdrop m ∈ s.seen f := by
  obtain ⟨⟨m, hm⟩, ho, hl⟩ := hs
  refine ⟨fun o h => ?_, m, ?_⟩
  · cases f with
    | direct =>
      rcases List.mem_append.1 h with h | h
      · exact meek_of law (ho o h).1 (ho o h).2
      · obtain ⟨l, hm, rfl⟩ := List.mem_map.1 h
        exact meek_of law (hl l hm).1 (hl l hm).2
    | indirect =>
      rcases List.mem_append.1 h with h | h
      · exact meek_of law (ho o h).1 (ho o h).2
      · obtain ⟨l, hm, rfl⟩ := List.mem_map.1 h
        exact (meek_of law (hl l hm).1 (hl l hm).2).black
  · cases f <;> exact List.mem_append_left _ hm

/-- **C89.** In a scene with a backdrop every ray sees something not beyond the backdrop that has a material: never the
record without a material, at distance `9e99`, by which a tree of at most seven members reports that its box is hit but
none of its members. -/
theorem C89_seen (law : FarLaw F) (hinf : ((lit (10 ^ 99) : F) <. GoFloat.inf) = true) (s : Scene F) (hs : s.Backed) (f : Field)
    (r : Ray F) : ∃ front r', intersectFrontmost (s.seen f) r = .ok (front, r') ∧ (lit (10 ^ 99) <. front.t) = false ∧
      ∃ m, front.mat = some m ∧ m.Total := by
  obtain ⟨h1, h2⟩ := seen_meek law s hs f
  exact intersectLoop_backed law h1 h2 (frontDefault r) (.inr hinf) r

/-- **C89.** Light can be followed from every ray into every scene with a backdrop, whose parts have materials and cannot
fail, for any recursion depth that is not negative, any media and any random source, without a panic. -/
theorem C89_light (hsub : SubLaw F) (law : FarLaw F) (s : Scene F) (hs : s.Backed) (hd : 0 ≤ s.recursionDepth) (rng : Rng F S)
    (f : Field) (r : Ray F) (c : Ctx F S) (h0 : c.depth = 0) (hc : c.Ready) :
    ∃ col c', s.lightField rng s.recursionDepth.toNat f r c = .ok (col, c') ∧ c'.depth = 0 ∧ c'.Ready ∧ c'.frame = c.frame := by
  have hoc : OcclOK s.occlude := fun r l c =>
    occludeLoop_meek (fun o ho => meek_of law (hs.2.1 o ho).1 (hs.2.1 o ho).2) l c r
  have hseen : ∀ f r, ∃ h r', intersectLoop (s.seen f) (frontDefault r) r = .ok (h, r') ∧ ∃ m, h.mat = some m ∧ m.Total := by
    intro f r
    obtain ⟨h1, h2⟩ := seen_meek law s hs f
    obtain ⟨h, r', e, -, hm⟩ := intersectLoop_backed law h1 h2 (frontDefault r) (.inl ⟨_, rfl, trivial⟩) r
    exact ⟨h, r', e, hm⟩
  obtain ⟨col, c', e, hd', hr, e1, e2, e3, e4⟩ := lightField_does_of (rng := rng) (fr := c.frame) hsub hoc hseen
    s.recursionDepth.toNat 0 le_rfl (by rw [zero_add]; exact Int.toNat_of_nonneg hd) f r c ⟨h0, hc, rfl, rfl, rfl, rfl⟩
  refine ⟨col, c', e, hd', hr, ?_⟩
  unfold Ctx.frame at *
  rw [e1, e2, e3, e4, hd', h0]

/-- **C89.** Whatever can be shown alone (`C85_shapes`, `C85_combined`) can be shown in front of a backdrop, and so can
objects made from such: placed, combined, hollow, given another material, or put in a tree with any number of members. -/
theorem C89_combined (S : Sorter (Obj F (Mat F))) :
    (∀ o : Obj F (Mat F), o.Good → o.Solid) ∧
    (∀ (t : Affine F) (o o' : Obj F (Mat F)), o.Solid → o.mkTransformed t = .ok o' → o'.Solid) ∧
    (∀ a b : Obj F (Mat F), a.Solid → b.Solid → (Obj.and a b).Solid ∧ (Obj.or a b).Solid ∧ (Obj.restrict a b).Solid ∧
      (Obj.difference a b).Solid ∧ (Obj.remove a b).Solid ∧ (Obj.hollow a).Solid) ∧
    (∀ (m : Mat F) (o : Obj F (Mat F)), m.Total → o.Solid → (Obj.withMaterial (some m) o).Solid) ∧
    (∀ (os : List (Obj F (Mat F))) o l, (∀ x ∈ os, x.Solid) → mkTree S os = .ok (o, l) → o.Solid) := by
  refine ⟨fun o h => h.solid, fun t o o' => transformed_solid t o o', ?_, ?_, ?_⟩
  · rintro a b ⟨a1, a2, a3⟩ ⟨b1, b2, b3⟩
    refine ⟨⟨?_, ?_, ?_⟩, ⟨?_, ?_, ?_⟩, ⟨?_, ?_, ?_⟩, ⟨?_, ?_, ?_⟩, ⟨?_, ?_, ?_⟩, ?_, ?_, ?_⟩ <;>
      simp only [Obj.Sturdy, Obj.Clad, Obj.Decides, Obj.difference, Obj.remove] <;> tauto
  · rintro m o hm ⟨h1, -, h2⟩
    exact ⟨by rw [Obj.Sturdy]; exact h1, by rw [Obj.Clad]; exact ⟨m, rfl, hm⟩, by rw [Obj.Decides]; exact h2⟩
  · intro os o l hos e
    unfold mkTree at e
    obtain ⟨⟨root, l'⟩, eb, e⟩ := bind_eq_ok.1 e
    simp only [pure_ok, Except.ok.injEq, Prod.mk.injEq] at e
    obtain ⟨rfl, rfl⟩ := e
    refine ⟨?_, ?_, ?_⟩
    · rw [Obj.Sturdy]; exact buildTree_sturdy S os (fun o ho => (hos o ho).1) _ _ eb
    · rw [Obj.Clad]; exact buildTree_clad S os (fun o ho => (hos o ho).2.1) _ _ eb
    · rw [Obj.Decides]; exact buildTree_decides S os (fun o ho => (hos o ho).2.2) _ _ eb

end

section
variable {S : Type}

/-- **C89.** Computing with rounded double precision numbers, a picture of a scene with a backdrop, also one with small
trees, is taken without a crash: with any camera, any image of up to `2^50` by `2^50` pixels, with or without
anti-aliasing, any number of passes and workers, any shifts of the sample sequences and random numbers, however the
workers are scheduled. -/
theorem C89_picture (s : Scene Flo) (hs : s.Backed) (hd : 0 ≤ s.recursionDepth) (cam : Cam Flo) (w h : Nat)
    (hw : w ≤ 2 ^ 50) (hh : h ≤ 2 ^ 50) (aa : Bool) (rng : Rng Flo S) (shifts : List (Flo × Flo))
    (hshift : w * h ≤ shifts.length) (W : Nat) (seeds : Fin W → S) (nPass : Nat) (m0 : Pixel → Cell Flo)
    (t : SamplerState Flo (Ctx Flo S) W) (k : Nat)
    (hrun : Runs (ctxShader (s.imageFunc rng cam)) w h aa nPass
      (samplerInit w h (fun i => Ctx.new shifts (seeds i)) m0) k t) : t.crashed = false :=
  picture_safe s rng (fun _ => True) (fun f r c _ => C89_light subLaw_flo farLaw_flo s hs hd rng f r c) cam w h hw hh aa shifts
    (fun _ _ _ _ => trivial) hshift W seeds
    nPass m0 t k hrun

end

/-! ## Examples -/

theorem near_number {a : Flo} {x e b : ℝ} (h : a.Near x e b) : GoFloat.isNaN a = false := by
  obtain ⟨⟨v, ⟨s, hs⟩, -⟩, -⟩ := h
  change GoFloat.isNaN a.e = false
  rw [hs]
  rfl

/-- Balls of ordinary size have bounds. -/
theorem ball_bounds {M : Type} (m : Option M) (n c : ℤ) (hn : |n| ≤ 64) (hc : |c| ≤ 64) :
    ∃ b, (Obj.sphere m (lit (n : ℚ) : Flo) ⟨lit (c : ℚ), lit (c : ℚ), lit (c : ℚ)⟩).bounds = .ok b ∧
      b.min.isNaN = false ∧ b.max.isNaN = false := by
  have hn' : |(n : ℝ)| ≤ 64 := by exact_mod_cast hn
  have hc' : |(c : ℝ)| ≤ 64 := by exact_mod_cast hc
  have i1 := (flo_int_is n (by omega)).near hn'
  have i2 := (flo_int_is 2 (by norm_num)).near (b := 2) (by norm_num)
  have ic := (flo_int_is c (by omega)).near hc'
  have ir := i1.div 2 (1 / 2 ^ 40) 40 i2 (by norm_num)
  have lo := near_number ((ir.neg.add (1 / 2 ^ 35) 110 ic).add (1 / 2 ^ 30) 120 Ball.tiny_near.neg)
  have hi := near_number ((ir.add (1 / 2 ^ 35) 110 ic).add (1 / 2 ^ 30) 120 Ball.tiny_near)
  refine ⟨_, rfl, ?_, ?_⟩
  · change (GoFloat.isNaN _ || GoFloat.isNaN _ || GoFloat.isNaN _) = false
    rw [Bool.or_eq_false_iff, Bool.or_eq_false_iff]
    exact ⟨⟨lo, lo⟩, lo⟩
  · change (GoFloat.isNaN _ || GoFloat.isNaN _ || GoFloat.isNaN _) = false
    rw [Bool.or_eq_false_iff, Bool.or_eq_false_iff]
    exact ⟨⟨hi, hi⟩, hi⟩

/-- A tree of two balls in front of a backdrop, with a lamp. -/
noncomputable def pairScene (pair : Obj Flo (Mat Flo)) : Scene Flo :=
  ⟨[.point ⟨lit 0, lit 5, lit 0⟩ ⟨lit 100, lit 100, lit 100⟩],
   [pair, .backdrop (some (.flat (Color.tex ⟨lit 1, lit 1, lit 1⟩)))], [], 6⟩

/-- A tree of two balls can be made. It is not among the objects of C85, but in front of a backdrop it is shown without a
crash. -/
example {S : Type} (so : Sorter (Obj Flo (Mat Flo))) (cam : Cam Flo) (rng : Rng Flo S)
    (shifts : List (Flo × Flo)) (hshift : 1920 * 1080 ≤ shifts.length) (seeds : Fin 8 → S) (m0 : Pixel → Cell Flo) :
    ∃ pair l, mkTree so [Obj.sphere (some (.matte (Color.tex ⟨lit 1, lit 0, lit 0⟩))) (lit ((1 : ℤ) : ℚ) : Flo) ⟨lit ((0 : ℤ) : ℚ), lit ((0 : ℤ) : ℚ), lit ((0 : ℤ) : ℚ)⟩,
        Obj.sphere (some (.refractive (lit 1) (lit (3 / 2)))) (lit ((2 : ℤ) : ℚ)) ⟨lit ((3 : ℤ) : ℚ), lit ((3 : ℤ) : ℚ), lit ((3 : ℤ) : ℚ)⟩] = .ok (pair, l) ∧
      ¬pair.Showable ∧ ∀ t k, Runs (ctxShader ((pairScene pair).imageFunc rng cam)) 1920 1080 true 100
        (samplerInit 1920 1080 (fun i => Ctx.new shifts (seeds i)) m0) k t → t.crashed = false := by
  set balls := [Obj.sphere (some (Mat.matte (Color.tex (⟨lit 1, lit 0, lit 0⟩ : Color Flo)))) (lit ((1 : ℤ) : ℚ) : Flo) ⟨lit ((0 : ℤ) : ℚ), lit ((0 : ℤ) : ℚ), lit ((0 : ℤ) : ℚ)⟩,
        Obj.sphere (some (.refractive (lit 1) (lit (3 / 2)))) (lit ((2 : ℤ) : ℚ)) ⟨lit ((3 : ℤ) : ℚ), lit ((3 : ℤ) : ℚ), lit ((3 : ℤ) : ℚ)⟩] with hballs
  obtain ⟨n, l, e⟩ := C22_builds so balls (by simp [hballs]) (by
    simp only [hballs, List.forall_mem_cons, List.not_mem_nil, false_implies, implies_true, and_true]
    exact ⟨ball_bounds _ 1 0 (by norm_num) (by norm_num), ball_bounds _ 2 3 (by norm_num) (by norm_num)⟩)
  have et : mkTree so balls = .ok (.tree n, l) := by rw [mkTree, e]; rfl
  have hsolid : (Obj.tree n).Solid := by
    refine (C89_combined so).2.2.2.2 balls _ l ?_ et
    simp only [hballs, List.forall_mem_cons, List.not_mem_nil, false_implies, implies_true, and_true]
    exact ⟨(quadric_good (m := .matte _) (fun p => ⟨_, rfl⟩) _ rfl).solid, (quadric_good (m := .refractive _ _) trivial _ rfl).solid⟩
  refine ⟨.tree n, l, et, ?_, fun t k hrun => ?_⟩
  · rw [buildTree, if_pos (by simp [hballs, maxFacePerLeaf])] at e
    obtain ⟨bb, -, e⟩ := bind_eq_ok.1 e
    cases e
    rintro ⟨-, h⟩
    rw [Obj.Wears] at h
    exact h
  · refine C89_picture _ ⟨⟨_, List.mem_cons_of_mem _ (List.mem_singleton_self _)⟩, ?_, ?_⟩ (by change (0 : Int) ≤ 6; decide) cam 1920 1080
      (by norm_num) (by norm_num) true rng shifts hshift 8 seeds 100 m0 t k hrun
    · simp only [pairScene, List.forall_mem_cons, List.not_mem_nil, false_implies, implies_true, and_true]
      exact ⟨⟨hsolid.1, hsolid.2.1⟩, by rw [Obj.Sturdy]; trivial, by rw [Obj.Clad]; exact ⟨_, rfl, fun p => ⟨_, rfl⟩⟩⟩
    · simp only [pairScene, List.forall_mem_cons, List.not_mem_nil, false_implies, implies_true, and_true]
      have := (point_good (F := Flo) ⟨lit 0, lit 5, lit 0⟩ ⟨lit 100, lit 100, lit 100⟩).solid
      exact ⟨this.1, this.2.1⟩

end BR
