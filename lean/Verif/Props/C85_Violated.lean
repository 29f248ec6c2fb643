import Verif.Props.C85_Crash
import Verif.Props.C21_TreeNearest

/-! C85: boxes and small trees do crash the program. -/

namespace BR
set_option linter.unusedSectionVars false

section
variable {F S : Type} [Add F] [Sub F] [Mul F] [Div F] [Neg F] [GoFloat F] [CmpModel F]

/-- An object that reports a hit at `9e99` without a material, alone in the scene, makes the program panic. -/
theorem phantom_crash (hsent : ((lit 0 : F) <. lit (9 * 10 ^ 99)) = true)
    (hinf : ((lit (9 * 10 ^ 99) : F) <=. GoFloat.inf) = true) (o : Obj F (Mat F)) (s : Scene F) (hobj : s.objects = [o])
    (hl : s.lights = []) (hd : 0 < s.recursionDepth) (r : Ray F) (hit : HitRecord F (Mat F))
    (e : o.intersect r = .ok (hit, r)) (h2 : hit.t = lit (9 * 10 ^ 99)) (h3 : hit.mat = none)
    (rng : Rng F S) (f : Field) (c : Ctx F S) (h0 : c.depth = 0) :
    s.lightField rng s.recursionDepth.toNat f r c = .error .nilDeref := by
  have hseen : s.seen f = [o] := by
    cases f <;> simp [Scene.seen, Scene.objectsAndLights, Scene.objectsMinusLights, hobj, hl]
  obtain ⟨k, hk⟩ : ∃ k, s.recursionDepth.toNat = k + 1 := ⟨s.recursionDepth.toNat - 1, by omega⟩
  rw [hk, Scene.lightField, Scene.lightFieldFrom, if_neg (by omega)]
  dsimp only
  rw [hseen, intersectFrontmost, intersectLoop, e]
  simp only [ok_bind, intersectLoop, h2, frontDefault, hinf, hsent, Bool.and_self, if_true]
  rw [shadeFront, h3]
  rfl

/-- **C85, violated by small trees.** Whatever its members are: if a ray meets the box of a tree of at most seven members
but none of the members, and nothing else is in the scene, then following that ray panics (nil dereference). -/
theorem C85_violated_tree (hsent : ((lit 0 : F) <. lit (9 * 10 ^ 99)) = true)
    (hinf : ((lit (9 * 10 ^ 99) : F) <=. GoFloat.inf) = true)
    (so : Sorter (Obj F (Mat F))) (ch : List (Obj F (Mat F))) (hlen : ch.length ≤ 7) (n : Node F (Mat F)) (l)
    (h : buildTree so ch = .ok (n, l)) (s : Scene F) (hobj : s.objects = [.tree n]) (hl : s.lights = [])
    (hd : 0 < s.recursionDepth) (r : Ray F) (hits : Obj F (Mat F) → HitRecord F (Mat F))
    (hok : ∀ o ∈ ch, o.intersect r = .ok (hits o, r)) (hnone : NoneHit hits ch)
    (hbox : (lit 0 <. n.bb.intersect r) = true) (rng : Rng F S) (f : Field) (c : Ctx F S) (h0 : c.depth = 0) :
    s.lightField rng s.recursionDepth.toNat f r c = .error .nilDeref := by
  obtain ⟨hit, e, h1, h2, h3⟩ := C21_violated_phantom hsent so ch hlen n l h r hits hok hnone hbox
  exact phantom_crash hsent hinf _ s hobj hl hd r hit e h2 h3 rng f c h0

theorem single_box {b : BBox F} {m : Mat F} {r : Ray F} {e : Panic} (hh : b.hit (some m) r = .error e) (rng : Rng F S)
    (f : Field) (c : Ctx F S) (h0 : c.depth = 0) :
    (⟨[], [.box b (some m)], [], 5⟩ : Scene F).lightField rng 5 f r c = .error e := by
  rw [Scene.lightField, Scene.lightFieldFrom, if_neg (by rw [h0]; exact (by decide : ¬(5 : Int) = 0))]
  dsimp only
  have hseen : (⟨[], [.box b (some m)], [], 5⟩ : Scene F).seen f = [.box b (some m)] := by
    cases f <;> simp [Scene.seen, Scene.objectsAndLights, Scene.objectsMinusLights]
  rw [hseen, intersectFrontmost, intersectLoop, Obj.intersect, hh]
  rfl

end

open Ext in
/-- A ball with a material, alone in a tree: the ray misses the ball but not its box. -/
example {S : Type} (m : Mat Ext) (so : Sorter (Obj Ext (Mat Ext))) (rng : Rng Ext S) (f : Field) (c : Ctx Ext S)
    (h0 : c.depth = 0) :
    ∃ t l, mkTree so [.sphere (some m) (fin 2) ⟨fin 0, fin 0, fin 0⟩] = .ok (t, l) ∧
      (⟨[], [t], [], 5⟩ : Scene Ext).lightField rng 5 f ⟨⟨fin (3 / 4), fin (3 / 4), fin (-2)⟩, ⟨fin 0, fin 0, fin 1⟩⟩ c =
        .error .nilDeref := by
  set o : Obj Ext (Mat Ext) := .sphere (some m) (fin 2) ⟨fin 0, fin 0, fin 0⟩ with ho
  set r : Ray Ext := ⟨⟨fin (3 / 4), fin (3 / 4), fin (-2)⟩, ⟨fin 0, fin 0, fin 1⟩⟩ with hr
  have hb : o.bounds = .ok ⟨⟨.num (-1232897 / 1232896) true, .num (-1232897 / 1232896) true, .num (-1232897 / 1232896) true⟩,
      ⟨fin (1232897 / 1232896), fin (1232897 / 1232896), fin (1232897 / 1232896)⟩⟩ := by
    rw [ho, Obj.sphere, Obj.bounds, Obj.sphereQ]
    simp only [BBox.translated, BBox.withMargin, Vec.add, fin, lit_ext, tiny]
    norm_num [num_div_num, num_add_num, neg_num, sgn]
  have hbb : makeBoundingBox [o] = .ok ⟨⟨.num (-1232897 / 1232896) true, .num (-1232897 / 1232896) true, .num (-1232897 / 1232896) true⟩,
      ⟨fin (1232897 / 1232896), fin (1232897 / 1232896), fin (1232897 / 1232896)⟩⟩ := by
    simp only [makeBoundingBox, List.mapM_cons, List.mapM_nil, hb, BBox.fromHull, fin, ok_bind, pure_ok]
    norm_num [checkNaNVec, ok_bind, List.foldlM_cons, List.foldlM_nil, BBox.hullStep, BBox.lower, BBox.upper, pure_ok]
  have hnode : buildTree so [o] = .ok (.leaf (BBox.toF ⟨⟨.num (-1232897 / 1232896) true, .num (-1232897 / 1232896) true,
      .num (-1232897 / 1232896) true⟩, ⟨fin (1232897 / 1232896), fin (1232897 / 1232896), fin (1232897 / 1232896)⟩⟩) [o], [o]) := by
    rw [buildTree, if_pos (by simp [maxFacePerLeaf]), hbb]; rfl
  have hit : o.intersect r = .ok (HitRecord.miss, r) := by
    rw [ho, Obj.sphere, Obj.intersect]
    have : (Obj.sphereQ (some m) (fin 2) ⟨fin 0, fin 0, fin 0⟩).hit r = HitRecord.miss := by
      simp only [Quadric.hit, Quadric.coeffs, Obj.sphereQ, hr, fin, lit_ext]
      norm_num [num_div_num, num_sub_num, num_mul_num, num_add_num, neg_num, sgn]
    rw [this]
  refine ⟨_, _, by rw [mkTree, hnode]; rfl, C85_violated_tree (by simp) ?_ so [o] (by simp) _ _ hnode _ rfl rfl (by change (0 : Int) < 5; decide) r
    (fun _ => HitRecord.miss) (fun x hx => ?_) (fun x hx => by simp [HitRecord.miss]) ?_ rng f c h0⟩
  · simp [lit_ext, GoFloat.inf]
  · rw [List.mem_singleton] at hx
    rw [hx, hit]
  · simp only [Node.bb, BBox.toF, BBox.intersect, BBox.tenTex, BBox.slab, BBox.max3, BBox.min3, hr, fin, lit_ext, fmin, fmax]
    norm_num [num_div_num, num_div_zero, num_sub_num, num_mul_inf, inf_mul_num, num_mul_num, num_add_num, neg_num, sgn]

open Ext in
/-- **C85, violated by boxes with infinite sides.** The half space below the ground, as a box: a ray that goes down inside
it makes the program panic. -/
theorem C85_violated_infinite {S : Type} (m : Mat Ext) (rng : Rng Ext S) (f : Field) (c : Ctx Ext S) (h0 : c.depth = 0) :
    (⟨[], [.boxWithBounds (some m) ⟨.inf true, .inf true, .inf true⟩ ⟨.inf false, fin 0, .inf false⟩], [], 5⟩ : Scene Ext).lightField
      rng 5 f ⟨⟨fin 0, fin (-1), fin 0⟩, ⟨fin 0, fin (-1), fin 0⟩⟩ c = .error (.msg "box.normal") := by
  set b : BBox Ext := ⟨⟨.inf true, .inf true, .inf true⟩, ⟨.inf false, fin 0, .inf false⟩⟩ with hb
  rw [show (Obj.boxWithBounds (some m) ⟨.inf true, .inf true, .inf true⟩ ⟨.inf false, fin 0, .inf false⟩ : Obj Ext (Mat Ext)) =
    .box b (some m) from rfl]
  set r : Ray Ext := ⟨⟨fin 0, fin (-1), fin 0⟩, ⟨fin 0, fin (-1), fin 0⟩⟩ with hr
  have ht : b.intersect r = .inf false := by
    simp only [hb, hr, BBox.intersect, BBox.tenTex, BBox.slab, BBox.max3, BBox.min3, fin, lit_ext, fmin, fmax]
    norm_num [num_div_num, num_div_zero, num_sub_num, num_mul_inf, inf_mul_num, num_mul_num, num_add_num, neg_num, sgn]
  have hn : b.normal (r.at (.inf false)) = .error (.msg "box.normal") := by
    simp only [hb, hr, BBox.normal, BBox.approx, Ray.at, Vec.madd, fin, lit_ext]
    have a1 : (GoFloat.abs nan : Ext) = nan := rfl
    have a2 : (GoFloat.abs (inf true) : Ext) = inf false := rfl
    have a3 : (inf true - inf true : Ext) = nan := rfl
    norm_num [num_div_num, num_div_zero, num_sub_num, num_mul_inf, inf_mul_num, num_mul_num, num_add_num, neg_num, sgn,
      a1, a2, a3]
  have hh : b.hit (some m) r = .error (.msg "box.normal") := by
    rw [BBox.hit]
    dsimp only
    rw [ht, hn]
    simp
  exact single_box hh rng f c h0

/-- The box with corners `(-0.1, -0.1, -0.1)` and `(0.1, 0.1, 0.1)`. -/
noncomputable def smallBox : BBox Flo :=
  ⟨⟨lit (-1 / 10), lit (-1 / 10), lit (-1 / 10)⟩, ⟨lit (1 / 10), lit (1 / 10), lit (1 / 10)⟩⟩

/-- A ray towards it from a distance of `2^29`. -/
noncomputable def farRay : Ray Flo := ⟨⟨lit 0, lit 0, lit (-2 ^ 29)⟩, ⟨lit 0, lit 0, lit 1⟩⟩

theorem far_box (m : Option (Mat Flo)) : smallBox.hit m farRay = .error (.msg "box.normal") := by
  have big : (2 : ℝ) ^ 60 ≤ 2 ^ 200 := pow_le_pow_right₀ (by norm_num) (by norm_num)
  have lt : ∀ {x : ℝ}, |x| ≤ 2 ^ 60 → |x| ≤ 2 ^ 200 := fun h => h.trans big
  -- the numbers
  have hA : roundBits 53 (1 / 10) = 3602879701896397 / 2 ^ 55 := by
    rw [roundBits_near 53 (by norm_num) (1 / 10) 7205759403792794 (-56) (by norm_num) (by norm_num [zpow_neg])
      (by norm_num [zpow_neg]) (by norm_num [zpow_neg, abs_lt])]
    norm_num [zpow_neg]
  have hlit : ∀ q : ℚ, |(q : ℝ)| ≤ 2 ^ 60 → (lit q : Flo).Is (roundBits 53 q) := fun q hq => by
    change (Flo.rnd (lit q)).Is _
    rw [Ext.lit_ext]
    exact Flo.rnd_is _ (lt hq)
  have iA : (lit (1 / 10) : Flo).Is (3602879701896397 / 2 ^ 55) :=
    (hlit _ (by norm_num [abs_le])).of_eq (by rw [← hA]; norm_num)
  have iB : (lit (-1 / 10) : Flo).Is (-(3602879701896397 / 2 ^ 55)) :=
    (hlit _ (by norm_num [abs_le])).of_eq (by rw [← hA, ← roundBits_neg]; norm_num)
  have iS : (lit (-2 ^ 29) : Flo).Is (-2 ^ 29) := by
    refine (hlit _ (by norm_num [abs_le])).of_eq ?_
    rw [show (((-2 ^ 29 : ℚ)) : ℝ) = ((-1 : ℤ) : ℝ) * 2 ^ (29 : ℤ) by norm_num, roundBits_exact 53 _ _ (by norm_num) (by norm_num)]
    norm_num
  have i0 : (lit 0 : Flo).Is 0 := (hlit 0 (by norm_num)).of_eq (by simp [roundBits_zero])
  have i1 := flo_lit_one
  have iI : ((lit 1 : Flo) / lit 1).Is 1 := (Flo.div_is i1 i1 one_ne_zero (lt (by norm_num))).of_eq (by
    simpa using roundBits_exact 53 1 0 (by norm_num) (by norm_num))
  have hinf : ((lit 1 : Flo) / lit 0).e = .inf false := by
    change (Flo.rnd ((Flo.rnd (lit 1)).e / (Flo.rnd (lit 0)).e)).e = _
    rw [Ext.lit_ext, Ext.lit_ext, Rat.cast_zero, Flo.rnd_zero]
    obtain ⟨s1, e1⟩ := i1
    change (Flo.rnd (lit 1)).e = _ at e1
    rw [Ext.lit_ext] at e1
    rw [e1, Ext.num_div_zero, if_neg one_ne_zero]
    simp [Ext.sgn, Flo.rnd, Flo.roundTo]
  have exact' : ∀ m e : ℤ, |m| < 2 ^ 53 → -149 ≤ e → roundBits 53 ((m : ℝ) * 2 ^ e) = m * 2 ^ e := roundBits_exact 53
  have eA : roundBits 53 (3602879701896397 / 2 ^ 55) = 3602879701896397 / 2 ^ 55 := by
    have := exact' 3602879701896397 (-55) (by norm_num) (by norm_num)
    norm_num [zpow_neg] at this ⊢
    exact this
  -- across
  have iA0 : ((lit (1 / 10) : Flo) - lit 0).Is (3602879701896397 / 2 ^ 55) :=
    (Flo.sub_is iA i0 (lt (by norm_num [abs_le]))).of_eq (by rw [sub_zero, eA])
  have iB0 : ((lit (-1 / 10) : Flo) - lit 0).Is (-(3602879701896397 / 2 ^ 55)) :=
    (Flo.sub_is iB i0 (lt (by norm_num [abs_le]))).of_eq (by rw [sub_zero, roundBits_neg, eA])
  have top : CmpModel.key (((lit (1 / 10) : Flo) - lit 0) * (lit 1 / lit 0)) = some (⊤ : EReal) := by
    obtain ⟨s1, e1⟩ := iA0
    change Ext.key (Flo.rnd (((lit (1 / 10) : Flo) - lit 0).e * ((lit 1 : Flo) / lit 0).e)).e = _
    rw [e1, hinf, Ext.num_mul_inf, if_neg (by norm_num)]
    norm_num [Ext.sgn, Flo.rnd, Flo.roundTo, Ext.key]
  have bot : CmpModel.key (((lit (-1 / 10) : Flo) - lit 0) * (lit 1 / lit 0)) = some (⊥ : EReal) := by
    obtain ⟨s1, e1⟩ := iB0
    change Ext.key (Flo.rnd (((lit (-1 / 10) : Flo) - lit 0).e * ((lit 1 : Flo) / lit 0).e)).e = _
    rw [e1, hinf, Ext.num_mul_inf, if_neg (by norm_num)]
    norm_num [Ext.sgn, Flo.rnd, Flo.roundTo, Ext.key]
  -- along
  have iN : ((lit (-1 / 10) : Flo) - lit (-2 ^ 29)).Is (9007199253063270 / 2 ^ 24) := by
    refine (Flo.sub_is iB iS (lt (by norm_num [abs_le]))).of_eq ?_
    rw [roundBits_near 53 (by norm_num) _ 9007199253063270 (-24) (by norm_num) (by norm_num [zpow_neg, abs_of_pos])
      (by norm_num [zpow_neg, abs_of_pos]) (by norm_num [zpow_neg, abs_lt])]
    norm_num [zpow_neg]
  have iM : ((lit (1 / 10) : Flo) - lit (-2 ^ 29)).Is (4503599628209357 / 2 ^ 23) := by
    refine (Flo.sub_is iA iS (lt (by norm_num [abs_le]))).of_eq ?_
    rw [roundBits_near 53 (by norm_num) _ 4503599628209357 (-23) (by norm_num) (by norm_num [zpow_neg, abs_of_pos])
      (by norm_num [zpow_neg, abs_of_pos]) (by norm_num [zpow_neg, abs_lt])]
    norm_num [zpow_neg]
  have eN : roundBits 53 (9007199253063270 / 2 ^ 24) = 9007199253063270 / 2 ^ 24 := by
    have := exact' 9007199253063270 (-24) (by norm_num) (by norm_num)
    norm_num [zpow_neg] at this ⊢
    exact this
  have eM : roundBits 53 (4503599628209357 / 2 ^ 23) = 4503599628209357 / 2 ^ 23 := by
    have := exact' 4503599628209357 (-23) (by norm_num) (by norm_num)
    norm_num [zpow_neg] at this ⊢
    exact this
  have iN1 := (Flo.mul_is iN iI (lt (by norm_num [abs_le]))).of_eq (by rw [mul_one, eN])
  have iM1 := (Flo.mul_is iM iI (lt (by norm_num [abs_le]))).of_eq (by rw [mul_one, eM])
  have kx1 := key_fmin bot top
  have kx2 := key_fmax bot top
  have kz1 := key_fmin iN1.key iM1.key
  have kz2 := key_fmax iN1.key iM1.key
  have kten := key_max3 kx1 kx1 kz1
  have ktex := key_min3 kx2 kx2 kz2
  have hle : ((9007199253063270 / 2 ^ 24 : ℝ) : EReal) ≤ ((4503599628209357 / 2 ^ 23 : ℝ) : EReal) := by
    rw [EReal.coe_le_coe_iff]; norm_num
  rw [min_eq_left hle, min_eq_left (bot_le : (⊥ : EReal) ≤ ⊤), max_self, max_eq_right bot_le] at kten
  rw [max_eq_right hle, max_eq_right (bot_le : (⊥ : EReal) ≤ ⊤), min_self, min_eq_right le_top] at ktex
  have ht : (smallBox.intersect farRay).Is (9007199253063270 / 2 ^ 24) := by
    refine flo_of_key ?_
    unfold BBox.intersect BBox.tenTex BBox.slab smallBox farRay
    dsimp only
    rw [lt_key ktex kten, if_neg (by rw [decide_eq_true_eq]; exact not_lt.2 hle), lt_key kten CmpModel.key_zero, if_neg ?_]
    · exact kten
    · rw [decide_eq_true_eq]
      refine not_lt.2 (EReal.coe_nonneg.2 (by norm_num))
  -- the point
  have px : (farRay.at (smallBox.intersect farRay)).x.Is 0 := by
    have := Flo.mul_is ht i0 (lt (by norm_num))
    have := Flo.add_is i0 this (lt (by simp [roundBits_zero]))
    exact this.of_eq (by simp [roundBits_zero])
  have py : (farRay.at (smallBox.intersect farRay)).y.Is 0 := px
  have pz : (farRay.at (smallBox.intersect farRay)).z.Is (-(1677722 / 2 ^ 24)) := by
    have h := (Flo.mul_is ht i1 (lt (by norm_num [abs_le]))).of_eq (by rw [mul_one, eN])
    refine (Flo.add_is iS h (lt (by norm_num [abs_le]))).of_eq ?_
    have := exact' (-1677722) (-24) (by norm_num)
    norm_num [zpow_neg] at this ⊢
    exact this
  have tol : ∃ e, (lit (1 / 10 ^ 8) : Flo).Is e ∧ e ≤ 2 / 10 ^ 8 := by
    refine ⟨_, hlit _ (by norm_num [abs_le]), ?_⟩
    have := roundBits_err 53 (by norm_num) (((1 / 10 ^ 8 : ℚ)) : ℝ)
    rw [abs_le] at this
    norm_num at this ⊢
    linarith [this.2]
  obtain ⟨e, ie, he⟩ := tol
  have far : ∀ {p q : Flo} {x y : ℝ}, p.Is x → q.Is y → |x - y| ≤ 1 → 22 / 10 ^ 9 ≤ |x - y| → BBox.approx p q = false := by
    intro p q x y hp hq h1 h2
    have h3 := Flo.sub_is hp hq (lt (h1.trans (by norm_num)))
    have h4 := roundBits_err 53 (by norm_num) (x - y)
    obtain ⟨s3, e3⟩ := h3
    have : (GoFloat.abs (p - q) : Flo).Is |roundBits 53 (x - y)| := by
      refine ⟨false, ?_⟩
      change GoFloat.abs (p - q).e = _
      rw [e3]; rfl
    rw [BBox.approx, Flo.lt_is this ie, decide_eq_false_iff_not, not_lt]
    have h5 := abs_sub_abs_le_abs_sub (x - y) (roundBits 53 (x - y))
    rw [abs_sub_comm (x - y) (roundBits 53 (x - y))] at h5
    have h6 : |x - y| / 2 ^ 53 ≤ 1 / 2 ^ 53 := by gcongr
    norm_num at he h2 h4 h5 h6
    linarith
  rw [BBox.hit]
  dsimp only
  rw [Flo.lt_is i0 ht, BBox.normal]
  rw [far px (q := smallBox.min.x) iB (by norm_num [abs_le]) (by norm_num [le_abs]),
    far px (q := smallBox.max.x) iA (by norm_num [abs_le]) (by norm_num [le_abs]),
    far py (q := smallBox.min.y) iB (by norm_num [abs_le]) (by norm_num [le_abs]),
    far py (q := smallBox.max.y) iA (by norm_num [abs_le]) (by norm_num [le_abs]),
    far pz (q := smallBox.min.z) iB (by norm_num [abs_le]) (by norm_num [le_abs]),
    far pz (q := smallBox.max.z) iA (by norm_num [abs_le]) (by norm_num [le_abs])]
  norm_num

/-- **C85, violated by rounding.** A box of side 0.2, seen from a distance of `2^29` (and by nothing else): the point where
the ray enters, as computed, is not within the tolerance of any face, and the program panics. -/
theorem C85_violated_box {S : Type} (m : Mat Flo) (rng : Rng Flo S) (f : Field) (c : Ctx Flo S) (h0 : c.depth = 0) :
    (⟨[], [.boxWithBounds (some m) ⟨lit (-1 / 10), lit (-1 / 10), lit (-1 / 10)⟩ ⟨lit (1 / 10), lit (1 / 10), lit (1 / 10)⟩],
      [], 5⟩ : Scene Flo).lightField rng 5 f ⟨⟨lit 0, lit 0, lit (-2 ^ 29)⟩, ⟨lit 0, lit 0, lit 1⟩⟩ c =
        .error (.msg "box.normal") := by
  rw [show (Obj.boxWithBounds (some m) ⟨lit (-1 / 10), lit (-1 / 10), lit (-1 / 10)⟩ ⟨lit (1 / 10), lit (1 / 10), lit (1 / 10)⟩ :
    Obj Flo (Mat Flo)) = .box smallBox (some m) from rfl,
    show (⟨⟨lit 0, lit 0, lit (-2 ^ 29)⟩, ⟨lit 0, lit 0, lit 1⟩⟩ : Ray Flo) = farRay from rfl]
  exact single_box (far_box (some m)) rng f c h0

end BR
