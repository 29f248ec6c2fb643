import Verif.Spec.Front
import Verif.Model.Api
import Verif.Lemmas.GoM
import Verif.Num.Ext
import Verif.Props.C56_Defaults
import Verif.Lemmas.ExtShade
import Verif.Lemmas.BallErr
import Verif.Props.C25_Quadric
import Verif.Lemmas.ExtQuadric

/-! C90: the debug views show how surfaces face the viewer. -/

namespace BR
set_option linter.unusedSectionVars false

section
variable {F S : Type} [Add F] [Sub F] [Mul F] [Div F] [Neg F] [GoFloat F] [CmpModel F]

theorem met_skip {os ls : List (Obj F (Mat F))} {r : Ray F} {front : HitRecord F (Mat F)}
    (h : ∀ x ∈ os, ∃ y, x.intersect r = .ok (y, r) ∧ ((lit 0 <. y.t) = true → (y.t <=. front.t) = false)) :
    intersectLoop (os ++ ls) front r = intersectLoop ls front r := by
  induction os with
  | nil => rfl
  | cons x xs ih =>
    obtain ⟨y, e, hy⟩ := h x (List.mem_cons_self ..)
    rw [List.cons_append, intersectLoop, e, ok_bind]
    dsimp only
    rw [if_neg (by
      rw [Bool.and_eq_true]
      rintro ⟨h1, h2⟩
      rw [hy h1] at h2
      exact absurd h2 (by decide))]
    exact ih fun x hx => h x (List.mem_cons_of_mem _ hx)

theorem firstMet_front {os : List (Obj F (Mat F))} {r : Ray F} {o : Obj F (Mat F)} {h : HitRecord F (Mat F)}
    (hf : FirstMet os r o h) : intersectFrontmost os r = .ok (h, r) := by
  obtain ⟨pre, post, rfl, eo, h0, hi, hpre, hpost⟩ := hf
  have main : ∀ (front : HitRecord F (Mat F)), (h.t <=. front.t) = true → intersectLoop (pre ++ o :: post) front r = .ok (h, r) := by
    induction pre with
    | nil =>
      intro front hl
      rw [List.nil_append, intersectLoop, eo, ok_bind]
      dsimp only
      rw [if_pos (by rw [Bool.and_eq_true]; exact ⟨h0, hl⟩)]
      have := met_skip (ls := []) hpost
      rw [List.append_nil] at this
      rw [this]
      rfl
    | cons x xs ih =>
      intro front hl
      obtain ⟨y, e, hy⟩ := hpre x (List.mem_cons_self ..)
      rw [List.cons_append, intersectLoop, e, ok_bind]
      dsimp only
      apply ih fun x hx => hpre x (List.mem_cons_of_mem _ hx)
      split
      · next hc =>
        rw [Bool.and_eq_true] at hc
        have hn := hy hc.1
        obtain ⟨a, b, -, hb, -⟩ := (CmpModel.lt_iff _ _).1 hc.1
        obtain ⟨c, d, hc', hd, -⟩ := (CmpModel.le_iff _ _).1 hl
        refine (CmpModel.le_iff _ _).2 ⟨c, b, hc', hb, not_lt.1 fun hlt => ?_⟩
        rw [(CmpModel.lt_iff _ _).2 ⟨b, c, hb, hc', hlt⟩] at hn
        exact absurd hn (by decide)
      · exact hl
  exact main _ hi

theorem noneMet_front {os : List (Obj F (Mat F))} {r : Ray F} (h : NoneMet os r) : intersectFrontmost os r = .ok (frontDefault r, r) := by
  have := met_skip (os := os) (ls := []) (front := frontDefault r) (r := r) fun x hx => by
    obtain ⟨y, e, hy⟩ := h x hx
    exact ⟨y, e, fun h1 => by rw [hy] at h1; exact absurd h1 (by decide)⟩
  rw [List.append_nil] at this
  rw [intersectFrontmost, this]
  rfl

/-- The material that an object is given in a debug view. -/
def givenMat (m : Mat F) (o : Obj F (Mat F)) : Mat F := if o.isBackdrop then .flat (Color.black : Color F).tex else m

theorem given_eq (m : Mat F) (o : Obj F (Mat F)) : applyMaterialTo m o = .withMaterial (some (givenMat m o)) o := by
  unfold applyMaterialTo givenMat
  split <;> rfl

theorem given_hit (m : Mat F) {o : Obj F (Mat F)} {r : Ray F} {h : HitRecord F (Mat F)} (e : o.intersect r = .ok (h, r)) :
    (applyMaterialTo m o).intersect r = .ok (⟨h.t, h.normal, h.loc, some (givenMat m o)⟩, r) := by
  rw [given_eq, Obj.intersect, e]
  rfl

theorem firstMet_debug (m : Mat F) {os ls : List (Obj F (Mat F))} {r : Ray F} {o : Obj F (Mat F)} {h : HitRecord F (Mat F)}
    (hf : FirstMet os r o h) (hl : NoneMet ls r) :
    FirstMet (os.map (applyMaterialTo m) ++ ls) r (applyMaterialTo m o) ⟨h.t, h.normal, h.loc, some (givenMat m o)⟩ := by
  obtain ⟨pre, post, rfl, eo, h0, hi, hpre, hpost⟩ := hf
  refine ⟨pre.map (applyMaterialTo m), post.map (applyMaterialTo m) ++ ls, ?_, given_hit m eo, h0, hi, ?_, ?_⟩
  · simp only [List.map_append, List.map_cons, List.append_assoc, List.cons_append]
  · intro x hx
    obtain ⟨x, hx', rfl⟩ := List.mem_map.1 hx
    obtain ⟨y, e, hy⟩ := hpre x hx'
    exact ⟨_, given_hit m e, hy⟩
  · intro x hx
    rcases List.mem_append.1 hx with hx | hx
    · obtain ⟨x, hx', rfl⟩ := List.mem_map.1 hx
      obtain ⟨y, e, hy⟩ := hpost x hx'
      exact ⟨_, given_hit m e, hy⟩
    · obtain ⟨y, e, hy⟩ := hl x hx
      exact ⟨y, e, fun h1 => by rw [hy] at h1; exact absurd h1 (by decide)⟩

theorem noneMet_debug (m : Mat F) {os ls : List (Obj F (Mat F))} {r : Ray F} (hf : NoneMet os r) (hl : NoneMet ls r) :
    NoneMet (os.map (applyMaterialTo m) ++ ls) r := by
  intro x hx
  rcases List.mem_append.1 hx with hx | hx
  · obtain ⟨x, hx', rfl⟩ := List.mem_map.1 hx
    obtain ⟨y, e, hy⟩ := hf x hx'
    exact ⟨_, given_hit m e, hy⟩
  · exact hl x hx

/-- **C90.** With `DebugNormals = 1` the picture shows the same surfaces as the scene. A surface is white where it faces the
viewer, the darker the more it is turned away, and red, the brighter the more it is turned, where its normal points away
from the viewer. Backdrops, and places where nothing is, are black. Materials (also missing ones), lamps and media have no
influence. The ray must be normalised, as are those of the cameras: otherwise the debug view panics. -/
theorem C90_normals (s s' : Spec F) (hd : s.debugNormals = 1) (e : s.initDefaults = .ok s') (hrec : 0 ≤ s.recursion) (rng : Rng F S)
    (r : Ray F) (hl : NoneMet (s.lights.map Light.object) r) (c : Ctx F S) (h0 : c.depth = 0) :
    (∀ o h, FirstMet s.objects r o h → o.isBackdrop = false →
      s'.scene.lightField rng s'.scene.recursionDepth.toNat .direct r c =
        let cosine := h.normal.normalized.dot r.dir
        if (GoFloat.abs (lit 1 - r.dir.len) >. lit (1 / 1024)) = true then .error (.msg "BUG: unnormalized ray dir")
        else if (cosine <. lit 0) = true then .ok (⟨-cosine * lit 1, -cosine * lit 1, -cosine * lit 1⟩, c)
        else .ok (⟨cosine * lit 1, cosine * lit 0, cosine * lit 0⟩, c)) ∧
    (∀ o h, FirstMet s.objects r o h → o.isBackdrop = true →
      s'.scene.lightField rng s'.scene.recursionDepth.toNat .direct r c = .ok (⟨lit 0, lit 0, lit 0⟩, c)) ∧
    (NoneMet s.objects r → s'.scene.lightField rng s'.scene.recursionDepth.toNat .direct r c = .ok (⟨lit 0, lit 0, lit 0⟩, c)) := by
  obtain ⟨el, -, -, -, -, er, -, -, eo, em, -⟩ := initDefaults_eq s s' e
  rw [if_neg (by rw [hd]; decide)] at er
  rw [if_pos hd] at eo
  rw [if_pos (.inl hd)] at em
  have hpos : 0 < s'.recursion := by rw [er]; split <;> omega
  obtain ⟨n, hn⟩ : ∃ n, s'.scene.recursionDepth.toNat = n + 1 := ⟨s'.recursion.toNat - 1, by
    change s'.recursion.toNat = _
    omega⟩
  have hne : ¬s'.scene.recursionDepth = c.depth := by
    rw [h0]
    change ¬s'.recursion = 0
    omega
  have hseen : s'.scene.seen .direct = s.objects.map (applyMaterialTo debugNormal) ++ s.lights.map Light.object := by
    change s'.objects ++ s'.lights.map Light.object = _
    rw [eo, el]
  have hmed : s'.scene.media = [] := em
  have hc : ∀ {d : Int}, d = 0 + 1 → ({ c with depth := d - 1 } : Ctx F S) = c := by
    rintro d rfl
    cases c
    cases h0
    rfl
  have main : ∀ front, intersectFrontmost (s'.scene.seen .direct) r = .ok (front, r) → ∀ f : Ray F → HitCoords F → GoM (Color F),
      (∃ m, front.mat = some m ∧ ∀ lf (h : HitCoords F) c', m.shade rng s'.scene lf r h c' = (f r h >>= fun a => .ok (a, c'))) →
      s'.scene.lightField rng (n + 1) .direct r c =
        (f r ⟨front.t, front.normal.normalized, front.loc⟩ >>= fun a => .ok (a, c)) := by
    rintro front ef f ⟨m, hm, hk⟩
    unfold Scene.lightField
    rw [Scene.lightFieldFrom, if_neg hne]
    dsimp only
    rw [ef, ok_bind]
    dsimp only
    unfold shadeFront
    rw [hm, hmed]
    dsimp only
    rw [hk]
    cases f r ⟨front.t, front.normal.normalized, front.loc⟩ with
    | error x => rfl
    | ok a =>
      rw [ok_bind, ok_bind, ok_bind]
      dsimp only [mediaLoop]
      rw [ok_bind]
      dsimp only
      rw [hc (by rw [h0])]
      rfl
  rw [hn]
  refine ⟨fun o h hf hb => ?_, fun o h hf hb => ?_, fun hf => ?_⟩
  · have := firstMet_front (firstMet_debug (debugNormal : Mat F) hf hl)
    rw [← hseen] at this
    rw [main _ this (fun r h => do
      checkRay r
      let v := h.normal.dot r.dir
      return if v <. lit 0 then (Color.white : Color F).mul (-v) else (⟨lit 1, lit 0, lit 0⟩ : Color F).mul v)
      ⟨debugNormal, by rw [givenMat, hb]; rfl, fun lf h c' => rfl⟩]
    dsimp only
    unfold checkRay
    split
    · rfl
    · rw [ok_bind]
      by_cases hv : (h.normal.normalized.dot r.dir <. lit 0) = true
      · rw [if_pos hv, if_pos hv]
        rfl
      · rw [if_neg hv, if_neg hv]
        rfl
  · have := firstMet_front (firstMet_debug (debugNormal : Mat F) hf hl)
    rw [← hseen] at this
    rw [main _ this (fun r h => .ok Color.black) ⟨.flat (Color.black : Color F).tex, by rw [givenMat, hb]; rfl, fun lf h c' => rfl⟩]
    rfl
  · have := noneMet_front (noneMet_debug (debugNormal : Mat F) hf hl)
    rw [← hseen] at this
    rw [main _ this (fun r h => .ok Color.black) ⟨.black, rfl, fun lf h c' => rfl⟩]
    rfl

end

section
variable {S : Type}

theorem unit_dot_le {n d : Vec ℝ} (hn : n ≠ ⟨0, 0, 0⟩) (hd : d.dot d = 1) : |(unitVec n).dot d| ≤ 1 := by
  have h1 := unitVec_dot hn
  have h2 := Ball.dot_sq_le (unitVec n) d
  refine abs_le_of_sq_le_sq' ?_ zero_le_one |> abs_le.2
  simp only [Vec.dot] at h1 hd ⊢
  nlinarith

theorem unit_checked {r : Ray Ext} {d : Vec ℝ} (hr : r.dir.Is d) (hd : d.dot d = 1) :
    ¬(GoFloat.abs (lit 1 - r.dir.len) >. lit (1 / 1024)) = true := by
  have hl : r.dir.len.Is 1 := by
    have := (hr.dot hr).sqrt (by rw [hd]; norm_num)
    rw [hd, Real.sqrt_one] at this
    exact this
  have h1 := (lit1_is.sub hl).abs
  rw [show (GoFloat.abs (lit 1 - r.dir.len) >. lit (1 / 1024)) = (lit (1 / 1024) <. GoFloat.abs (lit 1 - r.dir.len)) from rfl,
    (Ext.Is.lit (1 / 1024)).lt h1]
  norm_num

/-- **C90.** In numbers: with `cosine` the cosine of the angle between the normal and the line of sight, a front side is
shown in the grey `-cosine`, between 0 and 1, a back side in the red `cosine`, between 0 and 1. -/
theorem C90_shades (s s' : Spec Ext) (hd : s.debugNormals = 1) (e : s.initDefaults = .ok s') (hrec : 0 ≤ s.recursion)
    (rng : Rng Ext S) (r : Ray Ext) (hl : NoneMet (s.lights.map Light.object) r) (c : Ctx Ext S) (h0 : c.depth = 0)
    (o : Obj Ext (Mat Ext)) (h : HitRecord Ext (Mat Ext)) (hf : FirstMet s.objects r o h) (hb : o.isBackdrop = false)
    (n d : Vec ℝ) (hn : h.normal.Is n) (hn0 : n ≠ ⟨0, 0, 0⟩) (hr : r.dir.Is d) (hd1 : d.dot d = 1) :
    ∃ col, s'.scene.lightField rng s'.scene.recursionDepth.toNat .direct r c = .ok (col, c) ∧
      let cosine := (unitVec n).dot d
      |cosine| ≤ 1 ∧ (cosine < 0 → col.Is ⟨-cosine, -cosine, -cosine⟩) ∧ (0 ≤ cosine → col.Is ⟨cosine, 0, 0⟩) := by
  have main := (C90_normals s s' hd e hrec rng r hl c h0).1 o h hf hb
  have hc : (h.normal.normalized.dot r.dir).Is ((unitVec n).dot d) := (hn.normalized hn0).dot hr
  dsimp only at main
  rw [if_neg (unit_checked hr hd1), hc.lt lit0_is] at main
  by_cases hneg : (unitVec n).dot d < 0
  · rw [if_pos (decide_eq_true hneg)] at main
    refine ⟨_, main, unit_dot_le hn0 hd1, fun _ => ?_, fun h => absurd hneg (not_lt.2 h)⟩
    have := Ext.Is.of_eq (hc.neg.mul lit1_is) (mul_one _)
    exact ⟨this, this, this⟩
  · rw [if_neg (by simpa using hneg)] at main
    refine ⟨_, main, unit_dot_le hn0 hd1, fun h => absurd h hneg, fun _ => ?_⟩
    exact ⟨Ext.Is.of_eq (hc.mul lit1_is) (mul_one _), Ext.Is.of_eq (hc.mul lit0_is) (mul_zero _),
      Ext.Is.of_eq (hc.mul lit0_is) (mul_zero _)⟩

/-- **C90.** With `DebugNormals = 2` one looks through the surfaces: each shows, with weight 0.3, a grey between 0.5 and 1,
the brighter the more it is turned to the viewer (whichever side is seen), and with weight 0.7 what is behind it. -/
theorem C90_through (s s' : Spec Ext) (hd : s.debugNormals = 2) (e : s.initDefaults = .ok s')
    (rng : Rng Ext S) (fld : Field) (r : Ray Ext) (hl : NoneMet (s.lights.map Light.object) r) (c : Ctx Ext S) (hc : c.depth ≠ 20)
    (o : Obj Ext (Mat Ext)) (h : HitRecord Ext (Mat Ext)) (hf : FirstMet s.objects r o h) (hb : o.isBackdrop = false)
    (n d : Vec ℝ) (hn : h.normal.Is n) (hn0 : n ≠ ⟨0, 0, 0⟩) (hr : r.dir.Is d) (hd1 : d.dot d = 1)
    (fuel : Nat) (behind : Color Ext) (B : Color ℝ) (hB : behind.Is B) (c2 : Ctx Ext S)
    (eb : s'.scene.lightField rng fuel .indirect ⟨r.at (h.t + tiny), r.dir⟩ ({ c with depth := c.depth + 1 } : Ctx Ext S).takeRay.2 =
      .ok (behind, c2)) :
    ∃ col c', s'.scene.lightField rng (fuel + 1) fld r c = .ok (col, c') ∧ c'.depth = c2.depth - 1 ∧
      let shade := 3 / 10 * (1 / 2 + 1 / 2 * |(unitVec n).dot d|)
      col.Is ⟨shade + 7 / 10 * B.R, shade + 7 / 10 * B.G, shade + 7 / 10 * B.B⟩ := by
  obtain ⟨el, -, -, -, -, er, -, -, eo, em, -⟩ := initDefaults_eq s s' e
  rw [if_pos hd] at er
  rw [if_neg (by rw [hd]; decide), if_pos hd] at eo
  rw [if_pos (.inr hd)] at em
  have hne : ¬s'.scene.recursionDepth = c.depth := by
    change ¬s'.recursion = c.depth
    rw [er]
    exact fun h => hc h.symm
  have hmed : s'.scene.media = [] := em
  have hl' : ∀ f : Light Ext → Obj Ext (Mat Ext), (∀ l ∈ s.lights, ∀ y, l.object.intersect r = .ok (y, r) →
      ∃ y', (f l).intersect r = .ok (y', r) ∧ y'.t = y.t) → NoneMet (s.lights.map f) r := by
    intro f hfl x hx
    obtain ⟨l, hm, rfl⟩ := List.mem_map.1 hx
    obtain ⟨y, ey, hy⟩ := hl _ (List.mem_map.2 ⟨l, hm, rfl⟩)
    obtain ⟨y', e1, e2⟩ := hfl l hm y ey
    exact ⟨y', e1, by rw [e2]; exact hy⟩
  have hfront : intersectFrontmost (s'.scene.seen fld) r = .ok (⟨h.t, h.normal, h.loc, some debugBlend⟩, r) := by
    have hg : givenMat debugBlend o = debugBlend := by rw [givenMat, hb]; rfl
    cases fld with
    | direct =>
      have := firstMet_front (firstMet_debug debugBlend hf hl)
      rw [hg] at this
      change intersectFrontmost (s'.objects ++ s'.lights.map Light.object) r = _
      rw [eo, el]
      exact this
    | indirect =>
      have := firstMet_front (firstMet_debug debugBlend hf (hl' (fun l => .withMaterial (some .black) l.object) fun l _ y ey =>
        ⟨⟨y.t, y.normal, y.loc, some .black⟩, by rw [Obj.intersect, ey]; rfl, rfl⟩))
      rw [hg] at this
      change intersectFrontmost (s'.objects ++ s'.lights.map fun l => Obj.withMaterial (some .black) l.object) r = _
      rw [eo, el]
      exact this
  have hcos : (h.normal.normalized.dot r.dir).Is ((unitVec n).dot d) := (hn.normalized hn0).dot hr
  unfold Scene.lightField at eb ⊢
  rw [Scene.lightFieldFrom, if_neg hne]
  dsimp only
  rw [hfront, ok_bind]
  dsimp only
  unfold shadeFront
  dsimp only
  rw [hmed]
  have hv : ∃ v : Ext, v.Is |(unitVec n).dot d| ∧
      (if h.normal.normalized.dot r.dir <. lit 0 then h.normal.normalized.dot r.dir * lit (-1) else h.normal.normalized.dot r.dir) = v := by
    refine ⟨_, ?_, rfl⟩
    rw [hcos.lt lit0_is]
    by_cases hneg : (unitVec n).dot d < 0
    · rw [if_pos (decide_eq_true hneg), abs_of_neg hneg]
      exact Ext.Is.of_eq (hcos.mul (Ext.Is.lit (-1))) (by push_cast; ring)
    · rw [if_neg (by simpa using hneg), abs_of_nonneg (not_lt.1 hneg)]
      exact hcos
  obtain ⟨v, hv, ev⟩ := hv
  have eshade : Mat.shade rng s'.scene (s'.scene.lightFieldFrom rng (fun _ _ _ => .error .diverge) fuel) debugBlend r
      ⟨h.t, h.normal.normalized, h.loc⟩ { c with depth := c.depth + 1 } =
      .ok (((((Color.gray (lit (1 / 2))).mul v).add (Color.gray (lit (1 / 2)))).mul (lit (3 / 10))).madd (lit (7 / 10))
        (behind.mul3 Color.white), c2.putRay ({ c with depth := c.depth + 1 } : Ctx Ext S).takeRay.1) := by
    have eA : ∀ lf c', Mat.shade rng s'.scene lf debugNormal2 r ⟨h.t, h.normal.normalized, h.loc⟩ c' =
        .ok (((Color.gray (lit (1 / 2))).mul v).add (Color.gray (lit (1 / 2))), c') := by
      intro lf c'
      unfold debugNormal2
      rw [Mat.shade]
      unfold checkRay
      rw [if_neg (unit_checked hr hd1), ok_bind]
      dsimp only
      rw [ev]
      rfl
    have eB : Mat.shade rng s'.scene (s'.scene.lightFieldFrom rng (fun _ _ _ => .error .diverge) fuel)
        (.transparent (Color.white : Color Ext).tex true) r ⟨h.t, h.normal.normalized, h.loc⟩ { c with depth := c.depth + 1 } =
        .ok (behind.mul3 Color.white, c2.putRay ({ c with depth := c.depth + 1 } : Ctx Ext S).takeRay.1) := by
      rw [Mat.shade]
      dsimp only
      rw [eb, ok_bind]
      rfl
    unfold debugBlend
    rw [Mat.shade, eA, ok_bind]
    dsimp only
    rw [eB, ok_bind]
    rfl
  rw [eshade, ok_bind]
  dsimp only [mediaLoop]
  rw [ok_bind]
  refine ⟨_, _, rfl, rfl, ?_⟩
  have half := Ext.Is.lit (1 / 2)
  have hgray : (Color.gray (lit (1 / 2)) : Color Ext).Is ⟨_, _, _⟩ := ⟨half, half, half⟩
  have g := ((hgray.mul hv).add hgray).mul (Ext.Is.lit (3 / 10))
  have hwhite : (Color.white : Color Ext).Is ⟨_, _, _⟩ := ⟨lit1_is, lit1_is, lit1_is⟩
  have w := hB.mul3 hwhite
  refine (g.madd (Ext.Is.lit (7 / 10)) w).of_eq ?_
  push_cast
  simp only [Color.mk.injEq]
  refine ⟨?_, ?_, ?_⟩ <;> ring

end

/-! ## Examples -/

/-- A ball of diameter 2 without a material, five in front of the viewer. -/
noncomputable def bareBall : Obj Ext (Mat Ext) := Obj.sphere none (lit 2) ⟨lit 0, lit 0, lit (-5)⟩

/-- Looking straight ahead. -/
noncomputable def ahead : Ray Ext := ⟨⟨lit 0, lit 0, lit 0⟩, ⟨lit 0, lit 0, lit (-1)⟩⟩

theorem bareBall_met : ∃ h, FirstMet [bareBall] ahead bareBall h ∧ h.normal.Is ⟨0, 0, 1⟩ ∧ h.t.Is 4 := by
  have hm : (lit (-1) : Ext).Is (-1) := by simpa using Ext.Is.lit (-1)
  have h2 : (lit 2 : Ext).Is 2 := by simpa using Ext.Is.lit 2
  have hc : (⟨lit 0, lit 0, lit (-5)⟩ : Vec Ext).Is ⟨0, 0, -5⟩ := ⟨lit0_is, lit0_is, by simpa using Ext.Is.lit (-5)⟩
  have hR : ahead.Is ⟨⟨0, 0, 0⟩, ⟨0, 0, -1⟩⟩ := ⟨⟨lit0_is, lit0_is, lit0_is⟩, lit0_is, lit0_is, hm⟩
  have hQ : (Obj.sphereQ (none : Option (Mat Ext)) (lit 2) ⟨lit 0, lit 0, lit (-5)⟩).Is (Obj.sphereQ none 2 ⟨0, 0, -5⟩) := by
    have two : (lit 2 : Ext).Is (lit 2 : ℝ) := Ext.Is.lit 2
    have r := h2.div two (by norm_num)
    have one : (lit 1 : Ext).Is (lit 1 : ℝ) := Ext.Is.lit 1
    have t : (tiny : Ext).Is tiny := Ext.Is.lit _
    exact ⟨hc, ⟨one, one, one⟩, r.mul r, ⟨(Vec.Is.add ⟨r.neg, r.neg, r.neg⟩ hc).add ⟨t.neg, t.neg, t.neg⟩,
      (Vec.Is.add ⟨r, r, r⟩ hc).add ⟨t, t, t⟩⟩, rfl⟩
  have hlead : (Obj.sphereQ (none : Option (Mat Ext)) (2 : ℝ) ⟨0, 0, -5⟩).lead ⟨0, 0, -1⟩ ≠ 0 := by
    simp only [Quadric.lead, Obj.sphereQ, lit_real]
    norm_num
  have on : ∀ T : ℝ, AtDistance ((⟨⟨0, 0, 0⟩, ⟨0, 0, -1⟩⟩ : Ray ℝ).at T) ⟨0, 0, -5⟩ (2 / 2) ↔ (5 - T) ^ 2 = 1 := by
    intro T
    simp only [AtDistance, geo]
    constructor
    · rintro ⟨h, -⟩; nlinarith
    · intro h; exact ⟨by nlinarith, by norm_num⟩
  have hhit := C25_sphere (none : Option (Mat Ext)) 2 ⟨0, 0, -5⟩ (by norm_num) ⟨⟨0, 0, 0⟩, ⟨0, 0, -1⟩⟩ (by simp [Vec.zero])
  have h4 : (Obj.sphereQ (none : Option (Mat Ext)) (2 : ℝ) ⟨0, 0, -5⟩).hit ⟨⟨0, 0, 0⟩, ⟨0, 0, -1⟩⟩ =
      ⟨4, ⟨0, 0, 1⟩, ⟨0, 0, 1⟩, none⟩ := by
    rcases hhit with ⟨t, ⟨⟨ht, hon⟩, hmin⟩, e⟩ | ⟨h, -⟩
    · have h1 := (on t).1 hon
      have h2 := hmin 4 (by norm_num) ((on 4).2 (by norm_num))
      obtain rfl : t = 4 := by nlinarith
      rw [e]
      simp only [geo, HitRecord.mk.injEq, Vec.mk.injEq]
      norm_num
    · exact absurd ((on 4).2 (by norm_num)) (h 4 (by norm_num))
  rcases quadric_follows hQ hR hlead with ⟨-, h⟩ | ⟨t, T, ht, e1, e2⟩
  · rw [h4] at h
    have := congrArg (fun x => x.t) h
    simp [HitRecord.miss] at this
  · rw [h4] at e2
    have hT : T = 4 := (congrArg (fun x => x.t) e2).symm
    subst hT
    refine ⟨(Obj.sphereQ none (lit 2) ⟨lit 0, lit 0, lit (-5)⟩).record ahead t, ⟨[], [], rfl, ?_, ?_, ?_, ?_, ?_⟩, ?_, ht⟩
    · unfold bareBall Obj.sphere
      rw [Obj.intersect, e1]
    · change (lit 0 <. t) = true
      rw [lit0_is.lt ht]
      norm_num
    · obtain ⟨s, rfl⟩ := ht
      change ((Ext.num 4 s) <=. Ext.inf false) = true
      simp
    · intro x hx; cases hx
    · intro x hx; cases hx
    · have := hQ.2.1
      have hp := (hR.at ht).sub hc
      have one : (lit 1 : Ext).Is 1 := lit1_is
      refine ⟨Ext.Is.of_eq (one.mul hp.1) ?_, Ext.Is.of_eq (one.mul hp.2.1) ?_, Ext.Is.of_eq (one.mul hp.2.2) ?_⟩ <;>
        simp only [geo] <;> norm_num

/-- The ball, although it has no material, is shown in the debug view: white in the middle. -/
example {S : Type} (cam : Cam Ext) (rng : Rng Ext S) (c : Ctx Ext S) (h0 : c.depth = 0) :
    ∃ s', (⟨[], [bareBall], [], some cam, 0, 0, 0, 0, 1, lit 0, 0⟩ : Spec Ext).initDefaults = .ok s' ∧
      ∃ col, s'.scene.lightField rng s'.scene.recursionDepth.toNat .direct ahead c = .ok (col, c) ∧ col.Is ⟨1, 1, 1⟩ := by
  have hdef : ∃ s', (⟨[], [bareBall], [], some cam, 0, 0, 0, 0, 1, lit 0, 0⟩ : Spec Ext).initDefaults = .ok s' := by
    unfold Spec.initDefaults Spec.defaultCamera
    dsimp only
    rw [pure_bind']
    unfold Spec.applyDebugNormals
    dsimp only
    rw [if_pos rfl]
    unfold Spec.applyIsometric Spec.applyMaterial
    dsimp only
    rw [if_pos (by simp), ok_bind]
    exact ⟨_, rfl⟩
  obtain ⟨s', e⟩ := hdef
  refine ⟨s', e, ?_⟩
  obtain ⟨h, hf, hn, ht⟩ := bareBall_met
  have hm : (lit (-1) : Ext).Is (-1) := by simpa using Ext.Is.lit (-1)
  obtain ⟨col, el, -, hneg, -⟩ := C90_shades _ s' rfl e le_rfl rng ahead (fun x hx => by cases hx) c h0 bareBall h hf rfl ⟨0, 0, 1⟩
    ⟨0, 0, -1⟩ hn (by simp) ⟨lit0_is, lit0_is, hm⟩ (by simp [Vec.dot])
  have hcos : (unitVec ⟨0, 0, 1⟩).dot ⟨0, 0, -1⟩ = -1 := by simp [unitVec, Vec.dot, Vec.mul]
  rw [hcos] at hneg
  exact ⟨col, el, (hneg (by norm_num)).of_eq (by norm_num)⟩

end BR
