import Verif.Spec.Brighter
import Verif.Lemmas.MapMat
import Verif.Lemmas.Mesh
import Verif.Num.Ext
import Verif.Model.Sampler
import Mathlib.Tactic.Ring
import Mathlib.Tactic.NormNum

/-! C72: multiplying all light of a scene by a factor multiplies the image by that factor. The theorems hold for every
arithmetic in which the factor passes through sums and products (`Factor`); that is so for exact numbers with infinities,
NaN and signed zeros, and every positive factor. -/

namespace BR
set_option linter.unusedSectionVars false

variable {F S : Type} [Add F] [Sub F] [Mul F] [Div F] [Neg F] [GoFloat F] {k : F}

namespace Brightness

/-- The change of the scene. -/
def sym (hk : Factor k) : Sym F where
  mvp p := p
  hgt h := h
  col c := c.mul k
  ok _ := True
  ok_madd _ _ _ _ := trivial
  madd _ _ _ _ := rfl
  sub _ _ _ _ := rfl
  fog _ _ _ := rfl
  mul c s := by simp only [Color.mul, hk.mul_left]
  mul3 c b := by simp only [Color.mul, Color.mul3, hk.mul_right]
  add c b := by simp only [Color.mul, Color.add, hk.add]
  black := by simp only [Color.mul, Color.black, hk.zero]
  isZero c := by simp only [Color.mul, Color.isZero, hk.isZero]

theorem sym_mv (hk : Factor k) (r : Ray F) : (sym hk).mv r = r := rfl

theorem sym_mat (hk : Factor k) (m : Mat F) : (sym hk).mat m = m.brighter k := by
  induction m <;> simp only [Sym.mat, Mat.brighter, *] <;> rfl

theorem sym_free (hk : Factor k) (m : Mat F) : (sym hk).Free m := by
  induction m with
  | reflectFresnel n u ih => exact ih
  | twoSided a b iha ihb => exact ⟨iha, ihb⟩
  | blend _ a _ b iha ihb => exact ⟨iha, ihb⟩
  | blendMap _ a b iha ihb => exact ⟨iha, ihb⟩
  | func f => exact fun r h => rfl
  | _ => trivial

theorem sym_medium (hk : Factor k) (m : Medium F) : (sym hk).medium m = m.brighter k := by cases m <;> rfl

mutual

theorem allMat {M : Type} {Q : M → Prop} (h : ∀ m, Q m) (o : Obj F M) : o.AllMat Q := by
  cases o with
  | bounded b o => simp only [Obj.AllMat]; exact allMat h o
  | tree root => simp only [Obj.AllMat]; exact allMat_node h root
  | transformed b f i o => simp only [Obj.AllMat]; exact allMat h o
  | and a b => simp only [Obj.AllMat]; exact ⟨allMat h a, allMat h b⟩
  | or a b => simp only [Obj.AllMat]; exact ⟨allMat h a, allMat h b⟩
  | restrict a b => simp only [Obj.AllMat]; exact allMat h a
  | not o => simp only [Obj.AllMat]; exact allMat h o
  | hollow o => simp only [Obj.AllMat]; exact allMat h o
  | remapped o f => simp only [Obj.AllMat]; exact allMat h o
  | prim => simp only [Obj.AllMat]; exact fun _ _ _ x _ => h x
  | face => simp only [Obj.AllMat]
  | allSpace => simp only [Obj.AllMat]
  | _ => simp only [Obj.AllMat]; exact fun x _ => h x

theorem allMat_node {M : Type} {Q : M → Prop} (h : ∀ m, Q m) (n : Node F M) : n.AllMat Q := by
  cases n with
  | leaf bb os => simp only [Node.AllMat]; exact allMat_list h os
  | inner bb a b => simp only [Node.AllMat]; exact ⟨allMat_node h a, allMat_node h b⟩

theorem allMat_list {M : Type} {Q : M → Prop} (h : ∀ m, Q m) (os : List (Obj F M)) : Obj.AllMatList Q os := by
  cases os with
  | nil => simp only [Obj.AllMatList]
  | cons o os => simp only [Obj.AllMatList]; exact ⟨allMat h o, allMat_list h os⟩

end

theorem objs (hk : Factor k) (o : Obj F (Mat F)) : (sym hk).Objs o (o.mapMat (Mat.brighter k)) := by
  intro r _
  rw [sym_mv, Obj.mapMat, Obj.intersect_mapOpt _ rfl o r]
  refine congrArg (fun f => (o.intersect r).map f) (funext fun a => ?_)
  have e : (sym hk).mat = Mat.brighter k := funext (sym_mat hk)
  simp only [Sym.hit, HitRecord.mapOpt, sym_mv, e]

theorem light_sample (hk : Factor k) (rng : Rng F S) (l : Light F) (p : Vec F) (c : Ctx F S) :
    (l.brighter k).sample rng p c = (l.sample rng p c).map fun a => ((a.1.1, a.1.2.mul k), a.2) := by
  induction l generalizing p with
  | point pos power =>
    simp only [Light.brighter, Light.sample, map_ok']
    rw [show ∀ (a : Color F) s, (a.mul k).mul s = (a.mul s).mul k from (sym hk).mul]
  | planar w h center tp o tr =>
    simp only [Light.brighter, Light.sample]
    rw [map_bind']
    refine bind_congr_ok rfl ?_
    rintro ⟨uv, c1⟩ -
    dsimp only
    rw [show ∀ (a : Color F) s, (a.mul k).mul s = (a.mul s).mul k from (sym hk).mul]; rfl
  | transformed f i l o ih =>
    simp only [Light.brighter, Light.sample]
    exact map_bind_congr (ih _) (fun a _ => rfl)

theorem light_object (hk : Factor k) (l : Light F) : (sym hk).Objs l.object (l.brighter k).object := by
  cases l with
  | point pos power =>
    intro r _
    rw [sym_mv]
    simp only [Light.brighter, Light.object, Obj.intersect]
    rfl
  | planar w h c tp o tr => exact objs hk o
  | transformed f i l o => exact objs hk o

theorem scenes (hk : Factor k) (rng : Rng F S) (s : Scene F) : (sym hk).Scenes rng s (s.brighter k) := by
  refine Sym.scenes ?_ ?_ (fun o _ => allMat (sym_free hk) o) (fun l _ => allMat (sym_free hk) _) ?_ rfl
  · refine List.forall₂_map_right_iff.2 (List.forall₂_same.2 fun o _ => objs hk o)
  · refine List.forall₂_map_right_iff.2 (List.forall₂_same.2 fun l _ => ⟨fun p c _ => ⟨light_sample hk rng l p c, fun _ _ => trivial⟩,
      light_object hk l⟩)
  · simp only [Scene.brighter]
    exact List.map_congr_left fun m _ => (sym_medium hk m).symm

end Brightness

open Brightness

/-- **C72.** Every ray sees `k` times the light: with the same random numbers, the light field of the brighter scene is
`k` times the light field of the scene, for every depth limit, and one panics if the other does. -/
theorem C72_light_field (hk : Factor k) (rng : Rng F S) (s : Scene F) (fuel : Nat) (f : Field) (r : Ray F) (ctx : Ctx F S) :
    (s.brighter k).lightField rng fuel f r ctx = (s.lightField rng fuel f r ctx).map fun a => (a.1.mul k, a.2) :=
  sim_lightField (scenes hk rng s) fuel f r ctx trivial

/-- **C72.** So does every camera. -/
theorem C72_image (hk : Factor k) (rng : Rng F S) (s : Scene F) (cam : Cam F) (ctx : Ctx F S) (u v : F) :
    (s.brighter k).imageFunc rng cam ctx u v = (s.imageFunc rng cam ctx u v).map fun a => (a.1.mul k, a.2) :=
  sim_imageFunc (scenes hk rng s) cam cam (fun _ _ _ => ⟨rfl, trivial⟩) ctx u v

namespace Brightness

/-- The accumulators after `k` times as bright samples. -/
def cell (k : F) (c : Cell F) : Cell F := ⟨c.n, c.sum.mul k, (c.sumSq.mul k).mul k⟩

theorem push_cell (hk : Factor k) (c : Cell F) (x : Color F) : (cell k c).push (x.mul k) = cell k (c.push x) := by
  have hn : (x.mul k).isNaN = x.isNaN := by simp only [Color.isNaN, Color.mul, hk.isNaN]
  unfold Cell.push
  rw [hn]
  split
  · rfl
  · simp only [cell, Color.mul, Color.add, hk.add, hk.mul_left, hk.mul_right]

theorem pixel (hk : Factor k) (rng : Rng F S) (s : Scene F) (cam : Cam F) (w h : Nat) (aa : Bool) (p : Nat × Nat)
    (passes : Nat) (ctx : Ctx F S) (c : Cell F) :
    samplePixel (ctxShader ((s.brighter k).imageFunc rng cam)) w h aa p passes ctx (cell k c) =
      (samplePixel (ctxShader (s.imageFunc rng cam)) w h aa p passes ctx c).map fun a => (cell k a.1, a.2) := by
  induction passes generalizing ctx c with
  | zero => rfl
  | succ n ih =>
    rw [samplePixel, samplePixel]
    have e : passColor (ctxShader ((s.brighter k).imageFunc rng cam)) w h aa ctx p (cell k c).n =
        (passColor (ctxShader (s.imageFunc rng cam)) w h aa ctx p c.n).map fun a => (a.1.mul k, a.2) := by
      unfold passColor
      rw [map_bind']
      refine bind_congr_ok rfl ?_
      rintro ⟨xi, yi⟩ -
      dsimp only
      rw [map_bind']
      refine bind_congr_ok rfl ?_
      rintro c1 -
      split
      · rw [map_bind']
        refine bind_congr_ok rfl ?_
        rintro ⟨uv, c2⟩ -
        exact C72_image hk rng s cam _ _ _
      · exact C72_image hk rng s cam _ _ _
    refine map_bind_congr e ?_
    rintro ⟨x, c1⟩ -
    dsimp only
    rw [push_cell hk]
    exact ih _ _

end Brightness

/-- **C72.** And so does every pixel of the finished image, after any number of passes. -/
theorem C72_pixel (hk : Factor k) (rng : Rng F S) (s : Scene F) (cam : Cam F) (w h : Nat) (aa : Bool) (p : Nat × Nat)
    (passes : Nat) (ctx : Ctx F S) :
    (samplePixel (ctxShader ((s.brighter k).imageFunc rng cam)) w h aa p passes ctx Cell.zero).map (fun a => (a.1.image, a.2)) =
      (samplePixel (ctxShader (s.imageFunc rng cam)) w h aa p passes ctx Cell.zero).map
        fun a => (a.1.image.mul k, a.2) := by
  have e0 : (Cell.zero : Cell F) = cell k Cell.zero := by
    simp only [Cell.zero, cell, show (Color.black : Color F).mul k = Color.black from (sym hk).black]
  conv_lhs => rw [e0]
  rw [pixel hk, map_map']
  refine congrArg (fun f => Except.map f _) (funext fun a => ?_)
  simp only [cell, Cell.image]
  rw [show ∀ (a : Color F) s, (a.mul k).mul s = (a.mul s).mul k from (sym hk).mul]

/-! The lights made by the library: `k` times the brightness gives the brighter light. -/

theorem C72_point_light (pos : Vec F) (power : Color F) :
    Light.point pos (power.mul k) = (Light.point pos power).brighter k := rfl

namespace Brightness

theorem rectangle_mapMat (g : Mat F → Mat F) (Srt : Sorter (Obj F (Mat F))) (m : Option (Mat F)) (w h : F) (c : Vec F) :
    rectangle Srt (m.map g) w h c = (rectangle Srt m w h c).map (Obj.mapMat g) := rectangle_mapOpt (Option.map g) ..

theorem mkTransformed_mapMat (g : Mat F → Mat F) (o : Obj F (Mat F)) (t : Affine F) :
    (o.mapMat g).mkTransformed t = (o.mkTransformed t).map (Obj.mapMat g) := mkTransformed_mapOpt (Option.map g) ..

theorem mkPlanar_brighter (hk : Factor k) (Srt : Sorter (Obj F (Mat F))) (b : Color F) (w h : F) (c : Vec F) (rel : F)
    (res : Option (Obj F (Mat F))) (hres : ∀ o, res = some o → o.mapMat (Mat.brighter k) = o) (tr : F → F → F × F) :
    Light.mkPlanar Srt (b.mul k) w h c rel res tr = (Light.mkPlanar Srt b w h c rel res tr).map (Light.brighter k) := by
  unfold Light.mkPlanar
  have hz : Tex.brighter k (⟨lit 0, lit 0, lit 0⟩ : Color F).tex = (⟨lit 0, lit 0, lit 0⟩ : Color F).tex := by
    funext p
    simp only [Tex.brighter, Color.tex, map_ok', Color.mul, hk.zero]
  have hm : (some (Mat.twoSided (.flat (b.mul k).tex) (.flat (⟨lit 0, lit 0, lit 0⟩ : Color F).tex)) : Option (Mat F)) =
      (some (Mat.twoSided (.flat b.tex) (.flat (⟨lit 0, lit 0, lit 0⟩ : Color F).tex))).map (Mat.brighter k) := by
    simp only [Option.map_some, Mat.brighter, hz]
    rfl
  dsimp only
  rw [hm, rectangle_mapMat]
  refine map_bind_congr rfl ?_
  intro rect _
  have hr : (res.getD .allSpace).mapMat (Mat.brighter k) = res.getD .allSpace := by
    cases res with
    | none => simp only [Option.getD_none, Obj.mapMat, Obj.mapOpt]
    | some o => exact hres o rfl
  simp only [pure_ok, map_ok', Light.brighter, Obj.mapMat, Obj.mapOpt] at hr ⊢
  rw [hr]
  rw [show ∀ (a : Color F) s, (a.mul k).mul s = (a.mul s).mul k from (sym hk).mul]

end Brightness

/-- **C72.** `RectangleLight` with `k` times the brightness. -/
theorem C72_rectangle_light (hk : Factor k) (Srt : Sorter (Obj F (Mat F))) (b : Color F) (w h : F) (c : Vec F) :
    Light.rectangleLight Srt (b.mul k) w h c = (Light.rectangleLight Srt b w h c).map (Light.brighter k) :=
  mkPlanar_brighter hk Srt b w h c _ _ (by simp) _

/-- **C72.** `DiskLight` with `k` times the brightness. -/
theorem C72_disk_light (hk : Factor k) (Srt : Sorter (Obj F (Mat F))) (b : Color F) (diam : F) (c : Vec F) :
    Light.diskLight Srt (b.mul k) diam c = (Light.diskLight Srt b diam c).map (Light.brighter k) :=
  mkPlanar_brighter hk Srt b diam diam c _ _ (by rintro o ⟨⟩; rfl) _

/-- **C72.** A transformed light with `k` times the power. -/
theorem C72_transformed_light (l : Light F) (t : Affine F) :
    (l.brighter k).mkTransformed t = (l.mkTransformed t).map (Light.brighter k) := by
  cases l with
  | point pos power => rfl
  | planar w h c tp o tr =>
    simp only [Light.brighter, Light.mkTransformed, Light.object]
    exact map_bind_congr (mkTransformed_mapMat _ o t) (fun _ _ => rfl)
  | transformed f i l o =>
    simp only [Light.brighter, Light.mkTransformed, Light.object]
    exact map_bind_congr (mkTransformed_mapMat _ o t) (fun _ _ => rfl)

/-- **C72.** `SunLight` with `k` times the brightness. -/
theorem C72_sun_light (hk : Factor k) (Srt : Sorter (Obj F (Mat F))) (b : Color F) (diam yaw pitch : F) :
    Light.sunLight Srt (b.mul k) diam yaw pitch = (Light.sunLight Srt b diam yaw pitch).map (Light.brighter k) := by
  unfold Light.sunLight
  dsimp only
  rw [show ∀ (a : Color F) s, (a.mul k).mul s = (a.mul s).mul k from (sym hk).mul]
  exact map_bind_congr (C72_disk_light hk Srt _ _ _) (fun l _ => C72_transformed_light l _)

/-! ## Exact arithmetic: every positive factor -/

namespace Brightness

theorem sgn_pos {x : ℝ} (hx : 0 < x) (s : Bool) : Ext.sgn (.num x s) = false := by
  rw [Ext.sgn, if_neg hx.ne']; simp [hx.le]

theorem num_mul' {x : ℝ} (hx : 0 < x) (s : Bool) (y : ℝ) (t : Bool) :
    Ext.num x s * Ext.num y t = Ext.num (x * y) (Ext.sgn (.num y t)) := by
  rw [Ext.num_mul_num, sgn_pos hx]; simp

theorem sgn_mul {x : ℝ} (hx : 0 < x) (y : ℝ) (t : Bool) : Ext.sgn (.num (x * y) t) = Ext.sgn (.num y t) := by
  simp only [Ext.sgn, mul_eq_zero, hx.ne', false_or]
  split
  · rfl
  · congr 1
    exact propext ⟨fun h => by nlinarith, fun h => by nlinarith⟩

end Brightness

/-- **C72.** Numbers without rounding, with infinities, NaN and signed zeros: every positive finite factor will do. -/
theorem C72_factor (x : ℝ) (hx : 0 < x) (s : Bool) : Factor (Ext.num x s) := by
  have hi : ∀ t, Ext.num x s * Ext.inf t = Ext.inf t := by
    intro t; rw [Ext.num_mul_inf, if_neg hx.ne', sgn_pos hx]; simp
  have hss : ∀ y t, Ext.sgn (.num y (Ext.sgn (.num y t))) = Ext.sgn (.num y t) := by
    intro y t; simp only [Ext.sgn]; split <;> rfl
  have hms : ∀ y t z u, Ext.sgn (.num (y * z) (xor (Ext.sgn (.num y t)) (Ext.sgn (.num z u)))) =
      xor (Ext.sgn (.num y t)) (Ext.sgn (.num z u)) := by
    intro y t z u
    rcases eq_or_ne y 0 with rfl | hy
    · simp [Ext.sgn]
    rcases eq_or_ne z 0 with rfl | hz
    · simp [Ext.sgn]
    simp only [Ext.sgn, mul_eq_zero, hy, hz, or_self, if_false]
    rcases lt_or_gt_of_ne hy with h1 | h1 <;> rcases lt_or_gt_of_ne hz with h2 | h2
    · simp [h1, h2, not_lt.2 (mul_pos_of_neg_of_neg h1 h2).le]
    · simp [h1, not_lt.2 h2.le, mul_neg_of_neg_of_pos h1 h2]
    · simp [not_lt.2 h1.le, h2, mul_neg_of_pos_of_neg h1 h2]
    · simp [not_lt.2 h1.le, not_lt.2 h2.le, not_lt.2 (mul_pos h1 h2).le]
  have hl : ∀ a b : Ext, a * (Ext.num x s * b) = Ext.num x s * (a * b) := by
    intro a b
    cases a with
    | nan => simp
    | inf t =>
      cases b with
      | nan => simp
      | inf u => rw [hi, Ext.inf_mul_inf, hi]
      | num z u =>
        rw [num_mul' hx, Ext.inf_mul_num, Ext.inf_mul_num, sgn_mul hx, hss]
        by_cases hz : z = 0
        · simp [hz]
        · rw [if_neg (mul_ne_zero hx.ne' hz), if_neg hz, hi]
    | num y t =>
      cases b with
      | nan => simp
      | inf u =>
        rw [hi, Ext.num_mul_inf]
        split
        · exact (Ext.mul_nan _).symm
        · rw [hi]
      | num z u =>
        rw [num_mul' hx, Ext.num_mul_num, Ext.num_mul_num, num_mul' hx, sgn_mul hx, hss, hms]
        congr 1; ring
  have hc : ∀ a b : Ext, a * b = b * a := by
    intro a b
    cases a <;> cases b <;> first
      | rfl
      | (simp [Ext.inf_mul_num, Ext.num_mul_inf, Bool.xor_comm]; done)
      | (rw [Ext.num_mul_num, Ext.num_mul_num, mul_comm, Bool.xor_comm])
  constructor
  · exact hl
  · intro a b
    rw [hc, hl, hc b a]
  · intro a b
    cases a with
    | nan => simp
    | inf t =>
      cases b with
      | nan => simp
      | inf u =>
        rw [hi, hi, Ext.inf_add_inf]
        split
        · rw [hi]
        · simp
      | num z u => rw [hi, num_mul' hx, Ext.inf_add_num, Ext.inf_add_num, hi]
    | num y t =>
      cases b with
      | nan => simp
      | inf u => rw [hi, num_mul' hx, Ext.num_add_inf, Ext.num_add_inf, hi]
      | num z u =>
        rw [num_mul' hx, num_mul' hx, Ext.num_add_num, Ext.num_add_num, num_mul' hx, ← mul_add, sgn_mul hx, sgn_mul hx,
          sgn_mul hx, hss, hss, hss]
  · rw [Ext.lit_ext, num_mul' hx]
    simp [Ext.sgn]
  · intro a
    cases a with
    | nan => simp
    | inf t => rw [hi]
    | num y t =>
      rw [num_mul' hx, Ext.lit_ext, Ext.eq_num, Ext.eq_num]
      simp [hx.ne']
  · intro a
    cases a with
    | nan => simp
    | inf t => rw [hi]
    | num y t => rw [num_mul' hx, Ext.eq_num, Ext.eq_num]; simp

/-- A white sky, and the scene with twice the light: the sky is seen with brightness 1 and 2. -/
example (rng : Rng Ext S) (r : Ray Ext) (shifts : List (Ext × Ext)) (seed : S) :
    let s : Scene Ext := ⟨[], [.backdrop (some (.flat (Color.white : Color Ext).tex))], [], 1⟩
    let two : Ext := lit 2
    Factor two ∧ ∃ ctx', s.lightField rng 1 .direct r (Ctx.new shifts seed) = .ok (⟨lit 1, lit 1, lit 1⟩, ctx') ∧
      (s.brighter two).lightField rng 1 .direct r (Ctx.new shifts seed) = .ok (⟨lit 2 * lit 1, lit 2 * lit 1, lit 2 * lit 1⟩, ctx') := by
  have hf : Factor (lit 2 : Ext) := C72_factor _ (by norm_num) _
  dsimp only
  refine ⟨hf, ?_⟩
  have h : ∃ ctx', (Scene.mk [] [.backdrop (some (.flat (Color.white : Color Ext).tex))] [] 1 : Scene Ext).lightField rng 1
      .direct r (Ctx.new shifts seed) = .ok (⟨lit 1, lit 1, lit 1⟩, ctx') := by
    have hi : intersectFrontmost [.backdrop (some (.flat (Color.white : Color Ext).tex))] r =
        .ok (⟨lit (10 ^ 99), r.dir, r.dir, some (.flat (Color.white : Color Ext).tex)⟩, r) := by
      simp only [intersectFrontmost, intersectLoop, Obj.intersect, ok_bind, frontDefault]
      norm_num
    rw [Scene.lightField, Scene.lightFieldFrom, if_neg (by simp [Ctx.new])]
    dsimp only
    rw [show (Scene.mk [] [.backdrop (some (.flat (Color.white : Color Ext).tex))] [] 1 : Scene Ext).seen .direct =
      [.backdrop (some (.flat (Color.white : Color Ext).tex))] from rfl, hi]
    exact ⟨_, rfl⟩
  obtain ⟨ctx', h⟩ := h
  refine ⟨ctx', h, ?_⟩
  rw [C72_light_field hf, h]; rfl

end BR
