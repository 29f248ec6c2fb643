import Verif.Spec.Materials
import Verif.Model.Api
import Verif.Lemmas.Scene
import Verif.Lemmas.Radiance
import Mathlib.Data.List.Forall2

/-! Two scenes, the second at another place and with more light, evaluate alike. -/

namespace BR
set_option linter.unusedSectionVars false

section gom
variable {α β γ : Type}

theorem map_ok' (f : α → β) (a : α) : (Except.ok a : GoM α).map f = .ok (f a) := rfl
theorem map_error' (f : α → β) (e : Panic) : (Except.error e : GoM α).map f = .error e := rfl
theorem map_bind' (f : β → γ) (x : GoM α) (g : α → GoM β) : (x >>= g).map f = x >>= fun a => (g a).map f := by
  cases x <;> rfl
theorem bind_map' (f : α → β) (x : GoM α) (g : β → GoM γ) : (x.map f >>= g) = x >>= fun a => g (f a) := by
  cases x <;> rfl
theorem map_map' (f : α → β) (g : β → γ) (x : GoM α) : (x.map f).map g = x.map fun a => g (f a) := by
  cases x <;> rfl

/-- Both computations panic alike or return related results. -/
theorem map_bind_congr {α' β' : Type} {x : GoM α} {x' : GoM α'} {f : α → α'} {g : α → GoM β} {g' : α' → GoM β'} {h : β → β'}
    (e : x' = x.map f) (eg : ∀ a, x = .ok a → g' (f a) = (g a).map h) : (x' >>= g') = (x >>= g).map h := by
  subst e
  cases x with
  | error e => rfl
  | ok a => exact eg a rfl

end gom

variable {F S : Type} [Add F] [Sub F] [Mul F] [Div F] [Neg F] [GoFloat F]

/-- A change of the scene under which the image changes in a known way: points are moved by `mvp`, heights by `hgt`
and colours are changed by `col`. The equations are only needed for points with `ok`. -/
structure Sym (F : Type) [Add F] [Sub F] [Mul F] [Div F] [Neg F] [GoFloat F] where
  mvp : Vec F → Vec F
  hgt : F → F
  col : Color F → Color F
  ok : Vec F → Prop
  ok_madd : ∀ p t n, ok p → ok (p.madd t n)
  madd : ∀ p t n, ok p → (mvp p).madd t n = mvp (p.madd t n)
  sub : ∀ p q, ok p → ok q → (mvp p).sub (mvp q) = p.sub q
  fog : ∀ p h, ok p → (mvp p).y - hgt h = p.y - h
  mul : ∀ c s, (col c).mul s = col (c.mul s)
  mul3 : ∀ c b, (col c).mul3 b = col (c.mul3 b)
  add : ∀ c b, (col c).add (col b) = col (c.add b)
  black : col Color.black = Color.black
  isZero : ∀ c, (col c).isZero = c.isZero

namespace Sym

variable (y : Sym F)

/-- The ray moved. -/
def mv (r : Ray F) : Ray F := ⟨y.mvp r.start, r.dir⟩

theorem at' (r : Ray F) (t : F) (h : y.ok r.start) : (y.mv r).at t = y.mvp (r.at t) := y.madd _ _ _ h
theorem ok_at (r : Ray F) (t : F) (h : y.ok r.start) : y.ok (r.at t) := y.ok_madd _ _ _ h
theorem dir (r : Ray F) : (y.mv r).dir = r.dir := rfl
theorem mk' (p n : Vec F) : (⟨y.mvp p, n⟩ : Ray F) = y.mv ⟨p, n⟩ := rfl
theorem cmadd (c b : Color F) (s : F) : (y.col c).madd s (y.col b) = y.col (c.madd s b) := by
  have h1 : (y.col c).madd s (y.col b) = (y.col c).add ((y.col b).mul s) := rfl
  have h2 : c.madd s b = c.add (b.mul s) := rfl
  rw [h1, h2, y.mul, y.add]

/-- The material of the second scene. -/
def mat : Mat F → Mat F
  | .black => .black
  | .flat tex => .flat fun p => (tex p).map y.col
  | .matte tex => .matte tex
  | .reflective c => .reflective c
  | .reflectFresnel n under => .reflectFresnel n (mat under)
  | .refractive n1 n2 => .refractive n1 n2
  | .transparent tex b => .transparent tex b
  | .twoSided front back => .twoSided (mat front) (mat back)
  | .blend a matA b matB => .blend a (mat matA) b (mat matB)
  | .blendMap tex matA matB => .blendMap tex (mat matA) (mat matB)
  | .func f => .func fun r h => (f r h).map y.col

/-- User functions do not notice the move. -/
def Free : Mat F → Prop
  | .reflectFresnel _ under => Free under
  | .twoSided front back => Free front ∧ Free back
  | .blend _ matA _ matB => Free matA ∧ Free matB
  | .blendMap _ matA matB => Free matA ∧ Free matB
  | .func f => ∀ r h, f (y.mv r) h = f r h
  | _ => True

/-- The medium of the second scene. -/
def medium : Medium F → Medium F
  | .expFog density ambient height => .expFog density (y.col ambient) (y.hgt height)
  | .fog density height numLight => .fog density (y.hgt height) numLight

/-- The record with the material of the second scene. -/
def hit (h : HitRecord F (Mat F)) : HitRecord F (Mat F) := { h with mat := h.mat.map y.mat }

/-- The second light field sees the same from the moved ray. -/
def LFs (lf lf' : LF F S) : Prop := ∀ f r c, y.ok r.start → lf' f (y.mv r) c = (lf f r c).map fun a => (y.col a.1, a.2)

/-- The second light is the first one moved. -/
def Lights (rng : Rng F S) (l l' : Light F) : Prop :=
  ∀ p c, y.ok p → l'.sample rng (y.mvp p) c = (l.sample rng p c).map (fun a => ((y.mvp a.1.1, y.col a.1.2), a.2)) ∧
    ∀ a, l.sample rng p c = .ok a → y.ok a.1.1

/-- The second scene is the first one moved. -/
structure Scenes (rng : Rng F S) (s s' : Scene F) : Prop where
  front : ∀ f r, y.ok r.start → intersectFrontmost (s'.seen f) (y.mv r) =
    (intersectFrontmost (s.seen f) r).map fun a => (y.hit a.1, y.mv a.2)
  free : ∀ f r h r1, y.ok r.start → intersectFrontmost (s.seen f) r = .ok (h, r1) →
    r1 = r ∧ ∀ m, h.mat = some m → y.Free m
  occl : ∀ r len c, y.ok r.start → s'.occlude (y.mv r) len (y.col c) =
    (s.occlude r len c).map fun a => (y.col a.1, y.mv a.2)
  lights : List.Forall₂ (y.Lights rng) s.lights s'.lights
  media : s'.media = s.media.map y.medium
  depth : s'.recursionDepth = s.recursionDepth

end Sym

variable {y : Sym F} {rng : Rng F S} {s s' : Scene F} (hs : y.Scenes rng s s')
  {lf lf' : LF F S} (hlf : y.LFs lf lf')

theorem sim_directLoop {occl occl' : Ray F → F → Color F → GoM (Color F × Ray F)}
    (ho : ∀ r len c, y.ok r.start → occl' (y.mv r) len (y.col c) = (occl r len c).map fun a => (y.col a.1, y.mv a.2))
    {ls ls' : List (Light F)} (hl : List.Forall₂ (y.Lights rng) ls ls') (p n : Vec F) (hp : y.ok p) (acc : Color F) (c : Ctx F S) :
    directLoop rng occl' (y.mvp p) n ls' (y.col acc) c =
      (directLoop rng occl p n ls acc c).map fun a => (y.col a.1, a.2) := by
  induction hl generalizing acc c with
  | nil => rfl
  | @cons l l' ls ls' h1 _ ih =>
    rw [directLoop, directLoop]
    refine map_bind_congr (h1 p c hp).1 ?_
    rintro ⟨⟨lp, i⟩, c1⟩ hc1
    have hlp := (h1 p c hp).2 _ hc1
    dsimp only
    rw [y.isZero, y.sub _ _ hlp hp]
    by_cases hz : i.isZero = true
    · rw [if_pos hz, if_pos hz]; exact ih _ _
    · rw [if_neg hz, if_neg hz]
      by_cases hc : ((lp.sub p).normalized.dot n <=. lit 0) = true
      · rw [if_pos hc, if_pos hc]; exact ih _ _
      · rw [if_neg hc, if_neg hc, y.mk']
        refine map_bind_congr (ho _ _ _ hp) ?_
        rintro ⟨i2, r2⟩ -
        dsimp only
        rw [y.mul, y.add]
        exact ih _ _

include hlf in
theorem sim_withRay (f : Field) (r : Ray F) (hr : y.ok r.start) (c : Ctx F S) :
    withRay lf' f (y.mv r) c = (withRay lf f r c).map fun a => (y.col a.1, a.2) := by
  unfold withRay
  exact map_bind_congr (hlf f r _ hr) (fun a _ => rfl)

include hs hlf in
theorem sim_matte (tex : Tex F) (r : Ray F) (hr : y.ok r.start) (h : HitCoords F) (c : Ctx F S) :
    shadeMatte rng s' lf' tex (y.mv r) h c = (shadeMatte rng s lf tex r h c).map fun a => (y.col a.1, a.2) := by
  unfold shadeMatte
  dsimp only
  have hp := y.ok_madd _ tiny (flipTowards h.normal r.dir) (y.ok_at r h.t hr)
  rw [y.at' _ _ hr, y.dir, y.madd _ _ _ (y.ok_at r h.t hr)]
  have e := sim_directLoop hs.occl hs.lights ((r.at h.t).madd tiny (flipTowards h.normal r.dir))
    (flipTowards h.normal r.dir) hp Color.black c.takeRay.2
  rw [y.black] at e
  refine map_bind_congr e ?_
  rintro ⟨acc, c1⟩ -
  dsimp only
  rw [map_bind']
  refine bind_congr_ok rfl ?_
  rintro ⟨uv, c2⟩ -
  dsimp only
  rw [y.madd _ _ _ hp, y.mk']
  refine map_bind_congr (hlf _ _ _ (y.ok_madd _ _ _ hp)) ?_
  rintro ⟨i, c3⟩ -
  dsimp only
  rw [map_bind']
  refine bind_congr_ok rfl ?_
  intro refl _
  rw [y.add, y.mul3]
  rfl

include hlf in
theorem sim_refractive (n1 n2 : F) (r : Ray F) (hr : y.ok r.start) (h : HitCoords F) (c : Ctx F S) :
    shadeRefractive lf' n1 n2 (y.mv r) h c = (shadeRefractive lf n1 n2 r h c).map fun a => (y.col a.1, a.2) := by
  unfold shadeRefractive
  rw [y.dir]
  rcases refractGeom n1 n2 r.dir h.normal with ⟨n, i, m1, m2, cosi, sin2t⟩
  dsimp only
  split
  · rw [y.at' _ _ hr, y.mk']; exact sim_withRay hlf _ _ (y.ok_at _ _ hr) _
  · rw [y.at' _ _ hr, y.mk']
    refine map_bind_congr (hlf _ _ _ (y.ok_at _ _ hr)) ?_
    rintro ⟨cT, c1⟩ -
    dsimp only
    rw [y.at' _ _ hr, y.mk']
    refine map_bind_congr (hlf _ _ _ (y.ok_at _ _ hr)) ?_
    rintro ⟨cR, c2⟩ -
    dsimp only
    rw [y.mul, y.mul, y.add]
    rfl

theorem sim_whenPos (key : F) {m m' : CtxM F S (Color F)} (h : ∀ c, m' c = (m c).map fun a => (y.col a.1, a.2))
    (c : Ctx F S) : whenPos key m' c = (whenPos key m c).map fun a => (y.col a.1, a.2) := by
  unfold whenPos
  split
  · exact h c
  · rw [map_ok', y.black]

include hs hlf in
theorem sim_shade (m : Mat F) (hm : y.Free m) (r : Ray F) (hr : y.ok r.start) (h : HitCoords F) (c : Ctx F S) :
    (y.mat m).shade rng s' lf' (y.mv r) h c =
      (m.shade rng s lf r h c).map fun a => (y.col a.1, a.2) := by
  induction m generalizing c with
  | black => simp only [Sym.mat, Mat.shade]; rw [map_ok', y.black]
  | flat tex =>
    simp only [Sym.mat, Mat.shade]
    exact map_bind_congr rfl (fun _ _ => rfl)
  | matte tex => simp only [Sym.mat, Mat.shade]; exact sim_matte hs hlf tex r hr h c
  | reflective col =>
    simp only [Sym.mat, Mat.shade]
    rw [y.at' _ _ hr, y.dir, y.mk']
    refine map_bind_congr (sim_withRay hlf _ _ (y.ok_at _ _ hr) _) ?_
    rintro ⟨a, c1⟩ -
    dsimp only
    rw [y.mul3]; rfl
  | reflectFresnel n under ih =>
    simp only [Sym.mat, Mat.shade]
    rw [y.at' _ _ hr, y.dir, y.mk']
    refine map_bind_congr (ih hm _) ?_
    rintro ⟨a, c1⟩ -
    dsimp only
    refine map_bind_congr (hlf _ _ _ (y.ok_at _ _ hr)) ?_
    rintro ⟨b, c2⟩ -
    dsimp only
    rw [y.mul, y.cmadd]; rfl
  | refractive n1 n2 => simp only [Sym.mat, Mat.shade]; exact sim_refractive hlf n1 n2 r hr h c
  | transparent tex b =>
    simp only [Sym.mat, Mat.shade]
    rw [y.at' _ _ hr, y.dir, y.mk']
    refine map_bind_congr (hlf _ _ _ (y.ok_at _ _ hr)) ?_
    rintro ⟨a, c1⟩ -
    dsimp only
    rw [map_bind']
    refine bind_congr_ok rfl ?_
    intro f _
    rw [y.mul3]; rfl
  | twoSided front back ih1 ih2 =>
    simp only [Sym.mat, Mat.shade]
    rw [y.dir]
    split
    · exact ih1 hm.1 c
    · exact ih2 hm.2 c
  | blend a matA b matB ih1 ih2 =>
    simp only [Sym.mat, Mat.shade]
    refine map_bind_congr (ih1 hm.1 _) ?_
    rintro ⟨ca, c1⟩ -
    dsimp only
    refine map_bind_congr (ih2 hm.2 _) ?_
    rintro ⟨cb, c2⟩ -
    dsimp only
    rw [y.mul, y.cmadd]; rfl
  | blendMap tex matA matB ih1 ih2 =>
    simp only [Sym.mat, Mat.shade]
    rw [map_bind']
    refine bind_congr_ok rfl ?_
    intro col _
    refine map_bind_congr (sim_whenPos _ (ih1 hm.1) _) ?_
    rintro ⟨ca, c1⟩ -
    dsimp only
    refine map_bind_congr (sim_whenPos _ (ih2 hm.2) _) ?_
    rintro ⟨cb, c2⟩ -
    dsimp only
    rw [y.mul, y.cmadd]; rfl
  | func f =>
    simp only [Sym.mat, Mat.shade]
    rw [hm]
    exact map_bind_congr rfl (fun _ _ => rfl)

theorem sim_fogInterval (height : F) (r : Ray F) (hr : y.ok r.start) (t : F) : fogInterval (y.hgt height) (y.mv r) t = fogInterval height r t := by
  have : (y.mv r).start.y - y.hgt height = r.start.y - height := y.fog _ _ hr
  unfold fogInterval intersectHalfSpace
  rw [this, y.dir]

theorem sim_fogLoop {occl occl' : Ray F → F → Color F → GoM (Color F × Ray F)}
    (ho : ∀ r len c, y.ok r.start → occl' (y.mv r) len (y.col c) = (occl r len c).map fun a => (y.col a.1, y.mv a.2))
    {ls ls' : List (Light F)} (hl : List.Forall₂ (y.Lights rng) ls ls') (p : Vec F) (hp : y.ok p) (w : F) (n : Int) (acc : Color F)
    (c : Ctx F S) : fogLoop rng occl' (y.mvp p) w n ls' (y.col acc) c =
      (fogLoop rng occl p w n ls acc c).map fun a => (y.col a.1, a.2) := by
  induction hl generalizing acc c n with
  | nil => rw [fogLoop, fogLoop]; rfl
  | @cons l l' ls ls' h1 _ ih =>
    rw [fogLoop, fogLoop]
    split
    · rfl
    refine map_bind_congr (h1 p c hp).1 ?_
    rintro ⟨⟨lp, i⟩, c1⟩ hc1
    have hlp := (h1 p c hp).2 _ hc1
    dsimp only
    rw [y.isZero, y.sub _ _ hlp hp]
    by_cases hz : i.isZero = true
    · rw [if_pos hz, if_pos hz]; exact ih _ _ _
    · rw [if_neg hz, if_neg hz, y.mk']
      refine map_bind_congr (ho _ _ _ hp) ?_
      rintro ⟨i2, r2⟩ -
      dsimp only
      rw [y.cmadd]
      exact ih _ _ _

include hs in
theorem sim_filter (m : Medium F) (r : Ray F) (hr : y.ok r.start) (t : F) (col : Color F) (c : Ctx F S) :
    (y.medium m).filter rng s' (y.mv r) t (y.col col) c =
      (m.filter rng s r t col c).map fun a => (y.col a.1, a.2) := by
  cases m with
  | expFog density ambient height =>
    simp only [Sym.medium, Medium.filter]
    rw [map_bind']
    refine bind_congr_ok rfl ?_
    intro b _
    cases b with
    | false => rfl
    | true =>
      rw [sim_fogInterval height r hr]
      simp only [Bool.not_true, Bool.false_eq_true, ↓reduceIte]
      split
      · rfl
      · rw [y.mul, y.cmadd]; rfl
  | fog density height num =>
    simp only [Sym.medium, Medium.filter, fogScatter]
    rw [map_bind']
    refine bind_congr_ok rfl ?_
    intro b _
    cases b with
    | false => rfl
    | true =>
      rw [sim_fogInterval height r hr]
      simp only [Bool.not_true, Bool.false_eq_true, ↓reduceIte]
      rw [map_bind']
      refine bind_congr_ok rfl ?_
      rintro ⟨uv, c1⟩ -
      dsimp only
      rcases randExpInterval uv.1 density _ with ⟨ts, w⟩
      dsimp only
      rw [y.at' _ _ hr]
      have e := sim_fogLoop hs.occl hs.lights (r.at ((fogInterval height r t).1 + ts - tiny)) (y.ok_at _ _ hr) w num Color.black c1.takeRay.2
      rw [y.black] at e
      refine map_bind_congr e ?_
      rintro ⟨acc, c2⟩ -
      dsimp only
      rw [y.mul, y.add]; rfl

include hs in
theorem sim_mediaLoop (ms : List (Medium F)) (r : Ray F) (hr : y.ok r.start) (t : F) (col : Color F) (c : Ctx F S) :
    mediaLoop rng s' (y.mv r) t (ms.map y.medium) (y.col col) c =
      (mediaLoop rng s r t ms col c).map fun a => (y.col a.1, a.2) := by
  induction ms generalizing col c with
  | nil => rfl
  | cons m ms ih =>
    rw [List.map_cons, mediaLoop, mediaLoop]
    refine map_bind_congr (sim_filter hs m r hr t col c) ?_
    rintro ⟨c1, c2⟩ -
    exact ih _ _

include hs in
theorem sim_lightFieldFrom {base base' : LF F S} (hb : y.LFs base base') (fuel : Nat) :
    y.LFs (s.lightFieldFrom rng base fuel) (s'.lightFieldFrom rng base' fuel) := by
  induction fuel with
  | zero =>
    intro f r c hr
    rw [Scene.lightFieldFrom, Scene.lightFieldFrom, hs.depth]
    split
    · rw [map_ok', y.black]
    · exact hb f r c hr
  | succ n ih =>
    intro f r c hr
    rw [Scene.lightFieldFrom, Scene.lightFieldFrom, hs.depth]
    split
    · rw [map_ok', y.black]
    · refine map_bind_congr (hs.front f r hr) ?_
      rintro ⟨front, r1⟩ e1
      obtain ⟨rfl, hfree⟩ := hs.free f r front r1 hr e1
      dsimp only
      have e : ∀ c, shadeFront rng s' (s'.lightFieldFrom rng base' n) (y.hit front) (y.mv r1) c =
          (shadeFront rng s (s.lightFieldFrom rng base n) front r1 c).map fun a => (y.col a.1, a.2) := by
        intro c
        unfold shadeFront Sym.hit
        cases hm : front.mat with
        | none => rfl
        | some m => exact sim_shade hs ih m (hfree m hm) r1 hr _ c
      refine map_bind_congr (e _) ?_
      rintro ⟨c1, c2⟩ -
      dsimp only
      rw [hs.media]
      refine map_bind_congr (sim_mediaLoop hs s.media r1 hr front.t c1 c2) ?_
      rintro ⟨c3, c4⟩ -
      rfl

include hs in
theorem sim_lightField (fuel : Nat) : y.LFs (s.lightField rng fuel) (s'.lightField rng fuel) :=
  sim_lightFieldFrom hs (fun _ _ _ _ => rfl) fuel

include hs in
theorem sim_imageFunc (cam cam' : Cam F) (hc : ∀ ctx u v, cam'.rayFrom rng ctx u v =
      (y.mv (cam.rayFrom rng ctx u v).1, (cam.rayFrom rng ctx u v).2) ∧ y.ok (cam.rayFrom rng ctx u v).1.start)
    (ctx : Ctx F S) (u v : F) :
    s'.imageFunc rng cam' ctx u v = (s.imageFunc rng cam ctx u v).map fun a => (y.col a.1, a.2) := by
  unfold Scene.imageFunc
  dsimp only
  obtain ⟨h1, h2⟩ := hc ctx.takeRay.2 u v
  rw [h1, hs.depth]
  refine map_bind_congr (sim_lightField hs _ _ _ _ h2) ?_
  rintro ⟨c, c1⟩ -
  rfl

/-- The second object reports the same for the moved ray. -/
def Sym.Objs (y : Sym F) (o o' : Obj F (Mat F)) : Prop :=
  ∀ r, y.ok r.start → o'.intersect (y.mv r) = (o.intersect r).map fun a => (y.hit a.1, y.mv a.2)

theorem sim_intersectLoop {os os' : List (Obj F (Mat F))} (h : List.Forall₂ y.Objs os os') (front : HitRecord F (Mat F))
    (r : Ray F) (hr : y.ok r.start) : intersectLoop os' (y.hit front) (y.mv r) =
      (intersectLoop os front r).map fun a => (y.hit a.1, y.mv a.2) := by
  induction h generalizing front with
  | nil => rfl
  | @cons o o' os os' h1 _ ih =>
    rw [intersectLoop, intersectLoop]
    refine map_bind_congr (h1 r hr) ?_
    rintro ⟨f, r1⟩ e
    obtain rfl := Obj.intersect_keeps o r f r1 e
    dsimp only
    have e1 : (y.hit f).t = f.t := rfl
    have e2 : (y.hit front).t = front.t := rfl
    rw [e1, e2]
    split
    · exact ih _
    · exact ih _

theorem sim_filter? (m : Option (Mat F)) : Mat.filter? (m.map y.mat) = Mat.filter? m := by
  cases m with
  | none => rfl
  | some m => cases m <;> rfl

theorem sim_occludeLoop {os os' : List (Obj F (Mat F))} (h : List.Forall₂ y.Objs os os') (len : F) (c : Color F)
    (r : Ray F) (hr : y.ok r.start) : occludeLoop os' len (y.col c) (y.mv r) =
      (occludeLoop os len c r).map fun a => (y.col a.1, y.mv a.2) := by
  induction h generalizing c with
  | nil => rfl
  | @cons o o' os os' h1 _ ih =>
    rw [occludeLoop, occludeLoop]
    refine map_bind_congr (h1 r hr) ?_
    rintro ⟨f, r1⟩ e
    obtain rfl := Obj.intersect_keeps o r f r1 e
    dsimp only
    have e1 : (y.hit f).t = f.t := rfl
    have e2 : (y.hit f).mat = f.mat.map y.mat := rfl
    have e3 : (y.hit f).loc = f.loc := rfl
    rw [e1, e2, e3, sim_filter?]
    split
    · have hb : (Except.ok (Color.black, y.mv r1) : GoM (Color F × Ray F)) =
          (Except.ok (Color.black, r1) : GoM (Color F × Ray F)).map fun a => (y.col a.1, y.mv a.2) := by
        rw [map_ok', y.black]
      rcases hm : f.mat with _ | m
      · exact hb
      · cases m
        case transparent tex b =>
          simp only [Mat.filter?]
          rw [bind_assoc, bind_assoc, map_bind']
          refine bind_congr_ok rfl ?_
          intro k _
          rw [pure_bind', pure_bind', y.mul3]
          exact ih _
        all_goals exact hb
    · exact ih _

theorem Sym.scenes (ho : List.Forall₂ y.Objs s.objects s'.objects)
    (hl : List.Forall₂ (fun l l' => y.Lights rng l l' ∧ y.Objs l.object l'.object) s.lights s'.lights)
    (hf : ∀ o ∈ s.objects, o.AllMat y.Free) (hfl : ∀ l ∈ s.lights, l.object.AllMat y.Free)
    (hm : s'.media = s.media.map y.medium) (hd : s'.recursionDepth = s.recursionDepth) : y.Scenes rng s s' where
  front f r hr := by
    have h : List.Forall₂ y.Objs (s.seen f) (s'.seen f) := by
      cases f with
      | direct =>
        refine List.rel_append ho ?_
        exact (List.forall₂_map_left_iff.2 (List.forall₂_map_right_iff.2 (hl.imp fun _ _ h => h.2)))
      | indirect =>
        refine List.rel_append ho ?_
        refine (List.forall₂_map_left_iff.2 (List.forall₂_map_right_iff.2 (hl.imp fun l l' h => ?_)))
        intro r hr
        simp only [Obj.intersect]
        refine map_bind_congr (h.2 r hr) ?_
        rintro ⟨f, r1⟩ -
        rfl
    exact sim_intersectLoop h (frontDefault r) r hr
  free f r h r1 hr e := by
    have hk : ∀ (os : List (Obj F (Mat F))) front, intersectLoop os front r = .ok (h, r1) → r1 = r := by
      intro os
      induction os with
      | nil => intro front e; cases e; rfl
      | cons o os ih =>
        intro front e
        rw [intersectLoop, bind_eq_ok] at e
        obtain ⟨⟨f, r2⟩, e1, e2⟩ := e
        obtain rfl := Obj.intersect_keeps o r f r2 e1
        exact ih _ e2
    refine ⟨hk _ _ e, ?_⟩
    refine intersectLoop_mat (Q := y.Free) (s.seen f) ?_ (frontDefault r) ?_ r h r1 e
    · intro o ho
      cases f with
      | direct =>
        rcases List.mem_append.1 ho with h | h
        · exact hf o h
        · obtain ⟨l, hl, rfl⟩ := List.mem_map.1 h; exact hfl l hl
      | indirect =>
        rcases List.mem_append.1 ho with h | h
        · exact hf o h
        · obtain ⟨l, hl, rfl⟩ := List.mem_map.1 h
          simp only [Obj.AllMat]
          rintro x ⟨⟩; trivial
    · rintro x ⟨⟩; trivial
  occl r len c hr := sim_occludeLoop ho len c r hr
  lights := hl.imp fun _ _ h => h.1
  media := hm
  depth := hd

end BR
