import Verif.Spec.ViewDouble
import Verif.Spec.Picture

/-! Vocabulary for pictures in double precision. -/

namespace BR

/-- What is to be seen along the line from `v` in direction `d` shines by itself, in the colour `χ`.

* A thing of one flat (glowing) colour is clearly met first and shows that colour.
* The line clearly misses all things but a backdrop of one colour, which shows that colour. -/
inductive Glows (s : Scene Flo) (v d : Vec ℝ) : (Primary → ℝ) → Prop
  | met {before after : List (Obj Flo (Mat Flo))} {o : Obj Flo (Mat Flo)} {col : Color Flo} {b : Obstacle} {χ : Primary → ℝ} {X : ℝ} {N : Vec ℝ}
      {lamps : List Fitting} {things : List (Option (Mat Flo) × Obstacle)} :
      s.objects = before ++ o :: after → b.Built (some (.flat col.tex)) o → (∀ k, (col.pick k).Is (χ k)) →
      b.MetAt v d X N → Within 63 (along v d X) → s.lights = lamps.map Fitting.light →
      List.Forall₂ (fun o t => t.2.Built t.1 o) (before ++ after) things →
      (∀ t ∈ things, t.2.Passed v d (X + 1 / 1024)) → Glows s v d χ
  | sky {before after : List (Obj Flo (Mat Flo))} {col : Color Flo} {χ : Primary → ℝ} {lamps : List Fitting}
      {things : List (Option (Mat Flo) × Obstacle)} :
      s.objects = before ++ Obj.backdrop (some (.flat col.tex)) :: after → (∀ k, (col.pick k).Is (χ k)) → s.lights = lamps.map Fitting.light →
      List.Forall₂ (fun o t => t.2.Built t.1 o) (before ++ after) things →
      (∀ t ∈ things, t.2 ≠ .sky ∧ ∀ Y, 0 < Y → t.2.Passed v d Y) → Glows s v d χ

/-- What there is to see along the line from `v` in direction `d`, in each of the three colours, if light does not go from thing
to thing; and how far the program may be off.

* A matte thing of one colour is clearly met first, and each lamp is clearly seen or hidden from there, or clearly behind transparent
  things. It shows the light of the lamps that arrives, by the laws of optics, times the part it returns. The program may be off by a part in 2048 of the light
  the lamps would give a surface that faces them squarely.
* What is seen shines by itself, in one colour. -/
inductive Displays (s : Scene Flo) (v d : Vec ℝ) : (Primary → ℝ) → (Primary → ℝ) → Prop
  | matte {before after : List (Obj Flo (Mat Flo))} {o : Obj Flo (Mat Flo)} {refl : Color Flo} {b : Obstacle} {ρ : Primary → ℝ} {X : ℝ} {N : Vec ℝ}
      {lamps : List Fitting} {things : List (Option (Mat Flo) × Obstacle)} :
      s.objects = before ++ o :: after → b.Built (some (.matte refl.tex)) o → (∀ k, (refl.pick k).Is (ρ k) ∧ 0 ≤ ρ k ∧ ρ k ≤ 1) →
      b.MetAt v d X N → Within 63 (along v d X) → s.lights = lamps.map Fitting.light → lamps.length ≤ 2 ^ 20 →
      (∀ x ∈ lamps, b.Spares x.bulb.pos) → List.Forall₂ (fun o t => t.2.Built t.1 o) (before ++ after) things →
      (∀ t ∈ things, t.2.Passed v d (X + 1 / 1024)) →
      (∀ x ∈ lamps, LampFor (along v d X) x.pos x.power x.bulb ∧ Decided things (along v d X) x.bulb x.part) →
      Displays s v d (fun k => ρ k * (lamps.map (Fitting.gives (along v d X) N k)).sum)
        (fun k => 1 / 2048 * (lamps.map (Fitting.most (along v d X) k)).sum + 1 / 2 ^ 100)
  | plain {χ : Primary → ℝ} : Glows s v d χ → Displays s v d χ (fun _ => 0)

/-- The lines from `v` in direction `d` that are close to the exact line of sight `R`: the start is within `2^-35` and the direction
within `2^-22`, in each coordinate. -/
def CloseTo (R : Ray ℝ) (v d : Vec ℝ) : Prop := Within (1 / 2 ^ 35) (v.sub R.start) ∧ Within (1 / 2 ^ 22) (d.sub R.dir)

/-- All lines close to the exact line of sight `R` show nearly the same: the colour `E`, but for `B`, including what the program may
be off. -/
def Steady (s : Scene Flo) (R : Ray ℝ) (E B : Primary → ℝ) : Prop :=
  ∀ v d, CloseTo R v d → ∃ val tol, Displays s v d val tol ∧ ∀ k, |val k - E k| + tol k ≤ B k

/-- The camera of the program stands and looks as `V` says: a pinhole camera with an opening angle between 1/16 and 2 (4 and 114
degrees), no coordinate above 60. -/
structure Aims (fov yaw pitch roll : Flo) (eye : Vec Flo) (V : View) : Prop where
  fov : fov.Is V.fov
  yaw : yaw.Is V.yaw
  pitch : pitch.Is V.pitch
  roll : roll.Is V.roll
  eye : eye.FIs V.eye
  wide : 1 / 16 ≤ V.fov
  narrow : V.fov ≤ 2
  near : Within 60 V.eye

end BR
