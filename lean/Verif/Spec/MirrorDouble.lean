import Verif.Spec.PictureDouble

/-! Vocabulary for mirrors and transparent things in double precision. -/

namespace BR

/-- The direction in which a mirror with unit normal `N` sends what comes in direction `d`. -/
noncomputable def mirrored (d N : Vec ℝ) : Vec ℝ :=
  ⟨d.x - 2 * (d.x * N.x + d.y * N.y + d.z * N.z) * N.x, d.y - 2 * (d.x * N.x + d.y * N.y + d.z * N.z) * N.y,
    d.z - 2 * (d.x * N.x + d.y * N.y + d.z * N.z) * N.z⟩

/-- The line from `v` in direction `d` is close to the exact one that a mirror `b` sends out from the point `Q` in direction `M`: the
start is within `2^-19` and the direction within `2^-12`, in each coordinate, and it leads away from the mirror. -/
def SentFrom (b : Obstacle) (Q M : Vec ℝ) (v d : Vec ℝ) : Prop :=
  Within (1 / 2 ^ 19) (v.sub Q) ∧ Within (1 / 2 ^ 12) (d.sub M) ∧ b.LeftBy v d

/-- The line from `v` in direction `d` is just past the surface of the thing that it came through: in a ball by `2^-25` in the squares, in a
box by `2^-30`, or on its way from a floor. -/
def Obstacle.Beyond (v d : Vec ℝ) : Obstacle → Prop
  | .ball c R => apart v c ^ 2 ≤ R ^ 2 - 1 / 2 ^ 25
  | .block lo hi => InBox lo hi (-(1 / 2 ^ 30)) v
  | .floor W D C => (Obstacle.floor W D C).LeftBy v d
  | .sky => True

/-- Lines in direction `d` that go on from the point `Q` of a transparent thing `b`: the start `v` is within `2^-19` of `Q` in each
coordinate, and past the surface. -/
def GoesOn (b : Obstacle) (Q d v : Vec ℝ) : Prop := Within (1 / 2 ^ 19) (v.sub Q) ∧ b.Beyond v d

/-- The line from `v` in direction `d` starts in the ball or box, if only just (see `Beyond`), and clearly leaves it at distance `X`.

* A ball: not at a grazing angle (which is to say, not near the start).
* A box: through one of its sides, at least `2^-18` from its edges, and at least 1/16 steep. -/
def LeavesAt (b : Obstacle) (v d : Vec ℝ) (X : ℝ) : Prop :=
  b.Beyond v d ∧ 0 < X ∧ match b with
    | .ball c R => apart (along v d X) c = R ∧ 9 / 10 ≤ d.x ^ 2 + d.y ^ 2 + d.z ^ 2 ∧
        1 / 32 ≤ ((along v d X).x - c.x) * d.x + ((along v d X).y - c.y) * d.y + ((along v d X).z - c.z) * d.z
    | .block lo hi => ∃ i up, OnSide lo hi i up (along v d X) ∧
        1 / 16 ≤ (sideNormal i up).x * d.x + (sideNormal i up).y * d.y + (sideNormal i up).z * d.z
    | .floor _ _ _ => False
    | .sky => False

/-- Lines in direction `d` that go on from the point `Q` where a ball or box is left. -/
def GoesOut (b : Obstacle) (Q d v : Vec ℝ) : Prop := Within (1 / 2 ^ 19) (v.sub Q) ∧ b.LeftBy v d

/-- What there is to see along the line from `v` in direction `d`, in each of the three colours, if light goes from thing to thing
by mirrors and through transparent surfaces only, `n` at most; and how far the program may be off.

* Without a mirror, it is what `Displays` says; what shines by itself may be seen with mirrors to spare.
* A mirror (at least 1/16 steep to the line, the direction of which has a length of nearly one) is clearly met first, and
  all lines that are close to the exact mirrored one show the colour `E`, but for `B`. The mirror shows that colour times its own.
* A transparent thing of one colour is clearly met first (at least 1/16 steep), and all lines that go on from there show the colour
  `E`, but for `B`. Then that colour times its own is seen.
* The line comes from inside of a transparent ball or box and clearly leaves it, before it meets anything; it goes on likewise. -/
inductive Shown (s : Scene Flo) : ℕ → Vec ℝ → Vec ℝ → (Primary → ℝ) → (Primary → ℝ) → Prop
  | last {v d : Vec ℝ} {val tol : Primary → ℝ} : Displays s v d val tol → Shown s 0 v d val tol
  | plain {n : ℕ} {v d : Vec ℝ} {χ : Primary → ℝ} : Glows s v d χ → Shown s n v d χ (fun _ => 0)
  | mirror {n : ℕ} {v d : Vec ℝ} {before after : List (Obj Flo (Mat Flo))} {o : Obj Flo (Mat Flo)} {tint : Color Flo} {b : Obstacle} {κ : Primary → ℝ}
      {X : ℝ} {N : Vec ℝ} {lamps : List Fitting} {things : List (Option (Mat Flo) × Obstacle)} {val tol : Vec ℝ → Vec ℝ → Primary → ℝ}
      {E B : Primary → ℝ} :
      s.objects = before ++ o :: after → b.Built (some (.reflective tint)) o → (∀ k, (tint.pick k).Is (κ k) ∧ 0 ≤ κ k ∧ κ k ≤ 1) →
      b.MetAt v d X N → Within 63 (along v d X) → |d.x ^ 2 + d.y ^ 2 + d.z ^ 2 - 1| ≤ 1 / 32 →
      N.x * d.x + N.y * d.y + N.z * d.z ≤ -(1 / 16) → s.lights = lamps.map Fitting.light →
      List.Forall₂ (fun o t => t.2.Built t.1 o) (before ++ after) things → (∀ t ∈ things, t.2.Passed v d (X + 1 / 1024)) →
      (∀ v' d', SentFrom b (along v d X) (mirrored d N) v' d' → Shown s n v' d' (val v' d') (tol v' d')) →
      (∀ v' d', SentFrom b (along v d X) (mirrored d N) v' d' → ∀ k, |val v' d' k - E k| + tol v' d' k ≤ B k) →
      (∀ k, |E k| + B k ≤ 2 ^ 20) →
      Shown s (n + 1) v d (fun k => κ k * E k) (fun k => κ k * B k + (|E k| + B k) / 2 ^ 53 + 1 / 2 ^ 200)

  | pane {n : ℕ} {v d : Vec ℝ} {before after : List (Obj Flo (Mat Flo))} {o : Obj Flo (Mat Flo)} {tint : Color Flo} {u : Bool} {b : Obstacle}
      {κ : Primary → ℝ} {X : ℝ} {N : Vec ℝ} {lamps : List Fitting} {things : List (Option (Mat Flo) × Obstacle)} {val tol : Vec ℝ → Primary → ℝ}
      {E B : Primary → ℝ} :
      s.objects = before ++ o :: after → b.Built (some (.transparent tint.tex u)) o → (∀ k, (tint.pick k).Is (κ k) ∧ 0 ≤ κ k ∧ κ k ≤ 1) →
      b.MetAt v d X N → Within 63 (along v d X) → N.x * d.x + N.y * d.y + N.z * d.z ≤ -(1 / 16) → s.lights = lamps.map Fitting.light →
      List.Forall₂ (fun o t => t.2.Built t.1 o) (before ++ after) things → (∀ t ∈ things, t.2.Passed v d (X + 1 / 1024)) →
      (∀ v', GoesOn b (along v d X) d v' → Shown s n v' d (val v') (tol v')) →
      (∀ v', GoesOn b (along v d X) d v' → ∀ k, |val v' k - E k| + tol v' k ≤ B k) →
      (∀ k, |E k| + B k ≤ 2 ^ 20) →
      Shown s (n + 1) v d (fun k => κ k * E k) (fun k => κ k * B k + (|E k| + B k) / 2 ^ 53 + 1 / 2 ^ 200)
  | out {n : ℕ} {v d : Vec ℝ} {before after : List (Obj Flo (Mat Flo))} {o : Obj Flo (Mat Flo)} {tint : Color Flo} {u : Bool} {b : Obstacle}
      {κ : Primary → ℝ} {X : ℝ} {lamps : List Fitting} {things : List (Option (Mat Flo) × Obstacle)} {val tol : Vec ℝ → Primary → ℝ}
      {E B : Primary → ℝ} :
      s.objects = before ++ o :: after → b.Built (some (.transparent tint.tex u)) o →
      (∀ k, (tint.pick k).Is (κ k) ∧ 0 ≤ κ k ∧ κ k ≤ 1) → LeavesAt b v d X → Within 63 (along v d X) → s.lights = lamps.map Fitting.light →
      List.Forall₂ (fun o t => t.2.Built t.1 o) (before ++ after) things → (∀ t ∈ things, t.2.Passed v d (X + 1 / 1024)) →
      (∀ v', GoesOut b (along v d X) d v' → Shown s n v' d (val v') (tol v')) →
      (∀ v', GoesOut b (along v d X) d v' → ∀ k, |val v' k - E k| + tol v' k ≤ B k) →
      (∀ k, |E k| + B k ≤ 2 ^ 20) →
      Shown s (n + 1) v d (fun k => κ k * E k) (fun k => κ k * B k + (|E k| + B k) / 2 ^ 53 + 1 / 2 ^ 200)

/-- All lines close to the exact line of sight `R` show nearly the same with `n` mirrors and transparent surfaces at most: the colour `E`, but for `B`,
including what the program may be off. -/
def SteadyWith (s : Scene Flo) (n : ℕ) (R : Ray ℝ) (E B : Primary → ℝ) : Prop :=
  ∀ v d, CloseTo R v d → ∃ val tol, Shown s n v d val tol ∧ ∀ k, |val k - E k| + tol k ≤ B k

end BR
