import Verif.Spec.Lit
import Verif.Spec.FloorSeen
import Verif.Model.Scene

/-! Vocabulary for the brightness of surfaces in double precision. -/

namespace BR

/-- The three colours of light. -/
inductive Primary | red | green | blue

/-- The amount of one of the three colours. -/
def Color.pick {F : Type} (c : Color F) : Primary → F
  | .red => c.R
  | .green => c.G
  | .blue => c.B

/-- What a lamp sends to a surface at `Q` that faces it squarely: its power over the area of the sphere around it. -/
noncomputable def squarely (Q : Vec ℝ) (l : Bulb) (k : Primary) : ℝ := l.power.pick k / (4 * Real.pi * apart l.pos Q ^ 2)

/-- The cosine of the angle between the direction to a lamp and the unit normal `n`; zero if the surface faces away. -/
noncomputable def slant (Q n : Vec ℝ) (l : Bulb) : ℝ :=
  max 0 (((l.pos.x - Q.x) * n.x + (l.pos.y - Q.y) * n.y + (l.pos.z - Q.z) * n.z) / apart l.pos Q)

/-- A thing that may be in the way of light: a ball, a box with level sides, or a level rectangle; or the sky, which is not. -/
inductive Obstacle
  | ball (c : Vec ℝ) (R : ℝ)
  | block (lo hi : Vec ℝ)
  | floor (W D : ℝ) (C : Vec ℝ)
  | sky

/-- The program's object is that thing, with material `m`. -/
inductive Obstacle.Built (m : Option (Mat Flo)) : Obj Flo (Mat Flo) → Obstacle → Prop
  | ball {diam center c R} : center.FIs c → diam.Is (2 * R) → Within 64 c → 0 ≤ R → R ≤ 64 → Built m (Obj.sphere m diam center) (.ball c R)
  | block {b lo hi} : b.min.FIs lo → b.max.FIs hi → Within 1024 lo → Within 1024 hi →
      (lo.x ≤ hi.x ∧ lo.y ≤ hi.y ∧ lo.z ≤ hi.z) → Built m (Obj.box b m) (.block lo hi)
  | floor {K w dp c W D C o} : LevelRectangle w dp c W D C → rectangle K m w dp c = .ok o → Built m o (.floor W D C)
  | sky : Built m (Obj.backdrop m) .sky

/-- The point a fraction `f` of the way from `Q` to `L`. -/
noncomputable def onWay (Q L : Vec ℝ) (f : ℝ) : Vec ℝ := along Q (L.sub Q) f

/-- Light goes from `L` to `Q` without coming within `1/1024` of the surface of the thing. -/
def Obstacle.Clears (Q L : Vec ℝ) : Obstacle → Prop
  | .ball c R => ∀ f, 0 ≤ f → f ≤ 1 → 1 / 1024 ≤ |apart (onWay Q L f) c - R|
  | .block lo hi => ∀ f, 0 ≤ f → f ≤ 1 → ¬OnBox lo hi (1 / 1024) (onWay Q L f)
  | .floor W D C => 1 / 1024 ≤ |Q.y - C.y| ∧
      ∀ f, 0 ≤ f → f ≤ 1 → ¬(|(onWay Q L f).y - C.y| ≤ 1 / 1024 ∧ OverFloor W D C (1 / 1024) (onWay Q L f))
  | .sky => True

/-- The thing is in the way of light from `L` to `Q`. For a solid thing, the point `Q` is clearly outside it, and some point on the
way is clearly inside it. For a floor, the two are on different sides, and while the light is near its height it stays clear of
its edges and of its diagonal (where its two triangles join; light can pass there). -/
def Obstacle.Blocks (Q L : Vec ℝ) : Obstacle → Prop
  | .ball c R => R ^ 2 + 1 / 64 ≤ apart Q c ^ 2 ∧ ∃ f, 0 ≤ f ∧ f ≤ 1 ∧ apart (onWay Q L f) c ^ 2 ≤ R ^ 2 - 1 / 64
  | .block lo hi => ¬InBox lo hi (1 / 1024) Q ∧ ∃ f, 0 ≤ f ∧ f ≤ 1 ∧ InBox lo hi (-(1 / 1024)) (onWay Q L f)
  | .floor W D C => (1 / 1024 ≤ Q.y - C.y ∧ L.y - C.y ≤ -(1 / 1024) ∨ Q.y - C.y ≤ -(1 / 1024) ∧ 1 / 1024 ≤ L.y - C.y) ∧
      ∀ f, 0 ≤ f → f ≤ 1 → |(onWay Q L f).y - C.y| ≤ 1 / 1024 →
        OverFloor W D C (-(1 / 1024)) (onWay Q L f) ∧ 1 / 1024 ≤ |((onWay Q L f).x - C.x) / W + ((onWay Q L f).z - C.z) / D|
  | .sky => False

/-- The lamp of the program stands for the lamp `l` of the specification: it is within 1024 of the origin, and at least `1/8`
from the point `Q`. -/
structure LampFor (Q : Vec ℝ) (pos : Vec Flo) (power : Color Flo) (l : Bulb) : Prop where
  pos : pos.FIs l.pos
  power : ∀ k, (power.pick k).Is (l.power.pick k)
  near : Within 1024 l.pos
  far : 1 / 8 ≤ apart l.pos Q
  nonneg : ∀ k, 0 ≤ l.power.pick k
  weak : ∀ k, l.power.pick k ≤ 10 ^ 12

/-- What the light from `L` to `Q` goes through: it passes all things but some transparent ones of one colour each, which are clearly
in the way; `tints` are their colours, in the order of the list. A thing counts once, even if light meets it twice. -/
inductive Dims (Q L : Vec ℝ) : List (Option (Mat Flo) × Obstacle) → List (Color Flo) → Prop
  | nil : Dims Q L [] []
  | clear {t : Option (Mat Flo) × Obstacle} {ts : List (Option (Mat Flo) × Obstacle)} {tints : List (Color Flo)} :
      t.2.Clears Q L → Dims Q L ts tints → Dims Q L (t :: ts) tints
  | tint {b : Obstacle} {col : Color Flo} {u : Bool} {ts : List (Option (Mat Flo) × Obstacle)} {tints : List (Color Flo)} :
      b.Blocks Q L → Dims Q L ts tints → Dims Q L ((some (.transparent col.tex u), b) :: ts) (col :: tints)

/-- The light from `L` to `Q` is stopped: each thing is clearly passed or clearly in the way, and then opaque or transparent of one colour;
and one that is in the way is opaque. -/
def Darkened (Q L : Vec ℝ) (things : List (Option (Mat Flo) × Obstacle)) : Prop :=
  (∀ t ∈ things, t.2.Clears Q L ∨ t.2.Blocks Q L ∧ (Mat.filter? t.1 = none ∨ ∃ (col : Color Flo) (u : Bool), t.1 = some (.transparent col.tex u))) ∧
    ∃ t ∈ things, t.2.Blocks Q L ∧ Mat.filter? t.1 = none

/-- How much of the light of the lamp arrives at `Q`, and that this is clear: either light passes all things but transparent ones,
and what they let through arrives; or it is stopped. -/
inductive Decided (things : List (Option (Mat Flo) × Obstacle)) (Q : Vec ℝ) (l : Bulb) : (Primary → ℝ) → Prop
  | seen {tints : List (Color Flo)} (κs : List (Primary → ℝ)) : Dims Q l.pos things tints → tints.length ≤ 2 ^ 20 →
      List.Forall₂ (fun t κ => ∀ k, (t.pick k).Is (κ k) ∧ 0 ≤ κ k ∧ κ k ≤ 1) tints κs →
      Decided things Q l (fun k => (κs.map fun κ => κ k).prod)
  | hidden : Darkened Q l.pos things → Decided things Q l (fun _ => 0)

/-- A lamp of the program, the lamp it stands for, and how much of its light arrives at the point in question: all of it (1) if the
lamp is seen, none (0) if it is hidden, or what transparent things let through. -/
structure Fitting where
  pos : Vec Flo
  power : Color Flo
  bulb : Bulb
  part : Primary → ℝ

/-- The lamp in the program. -/
def Fitting.light (x : Fitting) : Light Flo := .point x.pos x.power

/-- The light of the lamp that falls on a surface at `Q` with unit normal `n`, by the laws of optics. -/
noncomputable def Fitting.gives (Q n : Vec ℝ) (k : Primary) (x : Fitting) : ℝ :=
  x.part k * (squarely Q x.bulb k * slant Q n x.bulb)

/-- The light of the lamp that would fall on a surface at `Q` that faces it squarely. -/
noncomputable def Fitting.most (Q : Vec ℝ) (k : Primary) (x : Fitting) : ℝ := x.part k * squarely Q x.bulb k

/-- The direction, up (1) or down (-1), in which a floor at height `h` faces a viewer at height `y`. -/
noncomputable def sideOf (h y : ℝ) : ℝ := if h < y then 1 else -1

/-- The outward unit vector of a side of a box: the upper or the lower one along axis `i`. -/
noncomputable def sideNormal (i : Fin 3) (up : Bool) : Vec ℝ :=
  ⟨if i = 0 then (if up then 1 else -1) else 0, if i = 1 then (if up then 1 else -1) else 0, if i = 2 then (if up then 1 else -1) else 0⟩

/-- How far `p` is outside of that side of the box from `lo` to `hi`. -/
noncomputable def outside (lo hi : Vec ℝ) (i : Fin 3) (up : Bool) (p : Vec ℝ) : ℝ := if up then p.get i - hi.get i else lo.get i - p.get i

/-- The point `Q` is on that side of the box, at least `2^-18` from its edges, and the box is at least that thick. -/
structure OnSide (lo hi : Vec ℝ) (i : Fin 3) (up : Bool) (Q : Vec ℝ) : Prop where
  flush : outside lo hi i up Q = 0
  thick : lo.get i + 1 / 2 ^ 18 ≤ hi.get i
  amid : ∀ j, j ≠ i → lo.get j + 1 / 2 ^ 18 ≤ Q.get j ∧ Q.get j + 1 / 2 ^ 18 ≤ hi.get j

/-- The colour `col` is what a matte surface at `Q` with unit normal `n` must show, if it returns the part `refl` of what it
receives from the lamps and, besides, from its surroundings (`around`): in each channel the error is at most a part in 2048
of the light of the lamps if they all stood squarely above the surface, a part in `2^50` of the light of the surroundings,
and `2^-100`. -/
def RightColor (lamps : List Fitting) (Q n : Vec ℝ) (refl around col : Color Flo) : Prop :=
  ∀ k χ ρ, (around.pick k).Is χ → 0 ≤ χ → χ ≤ 10 ^ 12 → (refl.pick k).Is ρ → 0 ≤ ρ → ρ ≤ 1 →
    ∃ v, (col.pick k).Is v ∧ |v - ρ * ((lamps.map (Fitting.gives Q n k)).sum + χ)| ≤
      1 / 2048 * (lamps.map (Fitting.most Q k)).sum + 1 / 2 ^ 50 * χ + 1 / 2 ^ 100

end BR
