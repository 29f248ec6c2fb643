import Verif.Spec.Picture
import Verif.Spec.Optics

/-! Specification of what is seen along a ray in a scene of glowing, matte, mirroring, varnished and transparent bodies
lit by point lamps. -/

namespace BR

/-- What a surface is made of at a point. -/
inductive Surface
  /-- shines with this colour, whatever light falls on it -/
  | glow (c : Color ℝ)
  /-- scatters this fraction of the light that falls on it evenly in all directions -/
  | matte (k : Color ℝ)
  /-- a mirror that reflects this fraction -/
  | mirror (k : Color ℝ)
  /-- a coat of refractive index `n` on top of another surface -/
  | varnish (n : ℝ) (under : Surface)
  /-- the border of a body of refractive index `n2` in a medium of index `n1` -/
  | glass (n1 n2 : ℝ)
  /-- lets this fraction of the light pass straight on -/
  | clear (k : Color ℝ)
  /-- `a` times the one plus `b` times the other -/
  | mix (a : ℝ) (A : Surface) (b : ℝ) (B : Surface)
  /-- the one where rays go along the normal, the other where they go against it -/
  | sides (A B : Surface)

/-- A body: the points of its surface, the unit normal there and what it is made of. -/
structure Body where
  on : Vec ℝ → Prop
  normal : Vec ℝ → Vec ℝ
  look : Vec ℝ → Surface

/-- A lamp shines evenly in all directions. -/
structure Bulb where
  pos : Vec ℝ
  power : Color ℝ

/-- Rays cast from a surface start this far from it. -/
noncomputable def gap : ℝ := 1 / (1204 * 1024)

/-- The ray first meets the body after a distance `T`. -/
def Body.First (b : Body) (R : Ray ℝ) (T : ℝ) : Prop :=
  0 < T ∧ b.on (R.at T) ∧ ∀ T' > 0, b.on (R.at T') → T ≤ T'

/-- Of all bodies, the ray first meets `b`, after a distance `T`. -/
def Meets (bodies : List Body) (R : Ray ℝ) (b : Body) (T : ℝ) : Prop :=
  b ∈ bodies ∧ b.First R T ∧ ∀ other ∈ bodies, ∀ T' > 0, other.on (R.at T') → T ≤ T'

/-- Of light `c` that goes along the ray for a distance `len`, the bodies let `c'` pass. Each clear body in the way takes
its share where the ray first meets it; others stop the light. -/
def Through (R : Ray ℝ) (len : ℝ) : List Body → Color ℝ → Color ℝ → Prop
  | [], c, c' => c' = c
  | b :: bs, c, c' =>
    ((∀ T > 0, b.on (R.at T) → len ≤ T) ∧ Through R len bs c c') ∨
    (∃ T < len, b.First R T ∧ ∃ k, b.look (R.at T) = .clear k ∧
      Through R len bs ⟨c.R * k.R, c.G * k.G, c.B * k.B⟩ c') ∨
    (∃ T < len, b.First R T ∧ (∀ k, b.look (R.at T) ≠ .clear k) ∧ c' = ⟨0, 0, 0⟩)

/-- The length of a vector. -/
noncomputable def length3 (d : Vec ℝ) : ℝ := Real.sqrt (d.x ^ 2 + d.y ^ 2 + d.z ^ 2)

/-- Light of the lamp that falls on a surface at `p` with unit normal `n`: what gets there of its power over `4π` times the
squared distance, times the cosine of the angle of incidence. Nothing if the lamp is not in front of the surface.
`pass R len c c'` tells that of light `c` that goes along the ray `R` for a distance `len`, what is in the way lets `c'`
pass. -/
def FallsOn (pass : Ray ℝ → ℝ → Color ℝ → Color ℝ → Prop) (p n : Vec ℝ) (l : Bulb) (C : Color ℝ) : Prop :=
  let d : Vec ℝ := ⟨l.pos.x - p.x, l.pos.y - p.y, l.pos.z - p.z⟩
  let cosine := (d.x * n.x + d.y * n.y + d.z * n.z) / length3 d
  let k := 1 / (4 * Real.pi * length3 d ^ 2)
  (cosine ≤ 0 ∧ C = ⟨0, 0, 0⟩) ∨
  (0 < cosine ∧ ∃ c, pass ⟨p, ⟨d.x / length3 d, d.y / length3 d, d.z / length3 d⟩⟩ (length3 d)
      ⟨l.power.R * k, l.power.G * k, l.power.B * k⟩ c ∧ C = ⟨c.R * cosine, c.G * cosine, c.B * cosine⟩)

/-- The light of all lamps that falls on a surface. -/
def AllFallsOn (pass : Ray ℝ → ℝ → Color ℝ → Color ℝ → Prop) (p n : Vec ℝ) : List Bulb → Color ℝ → Prop
  | [], C => C = ⟨0, 0, 0⟩
  | l :: ls, C => ∃ A B, FallsOn pass p n l A ∧ AllFallsOn pass p n ls B ∧ C = ⟨A.R + B.R, A.G + B.G, A.B + B.B⟩

/-- All lamps are farther from all surfaces than `gap`. -/
def LampsApart (bodies : List Body) (lamps : List Bulb) : Prop :=
  ∀ b ∈ bodies, ∀ L ∈ lamps, ∀ p, b.on p → gap < length3 (L.pos.sub p)

open Classical in
/-- The unit normal on the side from which direction `d` comes. -/
noncomputable def facing (n d : Vec ℝ) : Vec ℝ := if 0 < n.dot d then ⟨-n.x, -n.y, -n.z⟩ else n

/-- Any direction `ω` on the side of the unit normal `n`. -/
def AnyAbove (n ω : Vec ℝ) : Prop := ω.dot ω = 1 ∧ 0 ≤ ω.dot n

/-- The colour that a surface sends back along the ray `R` that meets it at distance `T`, where the unit normal is `N`.
`next` is what is seen along other rays. A matte surface scatters, besides the light of the lamps, the light from one
direction `ω`: one for which `scatter n ω` holds, where `n` is the unit normal on the side of the viewer. -/
def Gives (scatter : Vec ℝ → Vec ℝ → Prop) (pass : Ray ℝ → ℝ → Color ℝ → Color ℝ → Prop) (lamps : List Bulb)
    (next : Ray ℝ → Color ℝ → Prop) (R : Ray ℝ) (T : ℝ) (N : Vec ℝ) : Surface → Color ℝ → Prop
  | .glow c, C => C = c
  | .matte k, C => ∃ ω A B, scatter (facing N R.dir) ω ∧
      AllFallsOn pass ((R.at T).add ((facing N R.dir).mul gap)) (facing N R.dir) lamps A ∧
      next ⟨(R.at T).add ((facing N R.dir).mul (2 * gap)), ω⟩ B ∧
      C = ⟨k.R * (A.R + B.R), k.G * (A.G + B.G), k.B * (A.B + B.B)⟩
  | .mirror k, C => ∃ w B, IsMirror R.dir N w ∧ next ⟨R.at (T - gap), w⟩ B ∧ C = ⟨k.R * B.R, k.G * B.G, k.B * B.B⟩
  | .varnish n under, C => ∃ w A B ci ct ρ, ci = |N.dot R.dir| ∧ 0 ≤ ct ∧ 1 - ci ^ 2 = n ^ 2 * (1 - ct ^ 2) ∧
      ρ = fresnelR 1 n ci ct ∧ Gives scatter pass lamps next R T N under A ∧ IsMirror R.dir N w ∧ next ⟨R.at (T - gap), w⟩ B ∧
      C = ⟨ρ * B.R + (1 - ρ) * A.R, ρ * B.G + (1 - ρ) * A.G, ρ * B.B + (1 - ρ) * A.B⟩
  | .glass n1 n2, C => ∃ I, IsIncidence n1 n2 R.dir N I ∧
      ((I.m₁ * I.sinI > I.m₂ ∧ ∃ w, IsMirror R.dir N w ∧ next ⟨R.at (T - gap), w⟩ C) ∨
       (I.m₁ * I.sinI ≤ I.m₂ ∧ ∃ t w A B ρ, t.dot t = 1 ∧ t.dot I.n ≤ 0 ∧
          (I.tangential t).mul I.m₂ = (I.tangential I.i).mul I.m₁ ∧ IsMirror I.i I.n w ∧
          ρ = fresnelR I.m₁ I.m₂ (-I.i.dot I.n) (-t.dot I.n) ∧ next ⟨R.at (T + gap), t⟩ A ∧
          next ⟨R.at (T - gap), w⟩ B ∧
          C = ⟨ρ * B.R + (1 - ρ) * A.R, ρ * B.G + (1 - ρ) * A.G, ρ * B.B + (1 - ρ) * A.B⟩))
  | .clear k, C => ∃ B, next ⟨R.at (T + gap), R.dir⟩ B ∧ C = ⟨k.R * B.R, k.G * B.G, k.B * B.B⟩
  | .mix a X b Y, C => ∃ A B, (a ≠ 0 → Gives scatter pass lamps next R T N X A) ∧ (b ≠ 0 → Gives scatter pass lamps next R T N Y B) ∧
      C = ⟨a * A.R + b * B.R, a * A.G + b * B.G, a * A.B + b * B.B⟩
  | .sides X Y, C => (0 < R.dir.dot N ∧ Gives scatter pass lamps next R T N X C) ∨
      (R.dir.dot N ≤ 0 ∧ Gives scatter pass lamps next R T N Y C)

/-- `C` is what is seen along the ray when light is followed over at most `n` surfaces: what the body first met sends
back, black if there is none. Matte surfaces scatter light from any direction on the side of the viewer. -/
def Looks (bodies : List Body) (lamps : List Bulb) : Nat → Ray ℝ → Color ℝ → Prop
  | 0, _, C => C = ⟨0, 0, 0⟩
  | n + 1, R, C =>
    (∃ b T, Meets bodies R b T ∧
      Gives AnyAbove (fun R' len => Through R' len bodies) lamps (Looks bodies lamps n) R T (b.normal (R.at T)) (b.look (R.at T)) C) ∨
    ((∀ b ∈ bodies, ∀ T > 0, ¬ b.on (R.at T)) ∧ C = ⟨0, 0, 0⟩)

end BR
