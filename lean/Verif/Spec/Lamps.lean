import Verif.Spec.LitAssembly
import Verif.Spec.Chance
import Verif.Spec.SkyLight
import Verif.Model.Sequence

/-! Specification of what is seen along a ray in a scene with lamps of any kind: lamps that have a size are seen, and light up
surfaces from a random place on them. -/

namespace BR

/-- The light of a lamp at one moment: where it comes from, and what arrives at each place if nothing is in the way. -/
structure Flash where
  pos : Vec ℝ
  light : Vec ℝ → Color ℝ

/-- A lamp: its light for each pair of random numbers. -/
abbrev Emitter := ℝ × ℝ → Flash

/-- The light that falls on a surface at `p` with unit normal `n`: what gets there, times the cosine of the angle of
incidence. Nothing if the light does not come from the front. `pass R len c c'` tells that of light `c` that goes along the
ray `R` for a distance `len`, what is in the way lets `c'` pass. -/
def Arrives (pass : Ray ℝ → ℝ → Color ℝ → Color ℝ → Prop) (p n : Vec ℝ) (l : Flash) (C : Color ℝ) : Prop :=
  let d : Vec ℝ := l.pos.sub p
  (d.dot n ≤ 0 ∧ C = ⟨0, 0, 0⟩) ∨
  (0 < d.dot n ∧ ∃ c, pass ⟨p, unitVec d⟩ (length3 d) (l.light p) c ∧
    C = ⟨c.R * (d.dot n / length3 d), c.G * (d.dot n / length3 d), c.B * (d.dot n / length3 d)⟩)

/-- The light of all lamps that falls on a surface, each with a pair of random numbers for which `draw` holds. -/
def AllArrive (draw : ℝ × ℝ → Prop) (pass : Ray ℝ → ℝ → Color ℝ → Color ℝ → Prop) (p n : Vec ℝ) : List Emitter → Color ℝ → Prop
  | [], C => C = ⟨0, 0, 0⟩
  | l :: ls, C => ∃ q A B, draw q ∧ Arrives pass p n (l q) A ∧ AllArrive draw pass p n ls B ∧
      C = ⟨A.R + B.R, A.G + B.G, A.B + B.B⟩

/-- The colour that a surface sends back along the ray `R` that meets it at distance `T`, where the unit normal is `N`. Where
random numbers are needed they are pairs for which `draw` holds. `next .direct` is what is seen along other rays, `next
.indirect` is what is seen when the lamps are black: matte surfaces look for the lamps by themselves, and clear surfaces do
not show lamps. -/
def GivesIn (draw : ℝ × ℝ → Prop) (pass : Ray ℝ → ℝ → Color ℝ → Color ℝ → Prop) (lamps : List Emitter)
    (next : Field → Ray ℝ → Color ℝ → Prop) (R : Ray ℝ) (T : ℝ) (N : Vec ℝ) : Surface → Color ℝ → Prop
  | .glow c, C => C = c
  | .matte k, C => ∃ q A B, draw q ∧
      AllArrive draw pass ((R.at T).add ((facing N R.dir).mul gap)) (facing N R.dir) lamps A ∧
      next .indirect ⟨(R.at T).add ((facing N R.dir).mul (2 * gap)), cosineSphere q.1 q.2 (facing N R.dir)⟩ B ∧
      C = ⟨k.R * (A.R + B.R), k.G * (A.G + B.G), k.B * (A.B + B.B)⟩
  | .mirror k, C => ∃ w B, IsMirror R.dir N w ∧ next .direct ⟨R.at (T - gap), w⟩ B ∧ C = ⟨k.R * B.R, k.G * B.G, k.B * B.B⟩
  | .varnish n under, C => ∃ w A B ci ct ρ, ci = |N.dot R.dir| ∧ 0 ≤ ct ∧ 1 - ci ^ 2 = n ^ 2 * (1 - ct ^ 2) ∧
      ρ = fresnelR 1 n ci ct ∧ GivesIn draw pass lamps next R T N under A ∧ IsMirror R.dir N w ∧
      next .direct ⟨R.at (T - gap), w⟩ B ∧
      C = ⟨ρ * B.R + (1 - ρ) * A.R, ρ * B.G + (1 - ρ) * A.G, ρ * B.B + (1 - ρ) * A.B⟩
  | .glass n1 n2, C => ∃ I, IsIncidence n1 n2 R.dir N I ∧
      ((I.m₁ * I.sinI > I.m₂ ∧ ∃ w, IsMirror R.dir N w ∧ next .direct ⟨R.at (T - gap), w⟩ C) ∨
       (I.m₁ * I.sinI ≤ I.m₂ ∧ ∃ t w A B ρ, t.dot t = 1 ∧ t.dot I.n ≤ 0 ∧
          (I.tangential t).mul I.m₂ = (I.tangential I.i).mul I.m₁ ∧ IsMirror I.i I.n w ∧
          ρ = fresnelR I.m₁ I.m₂ (-I.i.dot I.n) (-t.dot I.n) ∧ next .direct ⟨R.at (T + gap), t⟩ A ∧
          next .direct ⟨R.at (T - gap), w⟩ B ∧
          C = ⟨ρ * B.R + (1 - ρ) * A.R, ρ * B.G + (1 - ρ) * A.G, ρ * B.B + (1 - ρ) * A.B⟩))
  | .clear k, C => ∃ B, next .indirect ⟨R.at (T + gap), R.dir⟩ B ∧ C = ⟨k.R * B.R, k.G * B.G, k.B * B.B⟩
  | .mix a X b Y, C => ∃ A B, (a ≠ 0 → GivesIn draw pass lamps next R T N X A) ∧ (b ≠ 0 → GivesIn draw pass lamps next R T N Y B) ∧
      C = ⟨a * A.R + b * B.R, a * A.G + b * B.G, a * A.B + b * B.B⟩
  | .sides X Y, C => (0 < R.dir.dot N ∧ GivesIn draw pass lamps next R T N X C) ∨
      (R.dir.dot N ≤ 0 ∧ GivesIn draw pass lamps next R T N Y C)

/-- The body in black. -/
def Body.dark (b : Body) : Body := ⟨b.on, b.normal, fun _ => .glow ⟨0, 0, 0⟩⟩

/-- What there is: the colours of the sky, the things, the lamps and how the lamps look. -/
structure Setting where
  sky : Option (Vec ℝ → Color ℝ)
  things : List (List Body)
  lamps : List Emitter
  shapes : List (List Body)

/-- What is seen: the things, and the lamps as they look or in black. -/
def Setting.visible (G : Setting) : Field → List (List Body)
  | .direct => G.things ++ G.shapes
  | .indirect => G.things ++ G.shapes.map (List.map Body.dark)

/-- `C` is what is seen along the ray when light is followed over at most `n` surfaces: what is first met sends back, the colour
of the sky in the direction of the ray if there is nothing. At the first surface met the random numbers are chosen by
`draw 0`, at the second by `draw 1`, and so on. -/
def LooksIn (G : Setting) : (ℕ → ℝ × ℝ → Prop) → Nat → Field → Ray ℝ → Color ℝ → Prop
  | _, 0, _, _, C => C = ⟨0, 0, 0⟩
  | draw, n + 1, fld, R, C =>
    (∃ b T, Meets (G.visible fld).flatten R b T ∧
      GivesIn (draw 0) (fun R' len => ThroughAll R' len G.things) G.lamps
        (LooksIn G (fun i => draw (i + 1)) n) R T (b.normal (R.at T)) (b.look (R.at T)) C) ∨
    ((∀ b ∈ (G.visible fld).flatten, ∀ T > 0, ¬ b.on (R.at T)) ∧ C = skyColor G.sky R.dir)

/-- All rays that a surface casts, as in `Casts`. -/
def CastsIn (shadow : Ray ℝ → ℝ → Prop) (next : Field → Ray ℝ → Prop) (lamps : List Emitter) (R : Ray ℝ) (T : ℝ) (N : Vec ℝ) :
    Surface → Prop
  | .glow _ => True
  | .matte _ =>
      (∀ l ∈ lamps, ∀ q ∈ unitSq,
        let p := (R.at T).add ((facing N R.dir).mul gap)
        let d : Vec ℝ := (l q).pos.sub p
        (l q).pos ≠ p ∧ (0 < d.dot (facing N R.dir) → shadow ⟨p, unitVec d⟩ (length3 d))) ∧
      ∀ ω : Vec ℝ, ω.dot ω = 1 → 0 ≤ ω.dot (facing N R.dir) →
        next .indirect ⟨(R.at T).add ((facing N R.dir).mul (2 * gap)), ω⟩
  | .mirror _ => ∀ w, IsMirror R.dir N w → next .direct ⟨R.at (T - gap), w⟩
  | .varnish _ under => (∀ w, IsMirror R.dir N w → next .direct ⟨R.at (T - gap), w⟩) ∧ CastsIn shadow next lamps R T N under
  | .glass n1 n2 => ∀ I, IsIncidence n1 n2 R.dir N I →
      (∀ w, IsMirror R.dir N w ∨ IsMirror I.i I.n w → next .direct ⟨R.at (T - gap), w⟩) ∧
      (I.m₁ * I.sinI ≤ I.m₂ → ∀ t : Vec ℝ, t.dot t = 1 → t.dot I.n ≤ 0 →
        (I.tangential t).mul I.m₂ = (I.tangential I.i).mul I.m₁ → next .direct ⟨R.at (T + gap), t⟩)
  | .clear _ => next .indirect ⟨R.at (T + gap), R.dir⟩
  | .mix _ X _ Y => CastsIn shadow next lamps R T N X ∧ CastsIn shadow next lamps R T N Y
  | .sides X Y => (0 < R.dir.dot N → CastsIn shadow next lamps R T N X) ∧ (R.dir.dot N ≤ 0 → CastsIn shadow next lamps R T N Y)

/-- The objects of the scene and of its lamps present what there is along the ray, and along all rays that are cast when it is
followed over at most `n` surfaces, as in `Followed`. -/
def FollowedIn (G : Setting) (s : Scene Ext) : Nat → Field → Ray ℝ → Prop
  | 0, _, _ => True
  | n + 1, fld, R =>
    List.Forall₂ (StandsFor G.sky (G.sky ≠ none ∨ ∃ b ∈ (G.visible fld).flatten, ∃ T > 0, T < 9 * 10 ^ 99 ∧ b.on (R.at T)) R)
      (s.seen fld) (G.visible fld) ∧
    (∀ col, G.sky = some col → (∃ o ∈ s.seen fld, IsSky col o) ∧ ∀ b ∈ (G.visible fld).flatten, ∀ T > 0, b.on (R.at T) →
      ∃ b' ∈ (G.visible fld).flatten, ∃ T' > 0, T' < 10 ^ 99 ∧ b'.on (R.at T')) ∧
    ∀ b T, Meets (G.visible fld).flatten R b T →
      CastsIn (fun R' len => List.Forall₂ (StandsFor G.sky (len ≤ 9 * 10 ^ 99) R') s.objects G.things ∧ (G.sky ≠ none → len ≤ 10 ^ 99))
        (FollowedIn G s n) G.lamps R T (b.normal (R.at T)) (b.look (R.at T))

/-- The pair is a pair of finite numbers in the unit square. -/
def InUnitSq (uv : Ext × Ext) : Prop := ∃ q ∈ unitSq, uv.1.Is q.1 ∧ uv.2.Is q.2

/-- The light of the program is this lamp: asked from a place where its light does not come from, with a random pair, it
gives the light of that pair. -/
def Emits (l : Light Ext) (E : Emitter) : Prop :=
  ∀ (S : Type) (rng : Rng Ext S) (ctx ctx' : Ctx Ext S) (uv : Ext × Ext) (q : ℝ × ℝ) (p : Vec Ext) (P : Vec ℝ),
    ctx.generate2 rng = .ok (uv, ctx') → uv.1.Is q.1 → uv.2.Is q.2 → q ∈ unitSq → p.Is P → (E q).pos ≠ P →
    ∃ pos c ctx'', l.sample rng p ctx = .ok ((pos, c), ctx'') ∧ pos.Is (E q).pos ∧ c.Is ((E q).light P) ∧
      (ctx'' = ctx ∨ ctx'' = ctx')

/-- At the first surface met the random pairs are `a`, at the second they are `b`, and anywhere in the unit square further
on. -/
def Chosen (a b : ℝ × ℝ) : ℕ → ℝ × ℝ → Prop
  | 0, q => q = a
  | 1, q => q = b
  | _, q => q ∈ unitSq

/-- A lamp without size: the light is its power over the area of the sphere. -/
noncomputable def bulbLamp (L : Bulb) : Emitter := fun _ => ⟨L.pos, fun p =>
  ⟨L.power.R / (4 * Real.pi * length3 (L.pos.sub p) ^ 2), L.power.G / (4 * Real.pi * length3 (L.pos.sub p) ^ 2),
    L.power.B / (4 * Real.pi * length3 (L.pos.sub p) ^ 2)⟩⟩

/-- The light at `p` of a horizontal patch at `x` that looks as bright as `b` from all directions below it (and black from
above): it falls off with the squared distance, and with the cosine of the angle to the vertical. -/
noncomputable def patchLight (b : Color ℝ) (area : ℝ) (x p : Vec ℝ) : Color ℝ :=
  let k := area / Real.pi * (max 0 (x.y - p.y) / length3 (x.sub p)) / length3 (x.sub p) ^ 2
  ⟨b.R * k, b.G * k, b.B * k⟩

/-- A horizontal rectangle of `w` by `h` around `c`, as bright as `b`, shining downwards from a random place on it. -/
noncomputable def rectLamp (b : Color ℝ) (w h : ℝ) (c : Vec ℝ) : Emitter := fun q =>
  let x : Vec ℝ := ⟨c.x + (q.1 - 1 / 2) * w, c.y + gap, c.z + (q.2 - 1 / 2) * h⟩
  ⟨x, patchLight b (w * h) x⟩

/-- A horizontal disk around `c`. -/
noncomputable def diskLamp (b : Color ℝ) (diam : ℝ) (c : Vec ℝ) : Emitter := fun q =>
  let x : Vec ℝ := ⟨c.x + diam / 2 * (Real.sqrt q.2 * Real.cos (2 * Real.pi * q.1)), c.y + gap,
    c.z + diam / 2 * (Real.sqrt q.2 * Real.sin (2 * Real.pi * q.1))⟩
  ⟨x, patchLight b (Real.pi * (diam / 2) ^ 2) x⟩

/-- The light of the lamp that falls on the surface is determined by the random pair, in a tame way, and its mean is `M`. -/
def MeanLight (pass : Ray ℝ → ℝ → Color ℝ → Color ℝ → Prop) (p n : Vec ℝ) (E : Emitter) (M : Color ℝ) : Prop :=
  ∃ light : ℝ × ℝ → Color ℝ, (∀ q ∈ unitSq, ∀ C, Arrives pass p n (E q) C → C = light q) ∧
    Tame unitSq (fun q => (light q).R) ∧ Tame unitSq (fun q => (light q).G) ∧ Tame unitSq (fun q => (light q).B) ∧
    M = ⟨∫ q in unitSq, (light q).R, ∫ q in unitSq, (light q).G, ∫ q in unitSq, (light q).B⟩

/-- Colours added up. -/
def total : List (Color ℝ) → Color ℝ
  | [] => ⟨0, 0, 0⟩
  | A :: l => ⟨A.R + (total l).R, A.G + (total l).G, A.B + (total l).B⟩

/-- Something of the bodies is in the way of light that comes to `p` from the direction `d`, within the distance `t`. -/
def InTheWay (bodies : List Body) (p d : Vec ℝ) (t : ℝ) : Prop :=
  ∃ b ∈ bodies, ∃ T > 0, T < t ∧ b.on ((⟨p, d⟩ : Ray ℝ).at T)

open Classical in
/-- The part of what one sees from `p`, on a surface with the normal `n`, that is the area `A` of the plane at the height `y`:
each direction counts with the cosine of its angle to `n`, and only where no body is in the way. -/
noncomputable def lampShare (e e' n : Vec ℝ) (bodies : List Body) (p : Vec ℝ) (A : Set (ℝ × ℝ)) (y : ℝ) : ℝ :=
  cosineMean e e' n fun ω => if SeesArea (InTheWay bodies p) A y p ω then 1 else 0

end BR
