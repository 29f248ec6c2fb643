import Verif.Spec.LitScene

/-! Specification of what is seen along a ray in a scene of things that are put together from lit bodies. -/

namespace BR

/-- Of light `c` that goes along the ray for a distance `len`, the things, each made of some bodies, let `c'` pass. Each
thing takes the share of what the ray first meets of it, if that is clear; otherwise it stops the light. -/
def ThroughAll (R : Ray ℝ) (len : ℝ) : List (List Body) → Color ℝ → Color ℝ → Prop
  | [], c, c' => c' = c
  | th :: ths, c, c' =>
    ((∀ b ∈ th, ∀ T > 0, b.on (R.at T) → len ≤ T) ∧ ThroughAll R len ths c c') ∨
    (∃ b, ∃ T < len, Meets th R b T ∧ ∃ k, b.look (R.at T) = .clear k ∧
      ThroughAll R len ths ⟨c.R * k.R, c.G * k.G, c.B * k.B⟩ c') ∨
    (∃ b, ∃ T < len, Meets th R b T ∧ (∀ k, b.look (R.at T) ≠ .clear k) ∧ c' = ⟨0, 0, 0⟩)

/-- `C` is what is seen along the ray when light is followed over at most `n` surfaces: what the body first met sends
back, the colour of the sky in the direction of the ray if there is none. Where the first surface met is matte it scatters
light from a direction chosen by `scatter 0`, the second surface by `scatter 1`, and so on. -/
def LooksBy (sky : Vec ℝ → Color ℝ) (things : List (List Body)) (lamps : List Bulb) :
    (ℕ → Vec ℝ → Vec ℝ → Prop) → Nat → Ray ℝ → Color ℝ → Prop
  | _, 0, _, C => C = ⟨0, 0, 0⟩
  | scatter, n + 1, R, C =>
    (∃ b T, Meets things.flatten R b T ∧
      Gives (scatter 0) (fun R' len => ThroughAll R' len things) lamps
        (LooksBy sky things lamps (fun i => scatter (i + 1)) n) R T (b.normal (R.at T)) (b.look (R.at T)) C) ∨
    ((∀ b ∈ things.flatten, ∀ T > 0, ¬ b.on (R.at T)) ∧ C = sky R.dir)

/-- The same, where matte surfaces scatter light from any direction on the side of the viewer. -/
def LooksAll (sky : Vec ℝ → Color ℝ) (things : List (List Body)) (lamps : List Bulb) : Nat → Ray ℝ → Color ℝ → Prop :=
  LooksBy sky things lamps fun _ => AnyAbove

/-- The hit tells the direction of the normal and the kind of surface at a point of the body. -/
def TellsOf (b : Body) (P : Vec ℝ) (hit : HitRecord Ext (Mat Ext)) : Prop :=
  ∃ N m, hit.normal.Is N ∧ N ≠ ⟨0, 0, 0⟩ ∧ unitVec N = b.normal P ∧ hit.mat = some m ∧ m.Appears hit.loc (b.look P)

/-- Along the ray, the object presents the bodies: it reports a nearest point of all of them, with the direction of the
normal and a material that is the kind of surface there. Where there is none it reports a miss or, if `ghost`, something
at a distance that is not below `9e99` (as trees with at most seven members do). -/
def PresentsAll (ghost : Prop) (R : Ray ℝ) (o : Obj Ext (Mat Ext)) (bodies : List Body) : Prop :=
  ∀ r : Ray Ext, r.Is R → ∃ hit, o.intersect r = .ok (hit, r) ∧
    ((∃ T, ∃ b ∈ bodies, hit.t.Is T ∧ 0 < T ∧ b.on (R.at T) ∧ TellsOf b (R.at T) hit ∧
        ∀ other ∈ bodies, ∀ T' > 0, other.on (R.at T') → T ≤ T') ∨
      ((∀ b ∈ bodies, ∀ T > 0, ¬ b.on (R.at T)) ∧
        ((lit 0 <. hit.t) = false ∨ ghost ∧ (hit.t <. (lit (9 * 10 ^ 99) : Ext)) = false)))

/-- The object is a sky of these colours, which depend on the direction in which one looks. -/
def IsSky (col : Vec ℝ → Color ℝ) (o : Obj Ext (Mat Ext)) : Prop :=
  ∃ tex, o = .backdrop (some (.flat tex)) ∧ ∀ d D, d.Is D → ∃ c, tex d = .ok c ∧ c.Is (col D)

/-- Along the ray, the object presents the bodies; or there are none and it is the sky. -/
def StandsFor (sky : Option (Vec ℝ → Color ℝ)) (ghost : Prop) (R : Ray ℝ) (o : Obj Ext (Mat Ext)) (bodies : List Body) : Prop :=
  PresentsAll ghost R o bodies ∨ bodies = [] ∧ ∃ col, sky = some col ∧ IsSky col o

/-- The colours of the sky, black if there is none. -/
def skyColor (sky : Option (Vec ℝ → Color ℝ)) : Vec ℝ → Color ℝ := sky.getD fun _ => ⟨0, 0, 0⟩

/-- All rays that a surface casts when it is met by the ray `R` at the distance `T`, where the unit normal is `N`: those
towards lamps, with the distance of the lamp, satisfy `shadow`; those on which it asks for what is seen satisfy `next`. No
lamp is where the rays towards lamps start. -/
def Casts (shadow : Ray ℝ → ℝ → Prop) (next : Ray ℝ → Prop) (lamps : List Bulb) (R : Ray ℝ) (T : ℝ) (N : Vec ℝ) :
    Surface → Prop
  | .glow _ => True
  | .matte _ =>
      (∀ L ∈ lamps,
        let p := (R.at T).add ((facing N R.dir).mul gap)
        let d : Vec ℝ := L.pos.sub p
        L.pos ≠ p ∧ (0 < d.dot (facing N R.dir) → shadow ⟨p, unitVec d⟩ (length3 d))) ∧
      ∀ ω : Vec ℝ, ω.dot ω = 1 → 0 ≤ ω.dot (facing N R.dir) → next ⟨(R.at T).add ((facing N R.dir).mul (2 * gap)), ω⟩
  | .mirror _ => ∀ w, IsMirror R.dir N w → next ⟨R.at (T - gap), w⟩
  | .varnish _ under => (∀ w, IsMirror R.dir N w → next ⟨R.at (T - gap), w⟩) ∧ Casts shadow next lamps R T N under
  | .glass n1 n2 => ∀ I, IsIncidence n1 n2 R.dir N I →
      (∀ w, IsMirror R.dir N w ∨ IsMirror I.i I.n w → next ⟨R.at (T - gap), w⟩) ∧
      (I.m₁ * I.sinI ≤ I.m₂ → ∀ t : Vec ℝ, t.dot t = 1 → t.dot I.n ≤ 0 →
        (I.tangential t).mul I.m₂ = (I.tangential I.i).mul I.m₁ → next ⟨R.at (T + gap), t⟩)
  | .clear _ => next ⟨R.at (T + gap), R.dir⟩
  | .mix _ X _ Y => Casts shadow next lamps R T N X ∧ Casts shadow next lamps R T N Y
  | .sides X Y => (0 < R.dir.dot N → Casts shadow next lamps R T N X) ∧ (R.dir.dot N ≤ 0 → Casts shadow next lamps R T N Y)

/-- The objects present the things along the ray, and along all rays that are cast when it is followed over at most `n`
surfaces; they may include the sky, which is beyond all things met and beyond the lamps. Ghosts do not matter behind what is
met, before the sky, nor behind lamps. -/
def Followed (sky : Option (Vec ℝ → Color ℝ)) (objs : List (Obj Ext (Mat Ext))) (things : List (List Body)) (lamps : List Bulb) :
    Nat → Ray ℝ → Prop
  | 0, _ => True
  | n + 1, R =>
    List.Forall₂ (StandsFor sky (sky ≠ none ∨ ∃ b ∈ things.flatten, ∃ T > 0, T < 9 * 10 ^ 99 ∧ b.on (R.at T)) R) objs things ∧
    (∀ col, sky = some col → (∃ o ∈ objs, IsSky col o) ∧ ∀ b ∈ things.flatten, ∀ T > 0, b.on (R.at T) →
      ∃ b' ∈ things.flatten, ∃ T' > 0, T' < 10 ^ 99 ∧ b'.on (R.at T')) ∧
    ∀ b T, Meets things.flatten R b T →
      Casts (fun R' len => List.Forall₂ (StandsFor sky (len ≤ 9 * 10 ^ 99) R') objs things ∧ (sky ≠ none → len ≤ 10 ^ 99))
        (Followed sky objs things lamps n) lamps R T (b.normal (R.at T)) (b.look (R.at T))

/-! ## Bodies made from others -/

/-- The map multiplies all distances by `k`. -/
def IsSimilarity (k : ℝ) (T : Vec ℝ → Vec ℝ) : Prop := ∀ p q, length3 ((T p).sub (T q)) = k * length3 (p.sub q)

/-- `b'` is the body `b`, placed by a map `T` of space that multiplies distances by `k`: the same surfaces and the moved
normals. -/
def Body.PlacedBy (k : ℝ) (T : Vec ℝ → Vec ℝ) (b b' : Body) : Prop :=
  ∀ q, (b'.on (T q) ↔ b.on q) ∧
    (b.on q → b'.look (T q) = b.look q ∧ (T (q.add (b.normal q))).sub (T q) = (b'.normal (T q)).mul k)

/-- The part of the body where `P` holds. -/
def Body.part (P : Vec ℝ → Prop) (b : Body) : Body := ⟨fun p => b.on p ∧ P p, b.normal, b.look⟩

/-- The body with the normals on the other side. -/
def Body.flipped (b : Body) : Body := ⟨b.on, fun p => ⟨-(b.normal p).x, -(b.normal p).y, -(b.normal p).z⟩, b.look⟩

/-- The body made of something else. -/
def Body.coated (X : Surface) (b : Body) : Body := ⟨b.on, b.normal, fun _ => X⟩

/-- The six sides of a box, whose surface is given relative to the lower corner. Each side reaches `1e-8` around the edges:
there, either normal may be reported. -/
def boxSides (B : BBox ℝ) (look : Vec ℝ → Surface) : List Body :=
  [⟨fun p => B.OnSurface p ∧ |p.x - B.min.x| < 1 / 10 ^ 8, fun _ => ⟨-1, 0, 0⟩, fun p => look (p.sub B.min)⟩,
   ⟨fun p => B.OnSurface p ∧ |p.x - B.max.x| < 1 / 10 ^ 8, fun _ => ⟨1, 0, 0⟩, fun p => look (p.sub B.min)⟩,
   ⟨fun p => B.OnSurface p ∧ |p.y - B.min.y| < 1 / 10 ^ 8, fun _ => ⟨0, -1, 0⟩, fun p => look (p.sub B.min)⟩,
   ⟨fun p => B.OnSurface p ∧ |p.y - B.max.y| < 1 / 10 ^ 8, fun _ => ⟨0, 1, 0⟩, fun p => look (p.sub B.min)⟩,
   ⟨fun p => B.OnSurface p ∧ |p.z - B.min.z| < 1 / 10 ^ 8, fun _ => ⟨0, 0, -1⟩, fun p => look (p.sub B.min)⟩,
   ⟨fun p => B.OnSurface p ∧ |p.z - B.max.z| < 1 / 10 ^ 8, fun _ => ⟨0, 0, 1⟩, fun p => look (p.sub B.min)⟩]

/-- Something solid: the bodies that make up its surface, and what is within. -/
structure LitSolid where
  surface : List Body
  within : Vec ℝ → Prop

/-- What is within both solids. Its surface is that of each where it is within the other. -/
def LitSolid.and (A B : LitSolid) : LitSolid :=
  ⟨A.surface.map (Body.part B.within) ++ B.surface.map (Body.part A.within), fun p => A.within p ∧ B.within p⟩

/-- What is within one of the solids. Its surface is that of each where it is not within the other. -/
def LitSolid.or (A B : LitSolid) : LitSolid :=
  ⟨A.surface.map (Body.part fun p => ¬ B.within p) ++ B.surface.map (Body.part fun p => ¬ A.within p),
    fun p => A.within p ∨ B.within p⟩

/-- All but the solid, with the normals on the other side. -/
def LitSolid.not (A : LitSolid) : LitSolid := ⟨A.surface.map Body.flipped, fun p => ¬ A.within p⟩

/-- The solid made of something else. -/
def LitSolid.coated (X : Surface) (A : LitSolid) : LitSolid := ⟨A.surface.map (Body.coated X), A.within⟩

/-- `A'` is the solid `A`, placed by a map `T` of space that multiplies distances by `k`. -/
def LitSolid.PlacedBy (k : ℝ) (T : Vec ℝ → Vec ℝ) (A A' : LitSolid) : Prop :=
  List.Forall₂ (Body.PlacedBy k T) A.surface A'.surface ∧ ∀ q, A'.within (T q) ↔ A.within q

end BR
