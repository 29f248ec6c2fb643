import Verif.Spec.BoxSeen
import Verif.Spec.Sturdy
import Verif.Model.Camera

/-! Rooms: scenes of balls, boxes and plain surfaces of moderate size, lit by point lamps. -/

namespace BR
set_option linter.unusedSectionVars false

section
variable {F : Type} [Add F] [Sub F] [Mul F] [Div F] [Neg F] [GoFloat F]

/-- Materials that show a colour without following light any further. -/
def Mat.Plain : Mat F → Prop
  | .black => True
  | .flat _ => True
  | .func _ => True
  | .twoSided front back => front.Plain ∧ back.Plain
  | .blend _ a _ b => a.Plain ∧ b.Plain
  | .blendMap _ a b => a.Plain ∧ b.Plain
  | _ => False

end

/-- Materials whose indices of refraction, if any, are between a quarter and four. -/
def Mat.Tame : Mat Flo → Prop
  | .reflectFresnel _ under => under.Tame
  | .refractive n1 n2 => ∃ x y, n1.Is x ∧ n2.Is y ∧ 1 / 4 ≤ x ∧ x ≤ 4 ∧ 1 / 4 ≤ y ∧ y ≤ 4
  | .twoSided front back => front.Tame ∧ back.Tame
  | .blend _ a _ b => a.Tame ∧ b.Tame
  | .blendMap _ a b => a.Tame ∧ b.Tame
  | _ => True

/-- The point lamp `l` stands at `L`, with coordinates at most 1024. -/
def LampAt (l : Light Flo) (L : Vec ℝ) : Prop := ∃ pos power, l = .point pos power ∧ pos.FIs L ∧ Within 1024 L

/-- What a room is made of: balls of radius at least 1/32 and boxes, with coordinates up to 60, any tame material, and
surfaces at least 1/1024 away from all lamps (positions `lamp`); and anything sturdy with plain materials, such as a
sky. -/
inductive InRoom (lamp : Vec ℝ → Prop) : Obj Flo (Mat Flo) → Prop
  | ball (m : Mat Flo) (diam : Flo) (center : Vec Flo) (c : Vec ℝ) (R : ℝ) (hc : center.FIs c) (hd : diam.Is (2 * R))
      (hR : 1 / 32 ≤ R) (hx : |c.x| + R ≤ 60) (hy : |c.y| + R ≤ 60) (hz : |c.z| + R ≤ 60) (ht : m.Total) (hm : m.Tame)
      (off : ∀ L, lamp L → 1 / 1024 ≤ |apart L c - R|) : InRoom lamp (Obj.sphere (some m) diam center)
  | box (m : Mat Flo) (b : BBox Flo) (lo hi : Vec ℝ) (hlo : b.min.FIs lo) (hhi : b.max.FIs hi) (blo : Within 60 lo)
      (bhi : Within 60 hi) (ord : lo.x ≤ hi.x ∧ lo.y ≤ hi.y ∧ lo.z ≤ hi.z) (ht : m.Total) (hm : m.Tame)
      (off : ∀ L, lamp L → ¬OnBox lo hi (1 / 1024) L) : InRoom lamp (.box b (some m))
  | plain (o : Obj Flo (Mat Flo)) (hs : o.Sturdy) (hw : o.Wears fun m => m.Total ∧ m.Plain) : InRoom lamp o

/-- A scene that is a room: point lamps only, media without scattering, and at most a million reflections. -/
structure Room (s : Scene Flo) : Prop where
  lamps : ∀ l ∈ s.lights, ∃ L, LampAt l L
  objects : ∀ o ∈ s.objects, InRoom (fun L => ∃ l ∈ s.lights, LampAt l L) o
  media : ∀ m ∈ s.media, ∃ density ambient height, m = .expFog density ambient height
  depth_nonneg : 0 ≤ s.recursionDepth
  depth_le : s.recursionDepth ≤ 2 ^ 20

/-- A ray into a room: it starts at a point with coordinates up to 61, and its direction is of unit length up to `2^-29`. -/
def IntoRoom (r : Ray Flo) : Prop :=
  ∃ s d, r.start.FIs s ∧ r.dir.FIs d ∧ Within 61 s ∧ |d.x ^ 2 + d.y ^ 2 + d.z ^ 2 - 1| ≤ 1 / 2 ^ 29

/-- Cameras without a lens: projective with a field of view from 1/16 to 3 radians, and the camera for environment maps;
turned `turns` times by any angles and moved `moves` times. -/
inductive Aimed : Nat → Nat → Cam Flo → Prop
  | projective (fov : Flo) (x : ℝ) (cam : Cam Flo) (hx : fov.Is x) (lo : 1 / 16 ≤ x) (hi : x ≤ 3)
      (e : Cam.projective fov = .ok cam) : Aimed 0 0 cam
  | environment : Aimed 0 0 Cam.environmentMap
  | turned (turns moves : Nat) (cam : Cam Flo) (h : Aimed turns moves cam) (yaw pitch roll : Flo) (y p r : ℝ) (hy : yaw.Is y)
      (hp : pitch.Is p) (hr : roll.Is r) : Aimed (turns + 1) moves (cam.yawPitchRoll yaw pitch roll)
  | moved (turns moves : Nat) (cam : Cam Flo) (h : Aimed turns moves cam) (delta : Vec Flo) :
      Aimed turns (moves + 1) (cam.translate delta)

end BR
