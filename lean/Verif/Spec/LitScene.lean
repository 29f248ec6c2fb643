import Verif.Spec.Lit
import Verif.Model.Scene

/-! When a program scene, in extended numbers, describes bodies and lamps. -/

namespace BR

/-- At the local position `loc`, the material is this kind of surface. Coats have an index above 1; the two sides of a
refractive border have different positive indices. The first material of `blendMap` weighs as much as the red channel of
the texture, which is between 0 and 1. -/
inductive Mat.Appears (loc : Vec Ext) : Mat Ext → Surface → Prop
  | black : Appears loc .black (.glow ⟨0, 0, 0⟩)
  | flat {tex : Tex Ext} {c : Color Ext} {C : Color ℝ} : tex loc = .ok c → c.Is C → Appears loc (.flat tex) (.glow C)
  | matte {tex : Tex Ext} {c : Color Ext} {C : Color ℝ} : tex loc = .ok c → c.Is C → Appears loc (.matte tex) (.matte C)
  | reflective {c : Color Ext} {C : Color ℝ} : c.Is C → Appears loc (.reflective c) (.mirror C)
  | reflectFresnel {n : Ext} {N : ℝ} {m : Mat Ext} {X : Surface} : n.Is N → 1 < N → Appears loc m X →
      Appears loc (.reflectFresnel n m) (.varnish N X)
  | refractive {n1 n2 : Ext} {N1 N2 : ℝ} : n1.Is N1 → n2.Is N2 → 0 < N1 → 0 < N2 → N1 ≠ N2 →
      Appears loc (.refractive n1 n2) (.glass N1 N2)
  | transparent {tex : Tex Ext} {useRec : Bool} {c : Color Ext} {C : Color ℝ} : tex loc = .ok c → c.Is C →
      Appears loc (.transparent tex useRec) (.clear C)
  | twoSided {m m' : Mat Ext} {X Y : Surface} : Appears loc m X → Appears loc m' Y →
      Appears loc (.twoSided m m') (.sides X Y)
  | blend {a b : Ext} {A B : ℝ} {m m' : Mat Ext} {X Y : Surface} : a.Is A → b.Is B → Appears loc m X → Appears loc m' Y →
      Appears loc (.blend a m b m') (.mix A X B Y)
  | blendMap {tex : Tex Ext} {c : Color Ext} {K : ℝ} {m m' : Mat Ext} {X Y : Surface} : tex loc = .ok c → c.R.Is K →
      0 ≤ K → K ≤ 1 → Appears loc m X → Appears loc m' Y → Appears loc (.blendMap tex m m') (.mix K X (1 - K) Y)

/-- The object is this body: along every ray of unit direction it reports the first crossing of the surface, with the
direction of the normal and a material that is the kind of surface there. -/
def Presents (o : Obj Ext (Mat Ext)) (b : Body) : Prop :=
  ∀ (r : Ray Ext) (R : Ray ℝ), r.Is R → R.dir.dot R.dir = 1 →
    ∃ hit r', o.intersect r = .ok (hit, r') ∧ ReportsFirst b.on R False hit ∧
      ∀ T, hit.t.Is T → 0 < T → ∃ N m, hit.normal.Is N ∧ N ≠ ⟨0, 0, 0⟩ ∧ unitVec N = b.normal (R.at T) ∧
        hit.mat = some m ∧ m.Appears hit.loc (b.look (R.at T))

/-- The light is this lamp. -/
def IsBulb (l : Light Ext) (L : Bulb) : Prop :=
  ∃ pos power, l = .point pos power ∧ pos.Is L.pos ∧ power.Is L.power

end BR
