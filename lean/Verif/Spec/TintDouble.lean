import Verif.Spec.LitDouble

/-! Vocabulary for coloured shadows in double precision. -/

namespace BR

/-- A ray to a lamp in the program: it starts at `p` (close to `Q`, where the light falls) and the lamp is at `pos`. -/
structure LampRay (p pos : Vec Flo) (P Q L : Vec ℝ) : Prop where
  start : p.FIs P
  lamp : pos.FIs L
  near : Within 64 P
  there : Within 1024 L
  far : 1 / 16 ≤ apart L P
  close : apart P Q ≤ 1 / 2 ^ 19

end BR
