import Verif.Spec.Box
import Verif.Model.Object

/-! A solid along a ray, described independently of the code: which parameters are inside, where the
ray crosses the surface, and what it means for an object to report the first crossing. -/

namespace BR

/-- The membership function `I` changes at `c`: the ray crosses the surface there. -/
def Crosses (I : ℝ → Bool) (c : ℝ) : Prop := ∃ ε > 0, ∀ δ, 0 < δ → δ < ε → I (c - δ) ≠ I (c + δ)

/-- Seen along the ray `R`, the object is the solid `{t | I t}`: outside the finite set `D` of
exceptional parameters, `I` is locally constant and tells which points of the ray are inside, and from
every start `R.at k` the object reports the first crossing after `k`, or no hit if there is none. -/
structure Obj.Profile {M : Type} (o : Obj Ext M) (R : Ray ℝ) (D : Finset ℝ) (I : ℝ → Bool) : Prop where
  const : ∀ t t', t < t' → (∀ d ∈ D, d < t ∨ t' < d) → I t = I t'
  inside : ∀ t > 0, t ∉ D → ∀ p : Vec Ext, p.Is (R.at t) → o.inside p = .ok (I t)
  hit : ∀ k ≥ 0, k ∉ D → ∀ r : Ray Ext, r.Is ⟨R.at k, R.dir⟩ → ∃ h, o.intersect r = .ok (h, r) ∧
    ((∃ c, IsLeast {c | k < c ∧ Crosses I c} c ∧ h.t.Is (c - k)) ∨
     ((∀ c > k, ¬ Crosses I c) ∧ (lit 0 <. h.t) = false))

/-- Exceptional parameters are more than the marching step `Tiny` apart. -/
def Separated (D : Finset ℝ) : Prop := ∀ c ∈ D, ∀ d ∈ D, c < d → c + 1 / (1204 * 1024) < d

end BR
