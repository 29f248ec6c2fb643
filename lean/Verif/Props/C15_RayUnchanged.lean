import Verif.Lemmas.Object
import Verif.Num.Real

/-! C15: intersecting a ray with any object leaves the caller's ray as it was. No property of the
number type is used: the theorem holds for every arithmetic, rounding included. -/

namespace BR

/-- **C15.** For every object built from the constructors of the package, however nested,
`Intersect` returns with the caller's ray unchanged. -/
theorem C15_ray_unchanged {F M : Type} [Add F] [Sub F] [Mul F] [Div F] [Neg F] [GoFloat F]
    (o : Obj F M) (r : Ray F) (h : HitRecord F M) (r' : Ray F)
    (e : o.intersect r = .ok (h, r')) : r' = r :=
  o.intersect_keeps r h r' e

/-- A scaled backdrop inside a box, hit by a diagonal ray: `Intersect` succeeds (and internally
replaces the ray by the inverse-transformed one). -/
example : ∃ h r', (Obj.transformed (F := ℝ) (M := Unit) ⟨⟨-1, -1, -1⟩, ⟨1, 1, 1⟩⟩
    (Affine.scale Vec.zero 2) (Affine.scale Vec.zero 2).inverse (.backdrop none)).intersect
      ⟨⟨-5, -5, -5⟩, ⟨1, 1, 1⟩⟩ = .ok (h, r') := by
  have hb : (BBox.intersects (F := ℝ) ⟨⟨-1, -1, -1⟩, ⟨1, 1, 1⟩⟩ ⟨⟨-5, -5, -5⟩, ⟨1, 1, 1⟩⟩) = true := by
    simp only [BBox.intersects, BBox.intersect, BBox.tenTex, BBox.slab, BBox.max3, BBox.min3, fmin,
      fmax, lit_real, lt_real]
    norm_num
  rw [Obj.intersect, if_neg (by rw [hb]; simp)]
  simp only [Obj.intersect, ok_bind]
  exact ⟨_, _, rfl⟩

end BR
