import Verif.Props.C67_Constructors
import Verif.Props.C69_Normals

/-! C67: triangles and boxes given by their corners. -/

namespace BR

variable {M : Type}

open Ext

/-- A point is inside a box made from two corners iff it is between them in every direction, and the bounds of the box
are the corners. -/
theorem C67_bounds_inside (m : Option M) (lo hi p : Vec Ext) (L H P : Vec ℝ) (hl : lo.Is L) (hh : hi.Is H)
    (hp : p.Is P) :
    (Obj.boxWithBounds m lo hi).bounds = .ok ⟨lo, hi⟩ ∧
    (Obj.boxWithBounds m lo hi).inside p =
      .ok (decide (L.x < P.x ∧ P.x < H.x ∧ L.y < P.y ∧ P.y < H.y ∧ L.z < P.z ∧ P.z < H.z)) := by
  refine ⟨by rw [Obj.boxWithBounds, Obj.bounds], ?_⟩
  simp only [Obj.boxWithBounds, Obj.inside, BBox.inside]
  rw [hl.1.lt hp.1, hp.1.lt hh.1, hl.2.1.lt hp.2.1, hp.2.1.lt hh.2.1, hl.2.2.lt hp.2.2, hp.2.2.lt hh.2.2]
  congr 1
  rw [Bool.eq_iff_iff]
  simp only [Bool.and_eq_true, decide_eq_true_eq]
  tauto

private theorem onMesh_tri (a b c p : Vec ℝ) : OnMesh [a, b, c] [(0, 1, 2)] p ↔ InTriangle a b c p := by
  constructor
  · rintro ⟨f, hf, a', b', c', h1, h2, h3, h⟩
    rw [List.mem_singleton] at hf
    subst hf
    cases h1; cases h2; cases h3
    exact h
  · intro h
    exact ⟨_, List.mem_singleton.2 rfl, a, b, c, rfl, rfl, rfl, h⟩

private theorem transverse_tri {a b c d : Vec ℝ} (h : Transverse a b c d) :
    MeshTransverse [a, b, c] [(0, 1, 2)] d := by
  intro f hf a' b' c' h1 h2 h3
  rw [List.mem_singleton] at hf
  subst hf
  cases h1; cases h2; cases h3
  exact h

private theorem dir_ne {a b c d : Vec ℝ} (h : Transverse a b c d) : d ≠ ⟨0, 0, 0⟩ := by
  intro h0
  apply h
  rw [h0]
  simp only [Vec.dot]; ring

/-- A triangle made from its corners is hit where the ray first meets the triangle with these corners, and nowhere
else. Missing: rays parallel to the triangle and rays that do not start clear of the corners. -/
theorem C67_triangle_partial (S : Sorter (Obj Ext M)) (m : Option M) (a b c : Vec Ext) (A B C : Vec ℝ)
    (ha : a.Is A) (hb : b.Is B) (hc : c.Is C) (o : Obj Ext M) (h : triangle S m a b c = .ok o)
    (r : Ray Ext) (R : Ray ℝ) (hr : r.Is R) (htr : Transverse A B C R.dir)
    (hgen : StartsClear [A, B, C] R)
    (hfar : ∀ T, InTriangle A B C (R.at T) → T < 9 * 10 ^ 99) :
    ∃ hit, o.intersect r = .ok (hit, r) ∧ hit.mat = m ∧ ReportsFirst (InTriangle A B C) R True hit := by
  have hon : OnMesh [A, B, C] [(0, 1, 2)] = InTriangle A B C := funext fun p => propext (onMesh_tri A B C p)
  obtain ⟨hit, e, hm, hh⟩ := C68_mesh_partial S m [a, b, c] [A, B, C] (.cons ha (.cons hb (.cons hc .nil)))
    [(0, 1, 2)] _ o h r R hr (dir_ne htr) hgen (by rw [onMeshAcross_eq (transverse_tri htr), hon]; exact hfar)
  rw [onMeshAcross_eq (transverse_tri htr), hon] at hh
  refine ⟨hit, e, hm, ?_⟩
  rcases hh with h | ⟨h1, h | h⟩
  · exact .inl h
  · exact .inr ⟨h1, .inl h⟩
  · exact .inr ⟨h1, .inr ⟨trivial, h.2⟩⟩

private theorem sum_tri {a b c : Vec ℝ} (h : triNormal a b c ≠ ⟨0, 0, 0⟩) (i : Nat) (hi : i < 3) :
    normalSum [a, b, c] [(0, 1, 2)] i = unitVec (triNormal a b c) := by
  have hk : ([0, 1, 2].count i : ℝ) = 1 := by
    rcases i with _ | _ | _ | i
    · norm_num [List.count_cons]
    · norm_num [List.count_cons]
    · norm_num [List.count_cons]
    · omega
  have : cornerNormal [a, b, c] i (0, 1, 2) = unitVec (triNormal a b c) := by
    simp only [cornerNormal, List.getElem?_cons_zero, List.getElem?_cons_succ]
    rw [if_neg h, hk]
    simp [Vec.mul]
  simp only [normalSum, List.map_cons, List.map_nil, List.foldl_cons, List.foldl_nil, this]
  simp [Vec.add]

private theorem unit_facts {v : Vec ℝ} (h : v ≠ ⟨0, 0, 0⟩) : (unitVec v).dot (unitVec v) = 1 := by
  have hp : 0 < v.dot v := by
    rcases v with ⟨x, y, z⟩
    simp only [Vec.dot]
    by_contra hn
    apply h
    have hx : x = 0 := by nlinarith [sq_nonneg x, sq_nonneg y, sq_nonneg z]
    have hy : y = 0 := by nlinarith [sq_nonneg x, sq_nonneg y, sq_nonneg z]
    have hz : z = 0 := by nlinarith [sq_nonneg x, sq_nonneg y, sq_nonneg z]
    rw [hx, hy, hz]
  have hs := Real.mul_self_sqrt hp.le
  have hs0 : Real.sqrt (v.dot v) ≠ 0 := (Real.sqrt_pos.2 hp).ne'
  generalize hq : Real.sqrt (v.dot v) = q at hs hs0
  simp only [Vec.dot] at hs
  have hu : unitVec v = v.mul (1 / q) := by rw [unitVec, hq]
  rw [hu]
  simp only [Vec.mul, Vec.dot]
  field_simp
  linarith

private theorem unit_unit {v : Vec ℝ} (h : v ≠ ⟨0, 0, 0⟩) : unitVec (unitVec v) = unitVec v := by
  conv_lhs => rw [unitVec, unit_facts h]
  simp [Vec.mul]

/-- Where a triangle is hit it shows its own flat normal, and the texture coordinates that are (0, 0), (1, 0) and
(0, 1) at the three corners and linear in between. -/
theorem C67_triangle_shading_partial (S : Sorter (Obj Ext M)) (m : Option M) (a b c : Vec Ext) (A B C : Vec ℝ)
    (ha : a.Is A) (hb : b.Is B) (hc : c.Is C) (o : Obj Ext M) (h : triangle S m a b c = .ok o)
    (r : Ray Ext) (R : Ray ℝ) (hr : r.Is R) (htr : Transverse A B C R.dir)
    (hgen : StartsClear [A, B, C] R)
    (hfar : ∀ T, InTriangle A B C (R.at T) → T < 9 * 10 ^ 99) (hhit : ∃ T > 0, InTriangle A B C (R.at T)) :
    ∃ hit T l0 l1 l2, o.intersect r = .ok (hit, r) ∧ hit.t.Is T ∧ 0 < T ∧ IsWeights l0 l1 l2 ∧
      R.at T = combine l0 l1 l2 A B C ∧ hit.loc.Is ⟨l1, l2, 0⟩ ∧ hit.normal.Is (unitVec (triNormal A B C)) := by
  have hon : OnMesh [A, B, C] [(0, 1, 2)] = InTriangle A B C := funext fun p => propext (onMesh_tri A B C p)
  have hn : triNormal A B C ≠ ⟨0, 0, 0⟩ := by
    intro h0
    apply htr
    rw [h0]
    simp only [Vec.dot]; ring
  obtain ⟨hit, T, e, ht, h0, f, hf, a', b', c', l0, l1, l2, sh⟩ :=
    C69_shading_partial S m [a, b, c] [A, B, C] (.cons ha (.cons hb (.cons hc .nil)))
    [(0, 1, 2)] _ o h r R hr (dir_ne htr) hgen (by rw [onMeshAcross_eq (transverse_tri htr), hon]; exact hfar)
    (by rw [onMeshAcross_eq (transverse_tri htr), hon]; exact hhit)
  rw [List.mem_singleton] at hf
  subst hf
  obtain ⟨k1, k2, k3⟩ := sh.corner
  cases k1; cases k2; cases k3
  refine ⟨hit, T, l0, l1, l2, e, ht, h0, sh.weights, sh.point, ?_, ?_⟩
  · have := sh.uv ![lit 0, lit 1, lit 0] ![lit 0, lit 0, lit 1] ![0, 1, 0] ![0, 0, 1] (by
      intro k
      have z : (lit 0 : Ext).Is 0 := by simpa using Ext.Is.lit 0
      have w : (lit 1 : Ext).Is 1 := by simpa using Ext.Is.lit 1
      fin_cases k
      · exact ⟨z, z⟩
      · exact ⟨w, z⟩
      · exact ⟨z, w⟩) rfl rfl rfl
    simpa using this
  · have hs : ∀ i, i < 3 → normalSum [A, B, C] ([(0, 1, 2)].map fun f : Int × Int × Int => (f.1.toNat, f.2.1.toNat, f.2.2.toNat)) i
        = unitVec (triNormal A B C) := fun i hi => sum_tri hn i hi
    have hne : unitVec (triNormal A B C) ≠ ⟨0, 0, 0⟩ := by
      intro h0
      have := unit_facts hn
      rw [h0] at this
      simp [Vec.dot] at this
    have := sh.normal (by rw [hs _ (by decide)]; exact hne) (by rw [hs _ (by decide)]; exact hne)
      (by rw [hs _ (by decide)]; exact hne)
    simp only [vertexNormal] at this
    rw [hs _ (by decide), hs _ (by decide), hs _ (by decide), unit_unit hn] at this
    have hw := sh.weights.2.2.2
    have key : combine l0 l1 l2 (unitVec (triNormal A B C)) (unitVec (triNormal A B C)) (unitVec (triNormal A B C))
        = unitVec (triNormal A B C) := by
      generalize unitVec (triNormal A B C) = n
      rcases n with ⟨x, y, z⟩
      simp only [combine, Vec.add, Vec.mul, Vec.mk.injEq]
      refine ⟨?_, ?_, ?_⟩
      · linear_combination x * hw
      · linear_combination y * hw
      · linear_combination z * hw
    rwa [key] at this

/-! ## Non-vacuity -/

private theorem tri_key (T : ℝ) : InTriangle ⟨0, 0, 0⟩ ⟨1, 0, 0⟩ ⟨0, 1, 0⟩
    ((⟨⟨1 / 4, 1 / 3, -1⟩, ⟨0, 0, 1⟩⟩ : Ray ℝ).at T) ↔ T = 1 := by
  constructor
  · rintro ⟨l0, l1, l2, -, h⟩
    simp only [Ray.at, Vec.madd, combine, Vec.add, Vec.mul, Vec.mk.injEq] at h
    linarith [h.2.2]
  · rintro rfl
    refine ⟨5 / 12, 1 / 4, 1 / 3, by norm_num [IsWeights], ?_⟩
    simp only [Ray.at, Vec.madd, combine, Vec.add, Vec.mul, Vec.mk.injEq]
    norm_num

/-- A triangle hit from below: the hit shows the weights of its last two corners. -/
example (S : Sorter (Obj Ext M)) (m : Option M) : ∃ o hit,
    triangle S m ⟨fin 0, fin 0, fin 0⟩ ⟨fin 1, fin 0, fin 0⟩ ⟨fin 0, fin 1, fin 0⟩ = .ok o ∧
    o.intersect ⟨⟨fin (1 / 4), fin (1 / 3), fin (-1)⟩, ⟨fin 0, fin 0, fin 1⟩⟩ =
      .ok (hit, ⟨⟨fin (1 / 4), fin (1 / 3), fin (-1)⟩, ⟨fin 0, fin 0, fin 1⟩⟩) ∧ hit.t.Is 1 ∧
    hit.loc.Is ⟨1 / 4, 1 / 3, 0⟩ := by
  obtain ⟨o, -, -, e, -⟩ := C21_violated_triangle S m
  obtain ⟨hit, T, l0, l1, l2, e1, e2, e3, e4, e5, e6, -⟩ := C67_triangle_shading_partial S m _ _ _
    ⟨0, 0, 0⟩ ⟨1, 0, 0⟩ ⟨0, 1, 0⟩ ⟨⟨_, rfl⟩, ⟨_, rfl⟩, ⟨_, rfl⟩⟩ ⟨⟨_, rfl⟩, ⟨_, rfl⟩, ⟨_, rfl⟩⟩
    ⟨⟨_, rfl⟩, ⟨_, rfl⟩, ⟨_, rfl⟩⟩ o e
    ⟨⟨fin (1 / 4), fin (1 / 3), fin (-1)⟩, ⟨fin 0, fin 0, fin 1⟩⟩ ⟨⟨1 / 4, 1 / 3, -1⟩, ⟨0, 0, 1⟩⟩
    ⟨⟨⟨_, rfl⟩, ⟨_, rfl⟩, ⟨_, rfl⟩⟩, ⟨_, rfl⟩, ⟨_, rfl⟩, ⟨_, rfl⟩⟩
    (by norm_num [Transverse, triNormal, Vec.sub, Vec.cross, Vec.dot])
    (.inl (by simp [SharesCoordinate]))
    (fun T h => by rw [(tri_key T).1 h]; norm_num) ⟨1, by norm_num, (tri_key 1).2 rfl⟩
  have hT : T = 1 := (tri_key T).1 ⟨l0, l1, l2, e4, e5⟩
  subst hT
  simp only [Ray.at, Vec.madd, combine, Vec.add, Vec.mul, Vec.mk.injEq] at e5
  have h1 : l1 = 1 / 4 := by linarith [e5.1]
  have h2 : l2 = 1 / 3 := by linarith [e5.2.1]
  rw [h1, h2] at e6
  exact ⟨o, hit, e, e1, e2, e6⟩

/-- The unit cube from its corners has its middle inside. -/
example (m : Option M) : (Obj.boxWithBounds m ⟨fin 0, fin 0, fin 0⟩ ⟨fin 1, fin 1, fin 1⟩).inside
    ⟨fin (1 / 2), fin (1 / 2), fin (1 / 2)⟩ = .ok true := by
  rw [(C67_bounds_inside m _ _ _ ⟨0, 0, 0⟩ ⟨1, 1, 1⟩ ⟨1 / 2, 1 / 2, 1 / 2⟩ ⟨⟨_, rfl⟩, ⟨_, rfl⟩, ⟨_, rfl⟩⟩
    ⟨⟨_, rfl⟩, ⟨_, rfl⟩, ⟨_, rfl⟩⟩ ⟨⟨_, rfl⟩, ⟨_, rfl⟩, ⟨_, rfl⟩⟩).2]
  norm_num

end BR
