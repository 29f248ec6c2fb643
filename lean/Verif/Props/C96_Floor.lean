import Verif.Lemmas.Leaving
import Verif.Spec.LitMesh
import Verif.Props.C67_Constructors
import Verif.Props.C69_Normals
import Verif.Props.C95_LitAssembly

/-! C96: lit pictures with meshes and floors. In extended numbers: exact arithmetic with infinities. -/

namespace BR
set_option linter.unusedSectionVars false

/-! ## Meshes -/

private abbrev trisOf (faces : List (Int × Int × Int)) : List Tri := faces.map fun f => (f.1.toNat, f.2.1.toNat, f.2.2.toNat)

/-- **C96, meshes.** A mesh presents its triangles, smoothly shaded, along rays on which they are nearer than `9e99`, that
start clear of the vertices and meet no triangle only edge-on. If there are at most seven triangles, it may report something
far away where there is nothing. -/
theorem C96_mesh (S : Sorter (Obj Ext (Mat Ext))) (m : Mat Ext) (look : Vec ℝ → Surface)
    (hm : ∀ p P, p.Is P → m.Appears p (look P)) (vertices : List (Vec Ext)) (V : List (Vec ℝ))
    (hV : List.Forall₂ Vec.Is vertices V) (faces : List (Int × Int × Int)) (UV : Option (List (Ext × Ext))) (uv : Nat → ℝ × ℝ)
    (huv : ∀ i < V.length, ∃ u v, uvOf UV i u v ∧ u.Is (uv i).1 ∧ v.Is (uv i).2) (o : Obj Ext (Mat Ext))
    (h : meshWithUV S (some m) vertices faces UV = .ok o) (bodies : List Body)
    (hb : List.Forall₂ (fun f b => ∃ A B C, IsCorner V (trisOf faces) uv f.1.toNat A ∧
      IsCorner V (trisOf faces) uv f.2.1.toNat B ∧ IsCorner V (trisOf faces) uv f.2.2.toNat C ∧ b.IsTriangle look A B C)
      faces bodies)
    (R : Ray ℝ) (hd : R.dir ≠ ⟨0, 0, 0⟩) (hgen : StartsClear V R) (hfar : ∀ b ∈ bodies, ∀ T, b.on (R.at T) → T < 9 * 10 ^ 99)
    (hedge : ∀ b ∈ bodies, ∀ T > 0, b.on (R.at T) → OnMeshAcross V faces R.dir (R.at T)) :
    PresentsAll (faces.length ≤ 7) R o bodies := by
  have hbody : ∀ f ∈ faces, ∃ b ∈ bodies, ∃ A B C, IsCorner V (trisOf faces) uv f.1.toNat A ∧
      IsCorner V (trisOf faces) uv f.2.1.toNat B ∧ IsCorner V (trisOf faces) uv f.2.2.toNat C ∧ b.IsTriangle look A B C :=
    fun f hf => forall₂_left hb f hf
  have hacross : ∀ p, OnMeshAcross V faces R.dir p → ∃ b ∈ bodies, b.on p := by
    rintro p ⟨f, hf, x, y, z, hx, hy, hz, -, hin⟩
    obtain ⟨b, hbm, A, B, C, hA, hB, hC, ht⟩ := hbody f hf
    rw [hA.1] at hx; rw [hB.1] at hy; rw [hC.1] at hz
    cases hx; cases hy; cases hz
    exact ⟨b, hbm, (ht.on p).2 hin⟩
  have hfar' : ∀ T, OnMeshAcross V faces R.dir (R.at T) → T < 9 * 10 ^ 99 := by
    intro T hT
    obtain ⟨b, hbm, hon⟩ := hacross _ hT
    exact hfar b hbm T hon
  intro r hr
  obtain ⟨hit, e, hmat, hrep⟩ := C68_mesh_partial S (some m) vertices V hV faces UV o h r R hr hd hgen hfar'
  refine ⟨hit, e, ?_⟩
  rcases hrep with ⟨T, h1, h2, h3, h4⟩ | ⟨h1, h2⟩
  · left
    obtain ⟨hit', T', e', k1, k2, f, hf, a, b, c, l0, l1, l2, hs⟩ := C69_shading_partial S (some m) vertices V hV faces UV o h
      r R hr hd hgen hfar' ⟨T, h2, h3⟩
    rw [e] at e'
    cases e'
    obtain rfl : T = T' := by
      obtain ⟨s, hs⟩ := h1
      obtain ⟨s', hs'⟩ := k1
      rw [hs] at hs'
      cases hs'; rfl
    obtain ⟨x, hx, A, B, C, hA, hB, hC, ht⟩ := hbody f hf
    obtain ⟨ca, cb, cc⟩ := hs.corner
    dsimp only at ca cb cc
    rw [hA.1] at ca; rw [hB.1] at cb; rw [hC.1] at cc
    cases ca; cases cb; cases cc
    obtain ⟨t1, t2, t3⟩ := ht.shade l0 l1 l2 hs.weights
    rw [← hs.point] at t2 t3
    refine ⟨T, x, hx, h1, h2, (ht.on _).2 ⟨l0, l1, l2, hs.weights, hs.point⟩, ?_, ?_⟩
    · refine ⟨_, m, hs.normal hA.2.1 hB.2.1 hC.2.1, ?_, ?_, hmat, ?_⟩
      · rw [← hA.2.2.1, ← hB.2.2.1, ← hC.2.2.1]; exact t1
      · rw [t2, ← hA.2.2.1, ← hB.2.2.1, ← hC.2.2.1]
      · rw [t3]
        apply hm
        have lt : ∀ {i : Nat} {x}, V[i]? = some x → i < V.length := fun h => (List.getElem?_eq_some_iff.1 h).1
        obtain ⟨u0, v0, g0, i0, j0⟩ := huv _ (lt hA.1)
        obtain ⟨u1, v1, g1, i1, j1⟩ := huv _ (lt hB.1)
        obtain ⟨u2, v2, g2, i2, j2⟩ := huv _ (lt hC.1)
        have := hs.uv ![u0, u1, u2] ![v0, v1, v2] ![A.u, B.u, C.u] ![A.v, B.v, C.v] (by
          intro k
          fin_cases k
          · exact ⟨by rw [hA.2.2.2.1]; exact i0, by rw [hA.2.2.2.2]; exact j0⟩
          · exact ⟨by rw [hB.2.2.2.1]; exact i1, by rw [hB.2.2.2.2]; exact j1⟩
          · exact ⟨by rw [hC.2.2.2.1]; exact i2, by rw [hC.2.2.2.2]; exact j2⟩) g0 g1 g2
        exact this
    · intro other ho T' hT' hon
      exact h4 T' hT' (hedge other ho T' hT' hon)
  · right
    refine ⟨fun b hbm T hT hon => h1 T hT (hedge b hbm T hT hon), ?_⟩
    rcases h2 with h2 | ⟨h2, h3⟩
    · exact .inl h2
    · refine .inr ⟨h2, ?_⟩
      have big : Ext.Is (lit (9 * 10 ^ 99)) (9 * 10 ^ 99) := ⟨false, by rw [Ext.lit_ext]; push_cast; rfl⟩
      rw [h3, big.lt big]
      simp

/-! ## A horizontal rectangle -/

section rect

variable (W D : ℝ) (C : Vec ℝ)

private noncomputable def cO : Vec ℝ := ⟨-W / 2 + C.x, 0 + C.y, -D / 2 + C.z⟩
private noncomputable def cA : Vec ℝ := ⟨-W / 2 + C.x, 0 + C.y, D / 2 + C.z⟩
private noncomputable def cB : Vec ℝ := ⟨W / 2 + C.x, 0 + C.y, -D / 2 + C.z⟩
private noncomputable def cE : Vec ℝ := ⟨W / 2 + C.x, 0 + C.y, D / 2 + C.z⟩

private noncomputable def cV : List (Vec ℝ) := [cO W D C, cA W D C, cE W D C, cB W D C]

end rect

private abbrev quadTris : List Tri := [(0, 1, 3), (2, 3, 1)]

private theorem unit_up {k : ℝ} (hk : 0 < k) : unitVec ⟨0, k, 0⟩ = ⟨0, 1, 0⟩ := by
  have h1 : unitVec ((⟨0, 1, 0⟩ : Vec ℝ).mul k) = unitVec ⟨0, 1, 0⟩ := unitVec_scale hk
  have h2 : unitVec (⟨0, 1, 0⟩ : Vec ℝ) = ⟨0, 1, 0⟩ := unitVec_unit (by simp [Vec.dot])
  rw [h2] at h1
  simpa [Vec.mul] using h1

private theorem quad_normals {W D : ℝ} (hW : 0 < W) (hD : 0 < D) (C : Vec ℝ) (i : Nat) (hi : i < 4) :
    normalSum (cV W D C) quadTris i ≠ ⟨0, 0, 0⟩ ∧ vertexNormal (cV W D C) quadTris i = ⟨0, 1, 0⟩ := by
  have h1 : triNormal (cO W D C) (cA W D C) (cB W D C) = ⟨0, D * W, 0⟩ := by
    simp only [triNormal, cO, cA, cB, geo]
    refine ⟨?_, ?_, ?_⟩ <;> ring
  have h2 : triNormal (cE W D C) (cB W D C) (cA W D C) = ⟨0, D * W, 0⟩ := by
    simp only [triNormal, cE, cA, cB, geo]
    refine ⟨?_, ?_, ?_⟩ <;> ring
  have hp : 0 < D * W := by positivity
  have hne : ¬ ((⟨0, D * W, 0⟩ : Vec ℝ) = ⟨0, 0, 0⟩) := by
    intro h
    simp only [Vec.mk.injEq] at h
    exact hp.ne' h.2.1
  have e : normalSum (cV W D C) quadTris i = ⟨0, ([0, 1, 3].count i : ℝ) + ([2, 3, 1].count i : ℝ), 0⟩ := by
    simp only [normalSum, quadTris, List.map_cons, List.map_nil, List.foldl_cons, List.foldl_nil, cornerNormal, cV,
      List.getElem?_cons_zero, List.getElem?_cons_succ, h1, h2, if_neg hne, unit_up hp]
    simp [Vec.add, Vec.mul]
  have hc : 0 < ([0, 1, 3].count i : ℝ) + ([2, 3, 1].count i : ℝ) := by
    obtain rfl | rfl | rfl | rfl : i = 0 ∨ i = 1 ∨ i = 2 ∨ i = 3 := by omega
    all_goals norm_num
  refine ⟨?_, ?_⟩
  · rw [e]
    intro h
    simp only [Vec.mk.injEq] at h
    exact hc.ne' h.2.1
  · rw [vertexNormal, e, unit_up hc]

/-- The halves of the rectangle. -/
private noncomputable def half1 (W D : ℝ) (C : Vec ℝ) (look : Vec ℝ → Surface) : Body :=
  { rectBody W D C look with on := InTriangle (cO W D C) (cA W D C) (cB W D C) }

private noncomputable def half2 (W D : ℝ) (C : Vec ℝ) (look : Vec ℝ → Surface) : Body :=
  { rectBody W D C look with on := InTriangle (cE W D C) (cB W D C) (cA W D C) }

private theorem half1_on {W D : ℝ} (hW : 0 < W) (hD : 0 < D) {C p : Vec ℝ} (look : Vec ℝ → Surface)
    (h : InTriangle (cO W D C) (cA W D C) (cB W D C) p) : (rectBody W D C look).on p := by
  obtain ⟨l0, l1, l2, ⟨h0, h1, h2, hs⟩, rfl⟩ := h
  simp only [rectBody, combine, cO, cA, cB, geo, abs_le]
  obtain rfl : l0 = 1 - l1 - l2 := by linarith
  refine ⟨by ring, ⟨?_, ?_⟩, ?_, ?_⟩ <;> nlinarith

private theorem half2_on {W D : ℝ} (hW : 0 < W) (hD : 0 < D) {C p : Vec ℝ} (look : Vec ℝ → Surface)
    (h : InTriangle (cE W D C) (cB W D C) (cA W D C) p) : (rectBody W D C look).on p := by
  obtain ⟨l0, l1, l2, ⟨h0, h1, h2, hs⟩, rfl⟩ := h
  simp only [rectBody, combine, cE, cA, cB, geo, abs_le]
  obtain rfl : l0 = 1 - l1 - l2 := by linarith
  refine ⟨by ring, ⟨?_, ?_⟩, ?_, ?_⟩ <;> nlinarith

private theorem on_halves {W D : ℝ} (hW : 0 < W) (hD : 0 < D) {C p : Vec ℝ} (look : Vec ℝ → Surface)
    (h : (rectBody W D C look).on p) : InTriangle (cO W D C) (cA W D C) (cB W D C) p ∨
      InTriangle (cE W D C) (cB W D C) (cA W D C) p := by
  obtain ⟨hy, hx, hz⟩ := h
  rw [abs_le] at hx hz
  set s := (p.z - C.z + D / 2) / D with hs
  set t := (p.x - C.x + W / 2) / W with ht
  have es : p.z = C.z - D / 2 + s * D := by rw [hs]; field_simp; ring
  have et : p.x = C.x - W / 2 + t * W := by rw [ht]; field_simp; ring
  have s0 : 0 ≤ s := div_nonneg (by linarith) hD.le
  have s1 : s ≤ 1 := (div_le_one hD).2 (by linarith)
  have t0 : 0 ≤ t := div_nonneg (by linarith) hW.le
  have t1 : t ≤ 1 := (div_le_one hW).2 (by linarith)
  rcases le_total (s + t) 1 with h | h
  · left
    refine ⟨1 - s - t, s, t, ⟨by linarith, s0, t0, by ring⟩, ?_⟩
    simp only [combine, cO, cA, cB, geo]
    refine ⟨?_, ?_, ?_⟩
    · rw [et]; ring
    · rw [hy]; ring
    · rw [es]; ring
  · right
    refine ⟨s + t - 1, 1 - s, 1 - t, ⟨by linarith, by linarith, by linarith, by ring⟩, ?_⟩
    simp only [combine, cE, cA, cB, geo]
    refine ⟨?_, ?_, ?_⟩
    · rw [et]; ring
    · rw [hy]; ring
    · rw [es]; ring

private def quadUV : Nat → ℝ × ℝ
  | 0 => (0, 0)
  | 1 => (1, 0)
  | 2 => (1, 1)
  | _ => (0, 1)

/-- **C96, rectangles.** A horizontal rectangle can be constructed and presents itself, with the normal upwards and the
texture spread over it, along rays on which it is nearer than `9e99`, that do not start in its plane nor run in the vertical
plane through an edge, or else lead away from its plane. (Where it is not met, it may report something far away.) -/
theorem C96_rectangle (S : Sorter (Obj Ext (Mat Ext))) (m : Mat Ext) (look : Vec ℝ → Surface)
    (hm : ∀ p P, p.Is P → m.Appears p (look P)) (w d : Ext) (W D : ℝ) (hw : w.Is W) (hd : d.Is D) (hW : 0 < W) (hD : 0 < D)
    (c : Vec Ext) (C : Vec ℝ) (hc : c.Is C) :
    ∃ o, rectangle S (some m) w d c = .ok o ∧ ∀ R : Ray ℝ, R.dir ≠ ⟨0, 0, 0⟩ → ClearOfRect W D C R →
      (∀ T, (rectBody W D C look).on (R.at T) → T < 9 * 10 ^ 99) → PresentsAll True R o [rectBody W D C look] := by
  obtain ⟨o, eo, -⟩ := C67_rectangle S (some m) w d W D hw hd hW hD c C hc
  refine ⟨o, eo, ?_⟩
  unfold rectangle rectangleWithVertices quadrilateral at eo
  have two : (lit 2 : Ext).Is 2 := by simpa using Ext.Is.lit 2
  have zero : (lit 0 : Ext).Is 0 := by simpa using Ext.Is.lit 0
  have one : (lit 1 : Ext).Is 1 := by simpa using Ext.Is.lit 1
  have w1 := hw.div two two_ne_zero
  have w2 := hw.neg.div two two_ne_zero
  have d1 := hd.div two two_ne_zero
  have d2 := hd.neg.div two two_ne_zero
  have hO : ((⟨-w / lit 2, lit 0, -d / lit 2⟩ : Vec Ext).add c).Is (cO W D C) := ⟨w2.add hc.1, zero.add hc.2.1, d2.add hc.2.2⟩
  have hA : ((⟨-w / lit 2, lit 0, d / lit 2⟩ : Vec Ext).add c).Is (cA W D C) := ⟨w2.add hc.1, zero.add hc.2.1, d1.add hc.2.2⟩
  have hB : ((⟨w / lit 2, lit 0, -d / lit 2⟩ : Vec Ext).add c).Is (cB W D C) := ⟨w1.add hc.1, zero.add hc.2.1, d2.add hc.2.2⟩
  have hE := hA.add (hB.sub hO)
  rw [show (cA W D C).add ((cB W D C).sub (cO W D C)) = cE W D C by
    simp only [cA, cB, cO, cE, geo]
    refine ⟨?_, ?_, ?_⟩ <;> ring] at hE
  have hV : List.Forall₂ Vec.Is _ (cV W D C) := .cons hO (.cons hA (.cons hE (.cons hB .nil)))
  intro R hR hclear hfar
  -- crossings of the halves
  have hon : ∀ p, OnMeshAcross (cV W D C) quadFaces R.dir p ↔ R.dir.y ≠ 0 ∧ (rectBody W D C look).on p := by
    intro p
    have tr1 : Transverse (cO W D C) (cA W D C) (cB W D C) R.dir ↔ R.dir.y ≠ 0 := by
      have : (triNormal (cO W D C) (cA W D C) (cB W D C)).dot R.dir = D * W * R.dir.y := by
        simp only [triNormal, cO, cA, cB, geo]; ring
      rw [Transverse, this]
      have : D * W ≠ 0 := by positivity
      simp [this]
    have tr2 : Transverse (cE W D C) (cB W D C) (cA W D C) R.dir ↔ R.dir.y ≠ 0 := by
      have : (triNormal (cE W D C) (cB W D C) (cA W D C)).dot R.dir = D * W * R.dir.y := by
        simp only [triNormal, cE, cA, cB, geo]; ring
      rw [Transverse, this]
      have : D * W ≠ 0 := by positivity
      simp [this]
    constructor
    · rintro ⟨f, hf, x, y, z, hx, hy, hz, htr, hin⟩
      simp only [quadFaces, List.mem_cons, List.not_mem_nil, or_false] at hf
      rcases hf with rfl | rfl
      · cases hx; cases hy; cases hz
        exact ⟨tr1.1 htr, half1_on hW hD look hin⟩
      · cases hx; cases hy; cases hz
        exact ⟨tr2.1 htr, half2_on hW hD look hin⟩
    · rintro ⟨hy, h⟩
      rcases on_halves hW hD look h with h | h
      · exact ⟨(0, 1, 3), by simp [quadFaces], _, _, _, rfl, rfl, rfl, tr1.2 hy, h⟩
      · exact ⟨(2, 3, 1), by simp [quadFaces], _, _, _, rfl, rfl, rfl, tr2.2 hy, h⟩
  obtain ⟨hy, hcase⟩ := hclear
  have crosses : ∀ T, (rectBody W D C look).on (R.at T) → R.start.y + T * R.dir.y = C.y := by
    intro T h
    have := h.1
    simpa only [Ray.at, Vec.madd] using this
  rcases hcase with ⟨hx, hz⟩ | haway
  · have hcl : StartsClear (cV W D C) R := by
      have mem : ∀ q ∈ cV W D C, q.y = C.y ∧ |q.x - C.x| = W / 2 ∧ |q.z - C.z| = D / 2 := by
        intro q hq
        simp only [cV, List.mem_cons, List.not_mem_nil, or_false] at hq
        have a1 : |W / 2| = W / 2 := abs_of_pos (by linarith)
        have a2 : |-W / 2| = W / 2 := by rw [neg_div, abs_neg, a1]
        have b1 : |D / 2| = D / 2 := abs_of_pos (by linarith)
        have b2 : |-D / 2| = D / 2 := by rw [neg_div, abs_neg, b1]
        rcases hq with rfl | rfl | rfl | rfl <;>
          simp only [cO, cA, cE, cB, zero_add, add_sub_cancel_right, a1, a2, b1, b2, and_self]
      refine .inr ⟨?_, ?_⟩
      · rcases lt_or_gt_of_ne hy with h | h
        · exact .inr (.inr (.inl fun q hq => by rw [(mem q hq).1]; exact h))
        · exact .inr (.inr (.inr (.inl fun q hq => by rw [(mem q hq).1]; exact h)))
      · intro q hq
        obtain ⟨m1, m2, m3⟩ := mem q hq
        refine ⟨fun h e => hx h (by rw [e, m2]), fun _ => by rw [m1]; exact hy, fun h e => hz h (by rw [e, m3])⟩
    have key := C96_mesh S m look hm _ (cV W D C) hV quadFaces _ quadUV (by
        intro i hi
        simp only [cV, List.length_cons, List.length_nil] at hi
        obtain rfl | rfl | rfl | rfl : i = 0 ∨ i = 1 ∨ i = 2 ∨ i = 3 := by omega
        · exact ⟨_, _, rfl, zero, zero⟩
        · exact ⟨_, _, rfl, one, zero⟩
        · exact ⟨_, _, rfl, one, one⟩
        · exact ⟨_, _, rfl, zero, one⟩) o eo [half1 W D C look, half2 W D C look] (by
        have up : ∀ l0 l1 l2 : ℝ, IsWeights l0 l1 l2 →
            combine l0 l1 l2 (⟨0, 1, 0⟩ : Vec ℝ) ⟨0, 1, 0⟩ ⟨0, 1, 0⟩ = ⟨0, 1, 0⟩ := by
          rintro l0 l1 l2 ⟨-, -, -, hs⟩
          simp only [combine, geo]
          refine ⟨by ring, by linarith, by ring⟩
        have corner : ∀ (i : Nat) (p : Vec ℝ), i < 4 → (cV W D C)[i]? = some p →
            IsCorner (cV W D C) (trisOf quadFaces) quadUV i ⟨p, ⟨0, 1, 0⟩, (quadUV i).1, (quadUV i).2⟩ := by
          intro i p hi hp
          obtain ⟨n1, n2⟩ := quad_normals hW hD C i hi
          exact ⟨hp, n1, n2.symm, rfl, rfl⟩
        refine .cons ⟨_, _, _, corner 0 _ (by omega) rfl, corner 1 _ (by omega) rfl, corner 3 _ (by omega) rfl, fun p => Iff.rfl, ?_⟩
          (.cons ⟨_, _, _, corner 2 _ (by omega) rfl, corner 3 _ (by omega) rfl, corner 1 _ (by omega) rfl, fun p => Iff.rfl, ?_⟩ .nil)
        · intro l0 l1 l2 hl
          rw [up _ _ _ hl]
          refine ⟨by simp, ?_, ?_⟩
          · rw [unitVec_unit (by simp [Vec.dot])]; rfl
          · obtain ⟨-, -, -, hs⟩ := hl
            simp only [half1, rectBody, quadUV, combine, cO, cA, cB, Vec.add, Vec.mul]
            congr 1
            simp only [Vec.mk.injEq]
            obtain rfl : l0 = 1 - l1 - l2 := by linarith
            refine ⟨?_, ?_, trivial⟩ <;> field_simp <;> ring
        · intro l0 l1 l2 hl
          rw [up _ _ _ hl]
          refine ⟨by simp, ?_, ?_⟩
          · rw [unitVec_unit (by simp [Vec.dot])]; rfl
          · obtain ⟨-, -, -, hs⟩ := hl
            simp only [half2, rectBody, quadUV, combine, cE, cA, cB, Vec.add, Vec.mul]
            congr 1
            simp only [Vec.mk.injEq]
            obtain rfl : l0 = 1 - l1 - l2 := by linarith
            refine ⟨?_, ?_, trivial⟩ <;> field_simp <;> ring) R hR hcl (by
        intro b hb T h
        simp only [List.mem_cons, List.not_mem_nil, or_false] at hb
        rcases hb with rfl | rfl
        · exact hfar T (half1_on hW hD look h)
        · exact hfar T (half2_on hW hD look h)) (by
        intro b hb T hT h
        have h' : (rectBody W D C look).on (R.at T) := by
          simp only [List.mem_cons, List.not_mem_nil, or_false] at hb
          rcases hb with rfl | rfl
          · exact half1_on hW hD look h
          · exact half2_on hW hD look h
        refine (hon _).2 ⟨fun h0 => hy ?_, h'⟩
        have := crosses T h'
        rw [h0] at this
        linarith)
    intro r hr
    obtain ⟨hit, e, h⟩ := key r hr
    refine ⟨hit, e, ?_⟩
    rcases h with ⟨T, b, hb, h1, h2, h3, h4, h5⟩ | ⟨h1, h2⟩
    · left
      have first : ∀ T' > 0, (rectBody W D C look).on (R.at T') → T ≤ T' := by
        intro T' hT' h
        rcases on_halves hW hD look h with h | h
        · exact h5 (half1 W D C look) (by simp) T' hT' h
        · exact h5 (half2 W D C look) (by simp) T' hT' h
      simp only [List.mem_cons, List.not_mem_nil, or_false] at hb
      refine ⟨T, _, List.mem_singleton_self _, h1, h2, ?_, ?_, ?_⟩
      · rcases hb with rfl | rfl
        · exact half1_on hW hD look h3
        · exact half2_on hW hD look h3
      · rcases hb with rfl | rfl <;> exact h4
      · intro other ho
        rw [List.mem_singleton] at ho
        subst ho
        exact first
    · right
      refine ⟨?_, h2.imp id fun h => ⟨trivial, h.2⟩⟩
      intro b hb T hT h
      rw [List.mem_singleton] at hb
      subst hb
      rcases on_halves hW hD look h with h | h
      · exact h1 (half1 W D C look) (by simp) T hT h
      · exact h1 (half2 W D C look) (by simp) T hT h
  · have hno : ∀ T > 0, ¬ (rectBody W D C look).on (R.at T) := by
      intro T hT h
      have h1 := crosses T h
      have h2 : R.start.y - C.y = -(T * R.dir.y) := by linarith
      rw [h2] at haway
      have h3 : R.dir.y ≠ 0 := by
        intro h0
        rw [h0] at h1
        exact hy (by linarith)
      have : 0 < T * R.dir.y ^ 2 := by positivity
      nlinarith
    intro r hr
    obtain ⟨hit, e, h⟩ := C68_mesh_none_partial S (some m) _ (cV W D C) hV quadFaces _ o eo (by simp [quadFaces]) r R hr
      (fun T hT h => hno T hT ((hon _).1 h).2)
    refine ⟨hit, e, .inr ⟨?_, h.imp id fun h => ⟨trivial, h⟩⟩⟩
    intro b hb
    rw [List.mem_singleton] at hb
    subst hb
    exact hno

/-- Along rays that do not meet it, a rectangle reports a miss or something far away. -/
theorem rectangle_none (S : Sorter (Obj Ext (Mat Ext))) (m : Mat Ext) (look : Vec ℝ → Surface) (w d : Ext) (W D : ℝ) (hw : w.Is W)
    (hd : d.Is D) (hW : 0 < W) (hD : 0 < D) (c : Vec Ext) (C : Vec ℝ) (hc : c.Is C) (o : Obj Ext (Mat Ext))
    (eo : rectangle S (some m) w d c = .ok o) (R : Ray ℝ) (hno : ∀ T > 0, ¬ (rectBody W D C look).on (R.at T)) (r : Ray Ext)
    (hr : r.Is R) :
    ∃ hit, o.intersect r = .ok (hit, r) ∧ ((lit 0 <. hit.t) = false ∨ (hit.t <. (lit (9 * 10 ^ 99) : Ext)) = false) := by
  unfold rectangle rectangleWithVertices quadrilateral at eo
  have two : (lit 2 : Ext).Is 2 := by simpa using Ext.Is.lit 2
  have zero : (lit 0 : Ext).Is 0 := by simpa using Ext.Is.lit 0
  have w1 := hw.div two two_ne_zero
  have w2 := hw.neg.div two two_ne_zero
  have d1 := hd.div two two_ne_zero
  have d2 := hd.neg.div two two_ne_zero
  have hO : ((⟨-w / lit 2, lit 0, -d / lit 2⟩ : Vec Ext).add c).Is (cO W D C) := ⟨w2.add hc.1, zero.add hc.2.1, d2.add hc.2.2⟩
  have hA : ((⟨-w / lit 2, lit 0, d / lit 2⟩ : Vec Ext).add c).Is (cA W D C) := ⟨w2.add hc.1, zero.add hc.2.1, d1.add hc.2.2⟩
  have hB : ((⟨w / lit 2, lit 0, -d / lit 2⟩ : Vec Ext).add c).Is (cB W D C) := ⟨w1.add hc.1, zero.add hc.2.1, d2.add hc.2.2⟩
  have hE := hA.add (hB.sub hO)
  rw [show (cA W D C).add ((cB W D C).sub (cO W D C)) = cE W D C by
    simp only [cA, cB, cO, cE, geo]
    refine ⟨?_, ?_, ?_⟩ <;> ring] at hE
  have hV : List.Forall₂ Vec.Is _ (cV W D C) := .cons hO (.cons hA (.cons hE (.cons hB .nil)))
  refine C68_mesh_none_partial S (some m) _ (cV W D C) hV quadFaces _ o eo (by simp [quadFaces]) r R hr fun T hT h => hno T hT ?_
  obtain ⟨f, hf, x, y, z, hx, hy, hz, -, hin⟩ := h
  simp only [quadFaces, List.mem_cons, List.not_mem_nil, or_false] at hf
  rcases hf with rfl | rfl
  · cases hx; cases hy; cases hz
    exact half1_on hW hD look hin
  · cases hx; cases hy; cases hz
    exact half2_on hW hD look hin

/-! ## Scenes with a floor -/

/-- What `C96_picture` asks of the things of a scene with a floor. -/
def AroundFloor (W D : ℝ) (C : Vec ℝ) (look : Vec ℝ → Surface) (col : Vec ℝ → Color ℝ) (floor o : Obj Ext (Mat Ext))
    (bodies : List Body) : Prop :=
  (o = floor ∧ bodies = [rectBody W D C look]) ∨ (bodies = [] ∧ IsSky col o) ∨
  ((∀ R : Ray ℝ, R.dir.dot R.dir = 1 → PresentsAll True R o bodies) ∧
    ∀ b ∈ bodies, ∀ p, b.on p → (b.normal p).dot (b.normal p) = 1 ∧ OffRect (2 * gap) W D C p ∧ InReach p)

private theorem coord_le {v : Vec ℝ} {k : ℝ} (hk : 0 ≤ k) (h : v.dot v ≤ k ^ 2) : |v.x| ≤ k ∧ |v.y| ≤ k ∧ |v.z| ≤ k := by
  simp only [Vec.dot] at h
  refine ⟨abs_le_of_sq_le_sq ?_ hk, abs_le_of_sq_le_sq ?_ hk, abs_le_of_sq_le_sq ?_ hk⟩ <;> nlinarith [sq_nonneg v.x, sq_nonneg v.y, sq_nonneg v.z]

private theorem len_lt {p q : Vec ℝ} (hp : InReach p) (hq : |q.x| ≤ 2 * 10 ^ 98 ∧ |q.y| ≤ 2 * 10 ^ 98 ∧ |q.z| ≤ 2 * 10 ^ 98) :
    (p.x - q.x) ^ 2 + (p.y - q.y) ^ 2 + (p.z - q.z) ^ 2 < (10 ^ 99) ^ 2 := by
  have one : ∀ a b : ℝ, |a| ≤ 10 ^ 98 → |b| ≤ 2 * 10 ^ 98 → (a - b) ^ 2 ≤ (3 * 10 ^ 98) ^ 2 := by
    intro a b ha hb
    rw [abs_le] at ha hb
    exact sq_le_sq' (by linarith) (by linarith)
  have h1 := one _ _ hp.1 hq.1
  have h2 := one _ _ hp.2.1 hq.2.1
  have h3 := one _ _ hp.2.2 hq.2.2
  have : ((3 : ℝ) * 10 ^ 98) ^ 2 + (3 * 10 ^ 98) ^ 2 + (3 * 10 ^ 98) ^ 2 < (10 ^ 99) ^ 2 := by norm_num
  linarith

theorem followed_floor {W D : ℝ} {C : Vec ℝ} {look : Vec ℝ → Surface} {col : Vec ℝ → Color ℝ}
    {floor : Obj Ext (Mat Ext)} {objs : List (Obj Ext (Mat Ext))} {things : List (List Body)} {lamps : List Bulb}
    (hfloor : ∀ R : Ray ℝ, R.dir ≠ ⟨0, 0, 0⟩ → ClearOfRect W D C R →
      (∀ T, (rectBody W D C look).on (R.at T) → T < 9 * 10 ^ 99) → PresentsAll True R floor [rectBody W D C look])
    (hreach : ∀ p, (rectBody W D C look).on p → InReach p) (hobj : List.Forall₂ (AroundFloor W D C look col floor) objs things)
    (hsky : ∃ o ∈ objs, IsSky col o) (hapart : LampsApart things.flatten lamps) (hlamps : ∀ L ∈ lamps, InReach L.pos) (n : Nat)
    (R : Ray ℝ) (hu : R.dir.dot R.dir = 1) (hclear : ClearOfRect W D C R)
    (hstart : |R.start.x| ≤ 2 * 10 ^ 98 ∧ |R.start.y| ≤ 2 * 10 ^ 98 ∧ |R.start.z| ≤ 2 * 10 ^ 98) :
    Followed (some col) objs things lamps n R := by
  have hg : 0 < gap := by unfold gap; norm_num
  have hg1 : 2 * gap ≤ 1 := by unfold gap; norm_num
  have near : ∀ (R : Ray ℝ) (T : ℝ), R.dir.dot R.dir = 1 →
      (|R.start.x| ≤ 2 * 10 ^ 98 ∧ |R.start.y| ≤ 2 * 10 ^ 98 ∧ |R.start.z| ≤ 2 * 10 ^ 98) → InReach (R.at T) → T < 10 ^ 99 := by
    intro R T hu hs hr
    have h := len_lt hr hs
    have e : ((R.at T).x - R.start.x) ^ 2 + ((R.at T).y - R.start.y) ^ 2 + ((R.at T).z - R.start.z) ^ 2 = T ^ 2 := by
      simp only [geo, Ray.at] at hu ⊢
      linear_combination T ^ 2 * hu
    rw [e] at h
    exact lt_of_pow_lt_pow_left₀ 2 (by positivity) h
  -- every surface is in reach
  have reach : ∀ b ∈ things.flatten, ∀ p, b.on p → InReach p := by
    intro b hb p hp
    obtain ⟨th, hth, hb⟩ := List.mem_flatten.1 hb
    obtain ⟨o, -, h⟩ := forall₂_right hobj th hth
    rcases h with ⟨-, rfl⟩ | ⟨rfl, -⟩ | ⟨-, h⟩
    · rw [List.mem_singleton] at hb
      subst hb
      exact hreach p hp
    · cases hb
    · exact (h b hb p hp).2.2
  have stands : ∀ (g : Prop), g → ∀ R : Ray ℝ, R.dir.dot R.dir = 1 → ClearOfRect W D C R →
      (|R.start.x| ≤ 2 * 10 ^ 98 ∧ |R.start.y| ≤ 2 * 10 ^ 98 ∧ |R.start.z| ≤ 2 * 10 ^ 98) →
      List.Forall₂ (StandsFor (some col) g R) objs things := by
    intro g hgh R hu hclear hstart
    refine hobj.imp ?_
    rintro o th (⟨rfl, rfl⟩ | ⟨rfl, h⟩ | ⟨h, -⟩)
    · refine .inl ((hfloor R ?_ hclear ?_).mono fun _ => hgh)
      · intro h
        rw [h] at hu
        simp [Vec.dot] at hu
      · intro T hT
        have := near R T hu hstart (hreach _ hT)
        linarith
    · exact .inr ⟨rfl, col, rfl, h⟩
    · exact .inl ((h R hu).mono fun _ => hgh)
  -- rays that leave a surface
  have leaves : ∀ (R : Ray ℝ), R.dir.dot R.dir = 1 → ClearOfRect W D C R → ∀ b T, Meets things.flatten R b T →
      (b.normal (R.at T)).dot (b.normal (R.at T)) = 1 ∧ InReach (R.at T) ∧
      ∀ R' : Ray ℝ, Leaves (R.dir.dot (b.normal (R.at T)) ≠ 0) (R.at T) (b.normal (R.at T)) R' →
        R'.dir.dot R'.dir = 1 ∧ ClearOfRect W D C R' ∧
        (|R'.start.x| ≤ 2 * 10 ^ 98 ∧ |R'.start.y| ≤ 2 * 10 ^ 98 ∧ |R'.start.z| ≤ 2 * 10 ^ 98) := by
    rintro R hu hclear b T ⟨hb, ⟨hT, hon, -⟩, -⟩
    have hr := reach b hb _ hon
    have close : ∀ R' : Ray ℝ, Leaves (R.dir.dot (b.normal (R.at T)) ≠ 0) (R.at T) (b.normal (R.at T)) R' →
        |R'.start.x - (R.at T).x| ≤ 2 * gap ∧ |R'.start.y - (R.at T).y| ≤ 2 * gap ∧ |R'.start.z - (R.at T).z| ≤ 2 * gap :=
      fun R' h => coord_le (by linarith) h.2.1
    have far : ∀ R' : Ray ℝ, Leaves (R.dir.dot (b.normal (R.at T)) ≠ 0) (R.at T) (b.normal (R.at T)) R' →
        |R'.start.x| ≤ 2 * 10 ^ 98 ∧ |R'.start.y| ≤ 2 * 10 ^ 98 ∧ |R'.start.z| ≤ 2 * 10 ^ 98 := by
      intro R' h
      obtain ⟨c1, c2, c3⟩ := close R' h
      obtain ⟨r1, r2, r3⟩ := hr
      have big : (1 : ℝ) ≤ 10 ^ 98 := by norm_num
      rw [abs_le] at c1 c2 c3 r1 r2 r3
      simp only [abs_le]
      refine ⟨⟨?_, ?_⟩, ⟨?_, ?_⟩, ?_, ?_⟩ <;> linarith
    obtain ⟨th, hth, hb⟩ := List.mem_flatten.1 hb
    obtain ⟨o, -, h⟩ := forall₂_right hobj th hth
    rcases h with ⟨-, rfl⟩ | ⟨rfl, -⟩ | ⟨-, h⟩
    · rw [List.mem_singleton] at hb
      subst hb
      refine ⟨by simp [rectBody, Vec.dot], hr, fun R' h => ⟨h.1, ?_, far R' h⟩⟩
      have hy := hon.1
      have hdy : R.dir.y ≠ 0 := by
        intro h0
        simp only [Ray.at, Vec.madd, h0] at hy
        exact hclear.1 (by linarith)
      obtain ⟨-, -, h3, h4⟩ := h
      have e : (R'.start.sub (R.at T)).dot ((rectBody W D C look).normal (R.at T)) = R'.start.y - C.y := by
        rw [← hy]
        simp [rectBody, Vec.dot, Vec.sub]
      have e2 : ∀ v : Vec ℝ, v.dot ((rectBody W D C look).normal (R.at T)) = v.y := by
        intro v; simp [rectBody, Vec.dot]
      rw [e, e2] at h3
      rw [e, e2] at h4
      exact ⟨fun h => h4 hdy (by rw [h, sub_self]), .inr h3⟩
    · cases hb
    · obtain ⟨k1, ⟨k2, k3, k4⟩, -⟩ := h b hb _ hon
      refine ⟨k1, hr, fun R' h => ⟨h.1, ?_, far R' h⟩⟩
      obtain ⟨c1, c2, c3⟩ := close R' h
      have side : ∀ a p c k : ℝ, |a - p| ≤ 2 * gap → 2 * gap < |(|p - c|) - k| → |a - c| ≠ k := by
        intro a p c k h1 h2 h3
        rw [← h3] at h2
        have h4 := abs_abs_sub_abs_le_abs_sub (p - c) (a - c)
        rw [show p - c - (a - c) = -(a - p) by ring, abs_neg] at h4
        linarith
      refine ⟨?_, .inl ⟨fun _ => side _ _ _ _ c1 k3, fun _ => side _ _ _ _ c3 k4⟩⟩
      intro h0
      rw [h0, abs_sub_comm] at c2
      linarith
  induction n generalizing R with
  | zero => trivial
  | succ n ih =>
    refine ⟨stands _ (.inl (by simp)) R hu hclear hstart, ?_, ?_⟩
    · rintro col' e
      cases e
      refine ⟨hsky, fun b hb T hT hon => ⟨b, hb, T, hT, near R T hu hstart (reach b hb _ hon), hon⟩⟩
    · intro b T hmeet
      obtain ⟨hN, hr, hleave⟩ := leaves R hu hclear b T hmeet
      refine casts_leaving hu hN ?_ ?_ (fun L hL => hapart b hmeet.1 L hL _ hmeet.2.1.2.1) _
      · intro L hL R' hR'
        obtain ⟨u', c', s'⟩ := hleave R' hR'
        have hlen : length3 (L.pos.sub R'.start) ≤ 10 ^ 99 := by
          have h := len_lt (hlamps L hL) s'
          unfold length3
          exact (Real.sqrt_lt' (by positivity)).2 h |>.le
        refine ⟨stands _ ?_ R' u' c' s', fun _ => hlen⟩
        have : (10 : ℝ) ^ 99 ≤ 9 * 10 ^ 99 := by norm_num
        linarith
      · intro R' hR'
        obtain ⟨u', c', s'⟩ := hleave R' hR'
        exact ih R' u' c' s'

variable {S : Type}

/-- **C96.** Take a scene without media of a floor (a horizontal rectangle of any material that is one of the surfaces, maybe
textured), a sky, and things that are presented along all rays and stay off the plane of the floor and the vertical planes
through its edges; whose lights are lamps; with all within reach; a pinhole camera turned by yaw, pitch and roll and moved to
`eye`, which is in none of these planes; any recursion depth and finite shifts of the sample sequences. Then after any
positive number of passes, for any number of workers, any schedule, any random source with values in the unit square and any
seeds, each pixel is the mean, over the passes, of colours each of which is what the laws of optics give along the line of
sight. -/
theorem C96_picture (St : Sorter (Obj Ext (Mat Ext))) (s : Scene Ext) (hmed : s.media = []) (hd : 0 ≤ s.recursionDepth)
    (m : Mat Ext) (look : Vec ℝ → Surface) (hm : ∀ p P, p.Is P → m.Appears p (look P)) (wid dep : Ext) (W D : ℝ)
    (hwid : wid.Is W) (hdep : dep.Is D) (hW : 0 < W) (hD : 0 < D) (c : Vec Ext) (C : Vec ℝ) (hc : c.Is C)
    (hreach : ∀ p, (rectBody W D C look).on p → InReach p) (floor : Obj Ext (Mat Ext))
    (hfloor : rectangle St (some m) wid dep c = .ok floor) (col : Vec ℝ → Color ℝ) (hsky : ∃ o ∈ s.objects, IsSky col o)
    (things : List (List Body)) (hobj : List.Forall₂ (AroundFloor W D C look col floor) s.objects things)
    (lamps : List Bulb) (hl : List.Forall₂ IsBulb s.lights lamps) (hapart : LampsApart things.flatten lamps)
    (hlamps : ∀ L ∈ lamps, InReach L.pos)
    (V : View) (h0 : 0 < V.fov) (h1 : V.fov < Real.pi) (heye : OffRect 0 W D C V.eye) (hnear : InReach V.eye)
    (fov yaw pitch roll : Ext) (eye : Vec Ext) (hf : fov.Is V.fov)
    (hy : yaw.Is V.yaw) (hp : pitch.Is V.pitch) (hr : roll.Is V.roll) (he : eye.Is V.eye) (w h : Nat) (aa : Bool) :
    ∃ cam, Cam.projective fov = .ok cam ∧
      ∀ (rng : Rng Ext S), (∀ st, UnitPair (rng.next2 st).1) →
      ∀ (shifts : List (Ext × Ext)), w * h ≤ shifts.length → (∀ x ∈ shifts, (∃ a, x.1.Is a) ∧ ∃ b, x.2.Is b) →
      ∀ (N : Nat), 0 < N → ∀ (seeds : Fin N → S) (nPass : Nat), 0 < nPass →
      ∀ (t : SamplerState Ext (Ctx Ext S) N) (k : Nat),
        Runs (ctxShader (s.imageFunc rng ((cam.yawPitchRoll yaw pitch roll).translate eye))) w h aa nPass
          (samplerInit w h (fun i => Ctx.new shifts (seeds i)) fun _ => Cell.zero) k t →
        t.crashed = false ∧ (t.done → ∀ p : Pixel, p.1 < w → p.2 < h → ∃ C : ℕ → Color ℝ,
          (∀ k, LooksAll col things lamps s.recursionDepth.toNat (V.sight w h p.1 (sampleRow aa w h p.2)) (C k)) ∧
          ((t.mem p).image).Is (meanColor C nPass)) := by
  obtain ⟨o, eo, hpres⟩ := C96_rectangle St m look hm wid dep W D hwid hdep hW hD c C hc
  rw [hfloor] at eo
  cases eo
  refine C95_picture s hmed hd (some col) things lamps hl V h0 h1 fov yaw pitch roll eye hf hy hp hr he w h aa ?_
  intro p _ _
  refine followed_floor hpres hreach hobj hsky hapart hlamps _ _ (sight_unit V w h _ _) ?_ ?_
  · obtain ⟨k1, k2, k3⟩ := heye
    refine ⟨fun e => ?_, .inl ⟨fun _ e => ?_, fun _ e => ?_⟩⟩
    · change V.eye.y = C.y at e
      rw [e, sub_self, abs_zero] at k1
      exact lt_irrefl _ k1
    · change |V.eye.x - C.x| = W / 2 at e
      rw [e, sub_self, abs_zero] at k2
      exact lt_irrefl _ k2
    · change |V.eye.z - C.z| = D / 2 at e
      rw [e, sub_self, abs_zero] at k3
      exact lt_irrefl _ k3
  · obtain ⟨r1, r2, r3⟩ := hnear
    have big : (10 : ℝ) ^ 98 ≤ 2 * 10 ^ 98 := by norm_num
    exact ⟨r1.trans big, r2.trans big, r3.trans big⟩

/-- **C96, balls.** A sphere of positive diameter within reach, farther than its radius (and a bit) from the plane of the
floor and the vertical planes through its edges, is among the things that `C96_picture` covers. -/
theorem C96_sphere (m : Mat Ext) (look : Vec ℝ → Surface) (hm : ∀ p P, p.Is P → m.Appears p (look P)) (d : Ext) (X : ℝ)
    (hd : d.Is X) (hX : 0 < X) (c : Vec Ext) (Q : Vec ℝ) (hc : c.Is Q) (W D : ℝ) (C : Vec ℝ) (ground : Vec ℝ → Surface)
    (col : Vec ℝ → Color ℝ) (floor : Obj Ext (Mat Ext)) (hoff : OffRect (X / 2 + 2 * gap) W D C Q)
    (hreach : |Q.x| + X / 2 ≤ 10 ^ 98 ∧ |Q.y| + X / 2 ≤ 10 ^ 98 ∧ |Q.z| + X / 2 ≤ 10 ^ 98) :
    AroundFloor W D C ground col floor (Obj.sphere (some m) d c) [ballBody X Q look] := by
  refine .inr (.inr ⟨?_, ?_⟩)
  · intro R hR
    have hne : R.dir ≠ ⟨0, 0, 0⟩ := by
      intro h
      rw [h] at hR
      simp [Vec.dot] at hR
    exact (C95_sphere m look hm d X hd hX c Q hc R hne).mono False.elim
  · intro b hb p hon
    rw [List.mem_singleton] at hb
    subst hb
    have hon' : AtDistance p Q (X / 2) := hon
    have hlen := hon'.1
    have one : ∀ a : ℝ, a ^ 2 ≤ (X / 2) ^ 2 → |a| ≤ X / 2 := fun a h => abs_le_of_sq_le_sq h (by linarith)
    have hx := one (p.x - Q.x) (by nlinarith [sq_nonneg (p.y - Q.y), sq_nonneg (p.z - Q.z)])
    have hy := one (p.y - Q.y) (by nlinarith [sq_nonneg (p.x - Q.x), sq_nonneg (p.z - Q.z)])
    have hz := one (p.z - Q.z) (by nlinarith [sq_nonneg (p.x - Q.x), sq_nonneg (p.y - Q.y)])
    have tri : ∀ a b c : ℝ, |a - b| ≤ X / 2 → X / 2 + 2 * gap < |b - c| → 2 * gap < |a - c| := by
      intro a b c h1 h2
      have h3 := abs_sub_abs_le_abs_sub (b - c) (a - c)
      rw [show b - c - (a - c) = -(a - b) by ring, abs_neg] at h3
      linarith
    have edge : ∀ a b c e : ℝ, |a - b| ≤ X / 2 → X / 2 + 2 * gap < |(|b - c|) - e| → 2 * gap < |(|a - c|) - e| := by
      intro a b c e h1 h2
      refine tri (|a - c|) (|b - c|) e ?_ h2
      have h3 := abs_abs_sub_abs_le_abs_sub (a - c) (b - c)
      rw [show a - c - (b - c) = a - b by ring] at h3
      linarith
    have reach : ∀ a b : ℝ, |a - b| ≤ X / 2 → |b| + X / 2 ≤ 10 ^ 98 → |a| ≤ 10 ^ 98 := by
      intro a b h1 h2
      have h3 := abs_sub_abs_le_abs_sub a b
      linarith
    refine ⟨?_, ⟨tri _ _ _ hy hoff.1, edge _ _ _ _ hx hoff.2.1, edge _ _ _ _ hz hoff.2.2⟩, reach _ _ hx hreach.1,
      reach _ _ hy hreach.2.1, reach _ _ hz hreach.2.2⟩
    have : X / 2 ≠ 0 := by linarith
    simp only [ballBody, Vec.dot]
    field_simp
    nlinarith

/-! ## Non-vacuity -/

private theorem e0 : (lit 0 : Ext).Is 0 := by simpa using Ext.Is.lit 0
private theorem e1 : (lit 1 : Ext).Is 1 := by simpa using Ext.Is.lit 1
private theorem e2 : (lit 2 : Ext).Is 2 := by simpa using Ext.Is.lit 2
private theorem e10 : (lit 10 : Ext).Is 10 := by simpa using Ext.Is.lit 10
private theorem fin_is' (q : ℝ) : (Ext.fin q).Is q := ⟨false, rfl⟩

/-- A chalk floor below the camera, a mirroring ball above it, a blue sky and a lamp at the camera. -/
private noncomputable def patio (floor : Obj Ext (Mat Ext)) : Scene Ext where
  lights := [.point ⟨lit 0, lit 0, lit 0⟩ ⟨lit 10, lit 10, lit 10⟩]
  objects := [floor, Obj.sphere (some (.reflective ⟨lit 1, lit 1, lit 1⟩)) (lit 2) ⟨lit 0, lit 2, Ext.fin (-3)⟩,
    .backdrop (some (.flat fun _ => .ok ⟨lit 0, lit 0, lit 1⟩))]
  media := []
  recursionDepth := 1

private noncomputable def patioFloor : Body := rectBody 10 10 ⟨0, -1, 0⟩ fun _ => .matte ⟨1, 1, 1⟩

private noncomputable def patioThings : List (List Body) :=
  [[patioFloor], [ballBody 2 ⟨0, 2, -3⟩ fun _ => .mirror ⟨1, 1, 1⟩], []]

private def patioLamp : Bulb := ⟨⟨0, 0, 0⟩, ⟨10, 10, 10⟩⟩

/-- Looking down. -/
private noncomputable def patioView : View := ⟨Real.pi / 2, 0, -(Real.pi / 2), 0, ⟨0, 0, 0⟩⟩

private theorem patio_sight : patioView.sight 1 1 0 (sampleRow false 1 1 0) = ⟨⟨0, 0, 0⟩, ⟨0, -1, 0⟩⟩ := by
  have tan4 : Real.tan (Real.pi / 2 / 2) = 1 := by
    rw [show Real.pi / 2 / 2 = Real.pi / 4 by ring, Real.tan_pi_div_four]
  simp only [View.sight, patioView, turned, rodrigues, pixelDir, tan4, unitVec, sampleRow]
  norm_num [geo]

private theorem patio_ball {T : ℝ} (b : Vec ℝ → Surface) :
    ¬ (ballBody 2 ⟨0, 2, -3⟩ b).on ((⟨⟨0, 0, 0⟩, ⟨0, -1, 0⟩⟩ : Ray ℝ).at T) := by
  intro h
  have := (show AtDistance _ _ _ from h).1
  simp only [geo, Ray.at, Vec.madd] at this
  nlinarith

/-- The hypotheses of `C96_picture` are met by a chalk floor, a mirroring ball and a sky. A camera that looks down shows the
light of the lamp on the floor, at a distance of `1 - gap`. -/
example (St : Sorter (Obj Ext (Mat Ext))) : ∃ floor,
    rectangle St (some (.matte fun _ => .ok ⟨lit 1, lit 1, lit 1⟩)) (lit 10) (lit 10) ⟨lit 0, Ext.fin (-1), lit 0⟩ = .ok floor ∧
    (∀ p, patioFloor.on p → InReach p) ∧ (∃ o ∈ (patio floor).objects, IsSky (fun _ => ⟨0, 0, 1⟩) o) ∧
    List.Forall₂ (AroundFloor 10 10 ⟨0, -1, 0⟩ (fun _ => .matte ⟨1, 1, 1⟩) (fun _ => ⟨0, 0, 1⟩) floor) (patio floor).objects
      patioThings ∧
    List.Forall₂ IsBulb (patio floor).lights [patioLamp] ∧ LampsApart patioThings.flatten [patioLamp] ∧
    InReach patioLamp.pos ∧ OffRect 0 10 10 ⟨0, -1, 0⟩ patioView.eye ∧ InReach patioView.eye ∧
    ∀ C, LooksAll (fun _ => ⟨0, 0, 1⟩) patioThings [patioLamp] 1 (patioView.sight 1 1 0 (sampleRow false 1 1 0)) C →
      C = ⟨10 / (4 * Real.pi * (1 - gap) ^ 2), 10 / (4 * Real.pi * (1 - gap) ^ 2), 10 / (4 * Real.pi * (1 - gap) ^ 2)⟩ := by
  have g0 : 0 < gap := by unfold gap; norm_num
  have g1 : gap < 1 / 100 := by unfold gap; norm_num
  obtain ⟨floor, ef, -⟩ := C96_rectangle St (.matte fun _ => .ok ⟨lit 1, lit 1, lit 1⟩) (fun _ => .matte ⟨1, 1, 1⟩)
    (fun _ _ _ => .matte rfl ⟨e1, e1, e1⟩) (lit 10) (lit 10) 10 10 e10 e10 (by norm_num) (by norm_num)
    ⟨lit 0, Ext.fin (-1), lit 0⟩ ⟨0, -1, 0⟩ ⟨e0, fin_is' _, e0⟩
  have big : (5 : ℝ) ≤ 10 ^ 98 := by norm_num
  have sky : IsSky (fun _ => ⟨0, 0, 1⟩) (.backdrop (some (.flat fun _ => .ok ⟨lit 0, lit 0, lit 1⟩))) :=
    ⟨_, rfl, fun _ _ _ => ⟨_, rfl, e0, e0, e1⟩⟩
  refine ⟨floor, ef, ?_, ⟨_, by simp [patio], sky⟩, ?_, ?_, ?_, ?_, ?_, ?_, ?_⟩
  · rintro p ⟨h1, h2, h3⟩
    simp only [sub_zero] at h2 h3
    exact ⟨by linarith, by rw [h1]; norm_num, by linarith⟩
  · refine .cons (.inl ⟨rfl, rfl⟩) (.cons ?_ (.cons (.inr (.inl ⟨rfl, sky⟩)) .nil))
    refine C96_sphere _ _ (fun _ _ _ => .reflective ⟨e1, e1, e1⟩) _ 2 e2 (by norm_num) _ ⟨0, 2, -3⟩ ⟨e0, e2, fin_is' _⟩ _ _ _ _ _
      _ ⟨?_, ?_, ?_⟩ ⟨?_, ?_, ?_⟩
    · norm_num; linarith
    · norm_num; linarith
    · norm_num; linarith
    all_goals norm_num
  · exact .cons ⟨_, _, rfl, ⟨e0, e0, e0⟩, e10, e10, e10⟩ .nil
  · intro b hb L hL p hon
    rw [List.mem_singleton] at hL
    subst hL
    simp only [patioThings, List.flatten_cons, List.flatten_nil, List.append_nil, List.mem_append, List.mem_singleton] at hb
    have key : 1 ≤ p.x ^ 2 + p.y ^ 2 + p.z ^ 2 := by
      rcases hb with rfl | rfl
      · obtain ⟨h1, -, -⟩ := hon
        simp only at h1
        rw [h1]
        nlinarith [sq_nonneg p.x, sq_nonneg p.z]
      · have := (show AtDistance _ _ _ from hon).1
        simp only [geo] at this
        nlinarith [sq_nonneg (p.y - 2 / 3), sq_nonneg (p.z + 1), sq_nonneg p.x]
    refine lt_of_lt_of_le (by linarith : gap < 1) ?_
    unfold length3
    rw [Real.one_le_sqrt]
    simp only [patioLamp, Vec.sub]
    linarith
  · simp [InReach, patioLamp]
  · norm_num [OffRect, patioView]
  · simp [InReach, patioView]
  · intro C h
    rw [patio_sight] at h
    have hfac : facing ⟨0, 1, 0⟩ ⟨0, -1, 0⟩ = ⟨0, 1, 0⟩ := by
      unfold facing
      rw [if_neg]
      simp only [geo]; norm_num
    have honfloor : patioFloor.on ((⟨⟨0, 0, 0⟩, ⟨0, -1, 0⟩⟩ : Ray ℝ).at 1) := by
      simp only [patioFloor, rectBody, Ray.at, Vec.madd]
      norm_num
    rcases h with ⟨b, T, hm, hg⟩ | ⟨hno, -⟩
    swap
    · exact absurd honfloor (hno patioFloor (by simp [patioThings]) 1 (by norm_num))
    obtain ⟨hb, ⟨-, hon, -⟩, -⟩ := hm
    simp only [patioThings, List.flatten_cons, List.flatten_nil, List.append_nil, List.mem_append, List.mem_singleton] at hb
    rcases hb with rfl | rfl
    swap
    · exact absurd hon (patio_ball _)
    obtain rfl : T = 1 := by
      have := hon.1
      simp only [Ray.at, Vec.madd] at this
      linarith
    obtain ⟨ω, A, B, -, hA, hB, rfl⟩ := hg
    obtain rfl : B = ⟨0, 0, 0⟩ := hB
    have hP : ((⟨⟨0, 0, 0⟩, ⟨0, -1, 0⟩⟩ : Ray ℝ).at 1).add ((⟨0, 1, 0⟩ : Vec ℝ).mul gap) = ⟨0, gap - 1, 0⟩ := by
      simp only [geo]; refine ⟨by norm_num, by ring, by norm_num⟩
    rw [show patioFloor.normal _ = ⟨0, 1, 0⟩ from rfl, hfac, hP] at hA
    obtain ⟨A1, A', hA1, rfl, rfl⟩ := hA
    have hlen : length3 ⟨0 - 0, 0 - (gap - 1), 0 - 0⟩ = 1 - gap := by
      unfold length3
      rw [show ((0 : ℝ) - 0) ^ 2 + (0 - (gap - 1)) ^ 2 + (0 - 0) ^ 2 = (1 - gap) ^ 2 by ring, Real.sqrt_sq (by linarith)]
    have hd : (1 - gap) ≠ 0 := by linarith
    have hcos : ((0 - 0) * 0 + (0 - (gap - 1)) * 1 + (0 - 0) * 0) / (1 - gap) = (1 : ℝ) := by
      rw [show ((0 - 0) * 0 + (0 - (gap - 1)) * 1 + (0 - 0) * 0 : ℝ) = 1 - gap by ring, div_self hd]
    have noclear : ∀ b ∈ patioThings.flatten, ∀ p k, b.look p ≠ .clear k := by
      intro b hb p k h
      simp only [patioThings, List.flatten_cons, List.flatten_nil, List.append_nil, List.mem_append, List.mem_singleton] at hb
      rcases hb with rfl | rfl <;> cases h
    have hfall : A1 = ⟨10 / (4 * Real.pi * (1 - gap) ^ 2), 10 / (4 * Real.pi * (1 - gap) ^ 2), 10 / (4 * Real.pi * (1 - gap) ^ 2)⟩ := by
      simp only [FallsOn, patioLamp, hlen, hcos] at hA1
      rcases hA1 with ⟨h, -⟩ | ⟨-, c, hc, rfl⟩
      · norm_num at h
      · rcases C95_shadow _ noclear _ _ _ _ hc with ⟨-, rfl⟩ | ⟨⟨b, hb, T, hT, hlt, hon⟩, -⟩
        · simp [div_eq_mul_inv]
        · exfalso
          have e : (0 - (gap - 1)) / (1 - gap) = 1 := by rw [show 0 - (gap - 1) = 1 - gap by ring, div_self hd]
          rw [e] at hon
          simp only [patioThings, List.flatten_cons, List.flatten_nil, List.append_nil, List.mem_append, List.mem_singleton] at hb
          rcases hb with rfl | rfl
          · have := hon.1
            simp only [Ray.at, Vec.madd] at this
            linarith
          · have := (show AtDistance _ _ _ from hon).1
            simp only [geo, Ray.at, Vec.madd] at this
            nlinarith
    rw [hfall]
    simp

end BR
