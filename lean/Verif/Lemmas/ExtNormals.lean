import Verif.Spec.Normals
import Verif.Lemmas.ExtMesh

/-! The vertex normals computed by `calcNormals`, in extended numbers. -/

namespace BR

set_option linter.unusedSectionVars false

theorem dot_self_pos {V : Vec ℝ} (h : V ≠ ⟨0, 0, 0⟩) : 0 < V.dot V := by
  have h0 : 0 ≤ V.dot V := by
    simp only [Vec.dot]; nlinarith [mul_self_nonneg V.x, mul_self_nonneg V.y, mul_self_nonneg V.z]
  rcases h0.lt_or_eq with h0 | h0
  · exact h0
  · exfalso
    apply h
    simp only [Vec.dot] at h0
    have hx := mul_self_nonneg V.x
    have hy := mul_self_nonneg V.y
    have hz := mul_self_nonneg V.z
    have ex : V.x = 0 := mul_self_eq_zero.1 (by linarith)
    have ey : V.y = 0 := mul_self_eq_zero.1 (by linarith)
    have ez : V.z = 0 := mul_self_eq_zero.1 (by linarith)
    exact Vec.ext ex ey ez

theorem unitVec_dot {V : Vec ℝ} (h : V ≠ ⟨0, 0, 0⟩) : (unitVec V).dot (unitVec V) = 1 := by
  have hp := dot_self_pos h
  have hs := Real.mul_self_sqrt hp.le
  have hs0 : Real.sqrt (V.dot V) ≠ 0 := (Real.sqrt_pos.2 hp).ne'
  have e : (unitVec V).dot (unitVec V) = V.dot V * (1 / Real.sqrt (V.dot V) * (1 / Real.sqrt (V.dot V))) := by
    simp only [unitVec, Vec.dot, Vec.mul]; ring
  rw [e, div_mul_div_comm, hs]
  field_simp

theorem unitVec_ne {V : Vec ℝ} (h : V ≠ ⟨0, 0, 0⟩) : unitVec V ≠ ⟨0, 0, 0⟩ := by
  intro h0
  have := unitVec_dot h
  rw [h0] at this
  simp [Vec.dot] at this

theorem unitVec_idem {V : Vec ℝ} (h : V ≠ ⟨0, 0, 0⟩) : unitVec (unitVec V) = unitVec V := by
  conv_lhs => rw [unitVec]
  rw [unitVec_dot h]
  simp [Vec.mul]

theorem Vec.Is.normalized {v : Vec Ext} {V : Vec ℝ} (h : v.Is V) (hV : V ≠ ⟨0, 0, 0⟩) :
    v.normalized.Is (unitVec V) := by
  have hp := dot_self_pos hV
  have hd : (v.x * v.x + v.y * v.y + v.z * v.z).Is (V.dot V) := h.dot h
  have one : (lit 1 : Ext).Is 1 := by simpa using Ext.Is.lit 1
  have q := one.div (hd.sqrt hp.le) (Real.sqrt_pos.2 hp).ne'
  have e : unitVec V = ⟨V.x * (1 / Real.sqrt (V.dot V)), V.y * (1 / Real.sqrt (V.dot V)),
      V.z * (1 / Real.sqrt (V.dot V))⟩ := by
    simp only [unitVec, Vec.mul, Vec.mk.injEq]
    refine ⟨?_, ?_, ?_⟩ <;> ring
  rw [e]
  exact ⟨h.1.mul q, h.2.1.mul q, h.2.2.mul q⟩

/-- The zero vector cannot be normalised. -/
theorem Vec.Is.normalized_zero {v : Vec Ext} (h : v.Is ⟨0, 0, 0⟩) :
    v.normalized = ⟨.nan, .nan, .nan⟩ := by
  obtain ⟨⟨s1, h1⟩, ⟨s2, h2⟩, s3, h3⟩ := h
  obtain ⟨x, y, z⟩ := v
  simp only at h1 h2 h3
  subst h1 h2 h3
  have hd : (Ext.num 0 s1 * Ext.num 0 s1 + Ext.num 0 s2 * Ext.num 0 s2 + Ext.num 0 s3 * Ext.num 0 s3).Is 0 := by
    have q : ∀ s, (Ext.num 0 s).Is 0 := fun s => ⟨s, rfl⟩
    have := (((q s1).mul (q s1)).add ((q s2).mul (q s2))).add ((q s3).mul (q s3))
    simpa using this
  obtain ⟨t, ht⟩ := hd.sqrt le_rfl
  rw [Real.sqrt_zero] at ht
  simp only [Vec.normalized, ht]
  have e : (lit 1 : Ext) / Ext.num 0 t = .inf (xor (Ext.sgn (Ext.num 1 false)) t) := by
    have e1 : (lit 1 : Ext) = Ext.num 1 false := by simp
    rw [e1, Ext.num_div_zero, if_neg one_ne_zero]
  rw [e]
  simp only [Ext.num_mul_inf, if_true]

theorem isBadVec_is {v : Vec Ext} {V : Vec ℝ} (h : v.Is V) : isBadVec v = false := by
  obtain ⟨⟨s1, h1⟩, ⟨s2, h2⟩, s3, h3⟩ := h
  simp only [isBadVec, isBad, h1, h2, h3]
  rfl

theorem isBadVec_nan : isBadVec (⟨.nan, .nan, .nan⟩ : Vec Ext) = true := rfl

variable {F : Type} [Add F] [Sub F] [Mul F] [Div F] [Neg F] [GoFloat F]

/-- Normals change at one vertex. -/
theorem addNormals_get (n : Vec F) (is : List Nat) (vs : List (Vertex F)) (i : Nat) :
    (is.foldl (addNormal n) vs)[i]? =
      vs[i]?.map fun v => { v with normal := (fun m => m.add n)^[is.count i] v.normal } := by
  induction is generalizing vs with
  | nil => simp
  | cons j is ih =>
    rw [List.foldl_cons, ih, addNormal, List.getElem?_modify, List.count_cons]
    cases vs[i]? with
    | none => simp
    | some v =>
      by_cases h : j = i
      · subst h
        simp [Function.iterate_succ_apply]
      · simp [h]

theorem normalizes_get (is : List Nat) (vs : List (Vertex F)) (i : Nat) :
    (is.foldl normalizeAt vs)[i]? =
      vs[i]?.map fun v => { v with normal := Vec.normalized^[is.count i] v.normal } := by
  induction is generalizing vs with
  | nil => simp
  | cons j is ih =>
    rw [List.foldl_cons, ih, normalizeAt, List.getElem?_modify, List.count_cons]
    cases vs[i]? with
    | none => simp
    | some v =>
      by_cases h : j = i
      · subst h
        simp [Function.iterate_succ_apply]
      · simp [h]

theorem iterate_add_is {n : Vec Ext} {N : Vec ℝ} (hn : n.Is N) (k : Nat) : ∀ {v : Vec Ext} {V : Vec ℝ}, v.Is V →
    ((fun m : Vec Ext => m.add n)^[k] v).Is (V.add (N.mul (k : ℝ))) := by
  induction k with
  | zero =>
    intro v V h
    have : V.add (N.mul ((0 : ℕ) : ℝ)) = V := by simp [Vec.add, Vec.mul]
    rw [this]; exact h
  | succ k ih =>
    intro v V h
    rw [Function.iterate_succ_apply]
    have := ih (h.add hn)
    have e : (V.add N).add (N.mul (k : ℝ)) = V.add (N.mul ((k + 1 : ℕ) : ℝ)) := by
      push_cast
      simp only [Vec.add, Vec.mul, Vec.mk.injEq]
      refine ⟨?_, ?_, ?_⟩ <;> ring
    rw [← e]; exact this

theorem iterate_norm_is {k : Nat} (hk : 0 < k) {v : Vec Ext} {V : Vec ℝ} (h : v.Is V) (hV : V ≠ ⟨0, 0, 0⟩) :
    (Vec.normalized^[k] v).Is (unitVec V) := by
  have key : ∀ k {v : Vec Ext}, v.Is (unitVec V) → (Vec.normalized^[k] v).Is (unitVec V) := by
    intro k
    induction k with
    | zero => intro v h; exact h
    | succ k ih =>
      intro v h
      rw [Function.iterate_succ_apply]
      apply ih
      have := h.normalized (unitVec_ne hV)
      rwa [unitVec_idem hV] at this
  obtain ⟨k, rfl⟩ : ∃ j, k = j + 1 := ⟨k - 1, by omega⟩
  rw [Function.iterate_succ_apply]
  exact key k (h.normalized hV)

theorem normalized_nan : (⟨.nan, .nan, .nan⟩ : Vec Ext).normalized = ⟨.nan, .nan, .nan⟩ := by
  simp [Vec.normalized]

theorem iterate_norm_zero {k : Nat} (hk : 0 < k) {v : Vec Ext} (h : v.Is ⟨0, 0, 0⟩) :
    Vec.normalized^[k] v = ⟨.nan, .nan, .nan⟩ := by
  obtain ⟨k, rfl⟩ : ∃ j, k = j + 1 := ⟨k - 1, by omega⟩
  rw [Function.iterate_succ_apply, h.normalized_zero]
  induction k with
  | zero => rfl
  | succ k ih => rw [Function.iterate_succ_apply, normalized_nan]; exact ih (by omega)

/-- One face of the first loop. -/
theorem accumNormal_is {vs : List (Vertex Ext)} {V : List (Vec ℝ)}
    (hV : List.Forall₂ Vec.Is (vs.map Vertex.pos) V) (f : Tri) (i : Nat) (v : Vertex Ext) (N : Vec ℝ)
    (hv : vs[i]? = some v) (hN : v.normal.Is N) :
    ∃ v', (accumNormal vs f)[i]? = some v' ∧ v'.normal.Is (N.add (cornerNormal V i f)) := by
  have zero : N.add ⟨0, 0, 0⟩ = N := by simp [Vec.add]
  have get : ∀ k : Nat, (∃ (w : Vertex Ext) (p : Vec ℝ), vs[k]? = some w ∧ V[k]? = some p ∧ w.pos.Is p) ∨ (vs[k]? = none ∧ V[k]? = none) := by
    intro k
    have hl := hV.length_eq
    rw [List.length_map] at hl
    by_cases hk : k < vs.length
    · left
      have hk' : k < V.length := hl ▸ hk
      refine ⟨vs[k], V[k], List.getElem?_eq_getElem hk, List.getElem?_eq_getElem hk', ?_⟩
      have := List.forall₂_iff_get.1 hV |>.2 k (by simpa using hk) hk'
      simpa using this
    · right
      exact ⟨List.getElem?_eq_none (by omega), List.getElem?_eq_none (by omega)⟩
  unfold accumNormal cornerNormal
  rcases get f.1 with ⟨a, p, ha, hp, ia⟩ | ⟨ha, hp⟩
  · rcases get f.2.1 with ⟨b, q, hb, hq, ib⟩ | ⟨hb, hq⟩
    · rcases get f.2.2 with ⟨c, s, hc, hs, ic⟩ | ⟨hc, hs⟩
      · simp only [ha, hb, hc, hp, hq, hs]
        have hx : ((b.pos.sub a.pos).cross (c.pos.sub a.pos)).Is (triNormal p q s) := (ib.sub ia).cross (ic.sub ia)
        by_cases h0 : triNormal p q s = ⟨0, 0, 0⟩
        · rw [h0] at hx
          rw [triangleNormal, hx.normalized_zero, if_pos isBadVec_nan, if_pos h0, zero]
          exact ⟨v, hv, hN⟩
        · have hn := hx.normalized h0
          rw [triangleNormal, if_neg (by rw [isBadVec_is hn]; simp), if_neg h0]
          rw [addNormals_get, hv]
          exact ⟨_, rfl, iterate_add_is hn _ hN⟩
      · simp only [ha, hb, hc, hp, hq, hs, zero]
        exact ⟨v, hv, hN⟩
    · simp only [ha, hb, hp, hq, zero]
      exact ⟨v, hv, hN⟩
  · simp only [ha, hp, zero]
    exact ⟨v, hv, hN⟩

/-- The first loop. -/
theorem accum_is {V : List (Vec ℝ)} (i : Nat) (faces : List Tri) : ∀ (vs : List (Vertex Ext)) (v : Vertex Ext)
    (N : Vec ℝ), List.Forall₂ Vec.Is (vs.map Vertex.pos) V → vs[i]? = some v → v.normal.Is N →
    ∃ v', (faces.foldl accumNormal vs)[i]? = some v' ∧
      v'.normal.Is ((faces.map (cornerNormal V i)).foldl Vec.add N) := by
  induction faces with
  | nil => intro vs v N _ hv hN; exact ⟨v, hv, hN⟩
  | cons f fs ih =>
    intro vs v N hV hv hN
    obtain ⟨v', hv', hN'⟩ := accumNormal_is hV f i v N hv hN
    refine ih (accumNormal vs f) v' _ ?_ hv' hN'
    have h := accumNormal_strip vs f
    have e : (Vertex.pos : Vertex Ext → Vec Ext) = Prod.fst ∘ Vertex.strip := by funext v; rfl
    have e2 : (accumNormal vs f).map Vertex.pos = vs.map Vertex.pos := by
      rw [e, ← List.map_map, h, List.map_map]
    rw [e2]; exact hV

/-- The second loop visits every corner of every face. -/
theorem normalize_all (faces : List Tri) : ∀ vs : List (Vertex F),
    faces.foldl (fun vs f => f.corners.foldl normalizeAt vs) vs =
      (faces.flatMap Tri.corners).foldl normalizeAt vs := by
  induction faces with
  | nil => intro vs; rfl
  | cons f fs ih => intro vs; rw [List.foldl_cons, ih, List.flatMap_cons, List.foldl_append]

end BR
