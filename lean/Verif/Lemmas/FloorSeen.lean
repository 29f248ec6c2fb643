import Verif.Spec.FloorSeen
import Verif.Lemmas.FloorShape

/-! What a rectangle answers, in double precision. -/

namespace BR
set_option linter.unusedSectionVars false

open CmpModel Flo

variable {M : Type}

/-- The weighted mean of three numbers. -/
private theorem mix {p0 p1 p2 : Flo} {a b c : ℝ} (h0 : p0.Rel a (1 / 2 ^ 27) 4 1) (h1 : p1.Rel b (1 / 2 ^ 27) 4 1)
    (h2 : p2.Rel c (1 / 2 ^ 27) 4 1) : ∃ v, (p0 + p1 + p2).Is v ∧ |v - (a + b + c)| ≤ 1 / 2 ^ 25 := by
  have f : Roomy 1 := roomy_of le_rfl (by norm_num)
  obtain ⟨⟨v, hv, e⟩, -⟩ := Rel.add (1 / 2 ^ 25) 12 f (Rel.add (1 / 2 ^ 26 + 1 / 2 ^ 40) 8 f h0 h1) h2
  exact ⟨v, hv, by simpa using e⟩

private theorem part {n l : Flo} {N a : ℝ} (hn : n.Rel N (1 / 2 ^ 48) 1 1) (hl : l.Rel a (1 / 2 ^ 28) 4 1) :
    (n * l).Rel (N * a) (1 / 2 ^ 27) 4 1 ∧ (l * n).Rel (a * N) (1 / 2 ^ 27) 4 1 := by
  have f : Roomy (1 * 1) := roomy_of (by norm_num) (by norm_num)
  have h1 := Rel.mul (1 / 2 ^ 27) 4 one_pos one_pos f hn hl
  have h2 := Rel.mul (1 / 2 ^ 27) 4 one_pos one_pos f hl hn
  rw [mul_one] at h1 h2
  exact ⟨h1, h2⟩

/-- The record of a hit on a triangle. -/
theorem FlatFace.hit_record {v0 v1 v2 : Vertex Flo} {O : Vec ℝ} {k a b : ℝ} (h : FlatFace v0 v1 v2 O k a b) {r : Ray Flo} {S d : Vec ℝ}
    (q : FlatFace.Sighted r S d O) (hpos : ((Face.hit v0 v1 v2 r : HitRecord Flo M).t >. lit 0) = true)
    (u0 : Up v0.normal) (u1 : Up v1.normal) (u2 : Up v2.normal) {a0 a1 a2 b0 b1 b2 : ℝ}
    (hu0 : v0.u.Rel a0 (1 / 2 ^ 48) 1 1) (hu1 : v1.u.Rel a1 (1 / 2 ^ 48) 1 1) (hu2 : v2.u.Rel a2 (1 / 2 ^ 48) 1 1)
    (hv0 : v0.v.Rel b0 (1 / 2 ^ 48) 1 1) (hv1 : v1.v.Rel b1 (1 / 2 ^ 48) 1 1) (hv2 : v2.v.Rel b2 (1 / 2 ^ 48) 1 1)
    {T X Z : ℝ} (hT : (Face.planeT v0 v1 v2 r).Is T) (hT0 : 0 < T) (hT1 : T ≤ 2 ^ 16) (hX : X * b = S.x + T * d.x - O.x)
    (hZ : Z * a = S.z + T * d.z - O.z) (hσ : 1 + |X| + |Z| ≤ 4) :
    ∃ n : Vec Flo, ∃ l : Vec Flo, ∃ N U V : ℝ, (Face.hit v0 v1 v2 r : HitRecord Flo M) = ⟨Face.planeT v0 v1 v2 r, n, l, none⟩ ∧
      n.FIs ⟨0, N, 0⟩ ∧ |N - 1| ≤ 1 / 2 ^ 25 ∧ l.FIs ⟨U, V, 0⟩ ∧ |U - (a0 * (1 - X - Z) + a1 * Z + a2 * X)| ≤ 1 / 2 ^ 25 ∧
      |V - (b0 * (1 - X - Z) + b1 * Z + b2 * X)| ≤ 1 / 2 ^ 25 := by
  obtain ⟨dx, dy, dz⟩ := small_comp q.short
  obtain ⟨c1, c2, c3⟩ := h.bary_rel q.start q.dir q.x_le q.y_le q.z_le dx dy dz hT hT0.le (hT1.trans (by norm_num)) hX hZ rfl
  have g1 := (c1.scale (R := 1) 4 (by norm_num) (by norm_num) (by rw [mul_one]; exact hσ)).weaken (e' := 1 / 2 ^ 28) (b' := 4) zero_le_one
  have g2 := (c2.scale (R := 1) 4 (by norm_num) (by norm_num) (by rw [mul_one]; exact hσ)).weaken (e' := 1 / 2 ^ 28) (b' := 4) zero_le_one
  have g3 := (c3.scale (R := 1) 4 (by norm_num) (by norm_num) (by rw [mul_one]; exact hσ)).weaken (e' := 1 / 2 ^ 28) (b' := 4) zero_le_one
  have zero : ¬((HitRecord.miss : HitRecord Flo M).t >. lit 0) = true := by
    change ¬((lit 0 : Flo) <. lit 0) = true
    rw [lt_is Ball.flo_zero Ball.flo_zero]; simp
  unfold Face.hit at hpos ⊢
  dsimp only at hpos ⊢
  generalize Face.planeT v0 v1 v2 r = t at *
  generalize Face.bary v0 v1 v2 r t = l at *
  obtain ⟨l1, l2, l3⟩ := l
  dsimp only at hpos g1 g2 g3 ⊢
  split at hpos
  · exact absurd hpos zero
  split at hpos
  · exact absurd hpos zero
  next h1 h2 =>
  rw [if_neg h1, if_neg h2]
  obtain ⟨x0, ⟨y0, hy0, e0⟩, z0⟩ := u0
  obtain ⟨x1, ⟨y1, hy1, e1⟩, z1⟩ := u1
  obtain ⟨x2, ⟨y2, hy2, e2⟩, z2⟩ := u2
  have up : ∀ {n : Flo} {y : ℝ}, n.Is y → |y - 1| ≤ 1 / 2 ^ 48 → n.Rel 1 (1 / 2 ^ 48) 1 1 :=
    fun hn he => ⟨⟨_, hn, by simpa using he⟩, by simp⟩
  obtain ⟨N, hN, eN⟩ := mix (part (up hy0 e0) g1).2 (part (up hy1 e1) g2).2 (part (up hy2 e2) g3).2
  obtain ⟨U, hU, eU⟩ := mix (part hu0 g1).1 (part hu1 g2).1 (part hu2 g3).1
  obtain ⟨V, hV, eV⟩ := mix (part hv0 g1).1 (part hv1 g2).1 (part hv2 g3).1
  refine ⟨_, _, N, U, V, rfl, ⟨?_, hN, ?_⟩, ?_, ⟨hU, hV, Ball.flo_zero⟩, eU, eV⟩
  · exact Is.zero_add (Is.zero_add (Is.mul_zero g1 x0) (Is.mul_zero g2 x1)) (Is.mul_zero g3 x2)
  · exact Is.zero_add (Is.zero_add (Is.mul_zero g1 z0) (Is.mul_zero g2 z1)) (Is.mul_zero g3 z2)
  · rwa [show (1 - X - Z) * 1 + Z * 1 + X * 1 = (1 : ℝ) by ring] at eN

/-- What a rectangle answers: nothing, the far distance, or what one of its triangles answers. -/
theorem floor_answer (m : Option M) (bb : BBox Flo) (v0 v1 v2 w0 w1 w2 : Vertex Flo) (r r' : Ray Flo) (h : HitRecord Flo M)
    (hi : (Obj.withMaterial m (.tree (.leaf bb [.face v0 v1 v2, .face w0 w1 w2]))).intersect r = .ok (h, r')) :
    r' = r ∧ (h = { (HitRecord.miss : HitRecord Flo M) with mat := m } ∨ h = { (noHit : HitRecord Flo M) with mat := m } ∨
      (((Face.hit v0 v1 v2 r : HitRecord Flo M).t >. lit 0) = true ∧ ((Face.hit v0 v1 v2 r : HitRecord Flo M).t <. lit (9 * 10 ^ 99)) = true ∧
        h = { (Face.hit v0 v1 v2 r : HitRecord Flo M) with mat := m }) ∨
      (((Face.hit w0 w1 w2 r : HitRecord Flo M).t >. lit 0) = true ∧
        h = { (Face.hit w0 w1 w2 r : HitRecord Flo M) with mat := m })) := by
  simp only [Obj.intersect, Node.intersect, Obj.scan, ok_bind, pure_ok] at hi
  split at hi
  · simp only [ok_bind, Except.ok.injEq, Prod.mk.injEq] at hi
    exact ⟨hi.2.symm, .inl hi.1.symm⟩
  simp only [ok_bind, Except.ok.injEq, Prod.mk.injEq] at hi
  refine ⟨hi.2.symm, ?_⟩
  obtain ⟨hi, -⟩ := hi
  generalize (Face.hit v0 v1 v2 r : HitRecord Flo M) = A at *
  generalize (Face.hit w0 w1 w2 r : HitRecord Flo M) = B at *
  by_cases c : (A.t >. lit 0 && A.t <. (noHit : HitRecord Flo M).t) = true
  · rw [if_pos c] at hi
    rw [Bool.and_eq_true] at c
    split at hi
    next h2 =>
      rw [Bool.and_eq_true] at h2
      exact .inr (.inr (.inr ⟨h2.1, hi.symm⟩))
    next => exact .inr (.inr (.inl ⟨c.1, c.2, hi.symm⟩))
  · rw [if_neg c] at hi
    split at hi
    next h2 =>
      rw [Bool.and_eq_true] at h2
      exact .inr (.inr (.inr ⟨h2.1, hi.symm⟩))
    next => exact .inr (.inl hi.symm)

/-- If the test of the box is passed and one of the triangles answers, the rectangle answers with one of them. -/
theorem floor_finds (m : Option M) (bb : BBox Flo) (v0 v1 v2 w0 w1 w2 : Vertex Flo) (r : Ray Flo)
    (hb : (bb.intersect r <=. lit 0) = false)
    (hf : (((Face.hit v0 v1 v2 r : HitRecord Flo M).t >. lit 0) = true ∧ ((Face.hit v0 v1 v2 r : HitRecord Flo M).t <. lit (9 * 10 ^ 99)) = true) ∨
      (((Face.hit w0 w1 w2 r : HitRecord Flo M).t >. lit 0) = true ∧ ((Face.hit w0 w1 w2 r : HitRecord Flo M).t <. lit (9 * 10 ^ 99)) = true)) :
    ∃ h : HitRecord Flo M, (Obj.withMaterial m (.tree (.leaf bb [.face v0 v1 v2, .face w0 w1 w2]))).intersect r = .ok (h, r) ∧
      (h.t >. lit 0) = true ∧ (h.t <. lit (9 * 10 ^ 99)) = true := by
  simp only [Obj.intersect, Node.intersect, Obj.scan, ok_bind, pure_ok, Node.bb, hb, Bool.false_eq_true, if_false]
  refine ⟨_, rfl, ?_, ?_⟩
  all_goals
    dsimp only
    generalize (Face.hit v0 v1 v2 r : HitRecord Flo M) = A at *
    generalize (Face.hit w0 w1 w2 r : HitRecord Flo M) = B at *
    have far : (noHit : HitRecord Flo M).t = lit (9 * 10 ^ 99) := rfl
    by_cases c : (A.t >. lit 0 && A.t <. (noHit : HitRecord Flo M).t) = true
    · rw [if_pos c]
      rw [Bool.and_eq_true, far] at c
      split
      next h2 =>
        rw [Bool.and_eq_true] at h2
        first
        | exact h2.1
        | obtain ⟨a1, a2, p1, p2, p3⟩ := (lt_iff _ _).1 h2.2
          obtain ⟨b1, b2, q1, q2, q3⟩ := (lt_iff _ _).1 c.2
          rw [p2, Option.some.injEq] at q1
          exact (lt_iff _ _).2 ⟨_, _, p1, q2, p3.trans (q1 ▸ q3)⟩
      next => first | exact c.1 | exact c.2
    · rw [if_neg c]
      rw [Bool.and_eq_true, far] at c
      rcases hf with hf | hf
      · exact absurd hf c
      · rw [if_pos (by rw [Bool.and_eq_true, far]; exact hf)]
        first | exact hf.1 | exact hf.2

/-- The place between two sides. -/
theorem between_sides {p lo hi c L P : ℝ} (hlo : |lo - (c - L / 2)| ≤ 1 / 2 ^ 40) (hhi : |hi - (c + L / 2)| ≤ 1 / 2 ^ 40)
    (h1 : 2 ≤ L) (h2 : L ≤ 2000) (hP : P * (hi - lo) = p - lo) (P0 : -(1 / 2 ^ 27) ≤ P) (P1 : P ≤ 1 + 1 / 2 ^ 27) :
    |p - c| ≤ L / 2 + 1 / 2 ^ 16 ∧ |P - (p - (c - L / 2)) / L| ≤ 1 / 2 ^ 30 := by
  obtain ⟨ε, he⟩ : ∃ ε, lo = c - L / 2 + ε := ⟨lo - (c - L / 2), by ring⟩
  obtain ⟨δ, hd⟩ : ∃ δ, hi - lo = L + δ := ⟨hi - lo - L, by ring⟩
  have e1 : |ε| ≤ 1 / 2 ^ 40 := by rwa [he, add_sub_cancel_left] at hlo
  have e2 : |δ| ≤ 1 / 2 ^ 39 := by
    have : δ = (hi - (c + L / 2)) - (lo - (c - L / 2)) := by linarith
    rw [this]
    refine (abs_sub _ _).trans ?_
    norm_num at *; linarith
  have hp : p = c - L / 2 + ε + P * (L + δ) := by rw [hd] at hP; linarith
  have aP : |P| ≤ 2 := by rw [abs_le]; norm_num at *; constructor <;> linarith
  have e3 : |P * δ| ≤ 1 / 2 ^ 38 := by
    rw [abs_mul]
    exact (mul_le_mul aP e2 (abs_nonneg _) (by norm_num)).trans (by norm_num)
  constructor
  · have e : p - c = -(L / 2) + ε + P * L + P * δ := by rw [hp]; ring
    have i1 : P * L ≤ L + 1 / 2 ^ 27 * 2000 := by nlinarith
    have i2 : -(1 / 2 ^ 27 * 2000) ≤ P * L := by nlinarith
    rw [e]
    rw [abs_le] at e1 e3 ⊢
    norm_num at *
    constructor <;> linarith
  · have hL : L ≠ 0 := by linarith
    have e : P - (p - (c - L / 2)) / L = -((P * δ + ε) / L) := by rw [hp]; field_simp; ring
    rw [e, abs_neg, abs_div, abs_of_pos (show 0 < L by linarith), div_le_iff₀ (by linarith)]
    have := abs_add_le (P * δ) ε
    norm_num at *; linarith

theorem LookingFrom.sighted {r : Ray Flo} {s d O : Vec ℝ} (h : LookingFrom r s d O.y) (hx : |O.x| ≤ 1001) (hy : |O.y| ≤ 1000)
    (hz : |O.z| ≤ 1001) : FlatFace.Sighted r s d O := by
  obtain ⟨n1, n2, n3⟩ := h.near
  refine ⟨h.start, h.dir, ?_, ?_, ?_, le_trans (by norm_num) h.off, h.long, h.short⟩
  all_goals
    refine (abs_sub _ _).trans ?_
    norm_num at *; linarith

/-- The place of a point well between two sides. -/
theorem inside_sides {p lo hi c L P : ℝ} (hlo : |lo - (c - L / 2)| ≤ 1 / 2 ^ 40) (hhi : |hi - (c + L / 2)| ≤ 1 / 2 ^ 40)
    (h1 : 2 ≤ L) (h2 : L ≤ 2000) (hP : P * (hi - lo) = p - lo) (hp : |p - c| ≤ L / 2 + -(1 / 2 ^ 12)) :
    1 / 2 ^ 24 ≤ P ∧ P ≤ 1 - 1 / 2 ^ 24 ∧ |P - (1 / 2 + (p - c) / L)| ≤ 1 / 2 ^ 30 := by
  have hlo' := abs_le.1 hlo
  have hhi' := abs_le.1 hhi
  rw [abs_le] at hp
  have l1 : hi - lo ≤ 2 ^ 11 := by norm_num at *; linarith
  have l0 : 0 < hi - lo := by norm_num at *; linarith
  have P0 : 1 / 2 ^ 24 ≤ P := by
    have : 1 / 2 ^ 13 ≤ P * (hi - lo) := by rw [hP]; norm_num at *; linarith
    by_contra hlt
    rw [not_le] at hlt
    have := mul_lt_mul_of_pos_right hlt l0
    norm_num at *; linarith
  have P1 : 1 / 2 ^ 24 ≤ 1 - P := by
    have : 1 / 2 ^ 13 ≤ (1 - P) * (hi - lo) := by rw [sub_mul, hP]; norm_num at *; linarith
    by_contra hlt
    rw [not_le] at hlt
    have := mul_lt_mul_of_pos_right hlt l0
    norm_num at *; linarith
  have := (between_sides hlo hhi h1 h2 hP (by norm_num at *; linarith) (by norm_num at *; linarith)).2
  refine ⟨P0, by linarith, ?_⟩
  rwa [show (1 / 2 + (p - c) / L) = (p - (c - L / 2)) / L by field_simp; ring]

open FlatFace in
/-- A hit on a triangle is short of the far distance. -/
theorem FlatFace.hit_near {v0 v1 v2 : Vertex Flo} {O : Vec ℝ} {k a b : ℝ} (h : FlatFace v0 v1 v2 O k a b) {r : Ray Flo} {S d : Vec ℝ}
    (q : FlatFace.Sighted r S d O) (dy0 : 1 / 2 ^ 120 ≤ |d.y|) (hT1 : |(O.y - S.y) / d.y| ≤ 2 ^ 100)
    (hpos : ((Face.hit v0 v1 v2 r : HitRecord Flo M).t >. lit 0) = true) :
    ((Face.hit v0 v1 v2 r : HitRecord Flo M).t <. lit (9 * 10 ^ 99)) = true := by
  rcases FlatFace.hit_cases (M := M) v0 v1 v2 r with e | ⟨-, -, -, -, e⟩
  · rw [e] at hpos
    have : ((lit 0 : Flo) <. lit 0) = true := hpos
    rw [lt_is Ball.flo_zero Ball.flo_zero] at this
    simp at this
  obtain ⟨dx, dy, dz⟩ := small_comp q.short
  obtain ⟨⟨T, ht, hTe⟩, -⟩ := h.plane_rel q.start q.dir q.x_le q.y_le q.z_le q.off dy dy0
  obtain ⟨x, hx, hx1, -⟩ := flo_far
  rw [e, lt_is ht hx, decide_eq_true_eq]
  have := abs_sub_abs_le_abs_sub T ((O.y - S.y) / d.y)
  have := le_abs_self T
  norm_num at *; linarith

end BR
