import Verif.Lemmas.Scaled

/-! In double precision, where a ray meets a level triangle with two edges along the axes. -/

namespace BR

open Flo

/-- A level triangle in double precision: from the corner `O`, one edge leads by `a` along the third axis (and by `k`,
next to nothing, along the first), the other by `b` along the first axis. -/
structure FlatFace (v0 v1 v2 : Vertex Flo) (O : Vec ℝ) (k a b : ℝ) : Prop where
  p0 : v0.pos.FIs O
  p1 : v1.pos.FIs ⟨O.x + k, O.y, O.z + a⟩
  p2 : v2.pos.FIs ⟨O.x + b, O.y, O.z⟩
  k_le : |k| ≤ 1 / 2 ^ 40
  a_ge : 1 ≤ |a|
  a_le : |a| ≤ 2 ^ 11
  b_ge : 1 ≤ |b|
  b_le : |b| ≤ 2 ^ 11

namespace FlatFace

variable {v0 v1 v2 : Vertex Flo} {O : Vec ℝ} {k a b : ℝ}

/-- The edges, as computed. -/
theorem edges (h : FlatFace v0 v1 v2 O k a b) :
    (v1.pos.sub v0.pos).x.Rel k (1 / 2 ^ 50) (1 / 2 ^ 40) 1 ∧ (v1.pos.sub v0.pos).y.Is 0 ∧
    (v1.pos.sub v0.pos).z.Rel a (1 / 2 ^ 52) 1 |a| ∧ (v2.pos.sub v0.pos).x.Rel b (1 / 2 ^ 52) 1 |b| ∧
    (v2.pos.sub v0.pos).y.Is 0 ∧ (v2.pos.sub v0.pos).z.Is 0 := by
  obtain ⟨⟨x0, y0, z0⟩, ⟨x1, y1, z1⟩, ⟨x2, y2, z2⟩, hk, a1, a2, b1, b2⟩ := h
  have fa : Roomy |a| := roomy_of a1 (a2.trans (by norm_num))
  have fb : Roomy |b| := roomy_of b1 (b2.trans (by norm_num))
  have f1 : Roomy 1 := roomy_of le_rfl (by norm_num)
  refine ⟨?_, y1.sub_self y0, ?_, ?_, y2.sub_self y0, z2.sub_self z0⟩
  · exact (Is.sub_rel (1 / 2 ^ 50) f1 x1 x0 (by simpa using hk)).of_eq (by simp)
  · exact (Is.sub_rel (b := 1) (1 / 2 ^ 52) fa z1 z0 (by simp)).of_eq (by simp)
  · exact (Is.sub_rel (b := 1) (1 / 2 ^ 52) fb x2 x0 (by simp)).of_eq (by simp)

/-- The normal, as computed. -/
theorem normal (h : FlatFace v0 v1 v2 O k a b) (n : Vec Flo) (hn : n = (v1.pos.sub v0.pos).cross (v2.pos.sub v0.pos)) :
    n.x.Is 0 ∧ n.y.Rel (a * b) (1 / 2 ^ 50) 1 (|a| * |b|) ∧ n.z.Is 0 := by
  obtain ⟨ax, ay, az, bx, bY, bz⟩ := h.edges
  have a0 : 0 < |a| := lt_of_lt_of_le one_pos h.a_ge
  have b0 : 0 < |b| := lt_of_lt_of_le one_pos h.b_ge
  have fab : Roomy (|a| * |b|) := by
    refine roomy_of ?_ ?_
    · nlinarith [h.a_ge, h.b_ge]
    · exact (mul_le_mul h.a_le h.b_le b0.le (by positivity)).trans (by norm_num)
  subst hn
  refine ⟨?_, ?_, ?_⟩
  · exact (Is.zero_mul ay bz.rel_zero (Q := 1)).zero_sub (Is.mul_zero az bY)
  · refine ((az.mul (b := 1) (d := 1) (1 / 2 ^ 51 + 1 / 2 ^ 52) 1 a0 b0 fab bx).sub (1 / 2 ^ 50) 1 fab
      (Is.mul_zero ax bz).rel_zero).of_eq (by ring)
  · exact (Is.mul_zero ax bY).zero_sub (Is.zero_mul ay bx)

/-- The position on the ray relative to the corner, as computed. -/
private theorem place {s o dr t : Flo} {S o' D T c σ X : ℝ} (hs : s.Is S) (ho : o.Is o') (hd : dr.Is D) (ht : t.Is T)
    (hS : |S - o'| ≤ 2 ^ 11) (c0 : 1 ≤ |c|) (c1 : |c| ≤ 2 ^ 11) (hX : X * c = S + T * D - o') (hσ : 1 + |X| ≤ σ)
    (hσ1 : σ ≤ 2 ^ 200 * 2 ^ 160) : (s - o + t * dr).Rel (X * c) (1 / 2 ^ 39) 1 (σ * |c|) := by
  have σ1 : 1 ≤ σ := by linarith [abs_nonneg X]
  have hc : 0 < |c| := by linarith
  have q1 : 1 ≤ σ * |c| := by nlinarith
  have f : Roomy (σ * |c|) := roomy_of q1 ((mul_le_mul hσ1 c1 hc.le (by positivity)).trans (by norm_num))
  have hXc : |X * c| ≤ 1 * (σ * |c|) := by
    rw [abs_mul, one_mul]
    exact mul_le_mul_of_nonneg_right (by linarith) hc.le
  have hTD : |T * D| ≤ (2 ^ 11 + 1) * (σ * |c|) := by
    have : T * D = X * c - (S - o') := by rw [hX]; ring
    rw [this]
    have h1 := abs_sub (X * c) (S - o')
    linarith
  have hSo : |S - o'| ≤ 2 ^ 11 * (σ * |c|) := by linarith
  have := ((Is.sub_rel (1 / 2 ^ 41) f hs ho hSo).add (1 / 2 ^ 39) (2 ^ 13) f (Is.mul_rel (1 / 2 ^ 41) f ht hd hTD)).of_eq
    (show S - o' + T * D = X * c by rw [hX]; ring)
  exact this.bound hXc

/-- Finite. -/
private theorem fin {s o dr t : Flo} {S o' D T : ℝ} (hs : s.Is S) (ho : o.Is o') (hd : dr.Is D) (ht : t.Is T)
    (hS : |S - o'| ≤ 2 ^ 11) (hD : |D| ≤ 2) (hT0 : 0 ≤ T) (hT : T ≤ 2 ^ 200 * 2 ^ 140) :
    ∃ x, (s - o + t * dr).Rel x 1 1 (2 ^ 200 * 2 ^ 150) := by
  have f : Roomy (2 ^ 200 * 2 ^ 150) := roomy_of (by norm_num) (by norm_num)
  have hTD : |T * D| ≤ 1 / 4 * (2 ^ 200 * 2 ^ 150) := by
    rw [abs_mul, abs_of_nonneg hT0]
    exact (mul_le_mul hT hD (abs_nonneg _) (by positivity)).trans (by norm_num)
  exact ⟨_, (Is.sub_rel (b := 1 / 4) (1 / 2 ^ 41) f hs ho (hS.trans (by norm_num))).add 1 1 f (Is.mul_rel (1 / 2 ^ 41) f ht hd hTD)⟩

/-- Only the second component of the other factor counts. -/
theorem dot_rel {n m : Vec Flo} {N x e b q1 q3 Q R : ℝ} {x1 x3 e1 e3 b1 b3 : ℝ} (E B : ℝ) (hQ : 0 < Q) (hR : 0 < R)
    (hQR : Roomy (Q * R)) (h1 : n.x.Is 0) (h2 : n.y.Rel N (1 / 2 ^ 50) 1 Q) (h3 : n.z.Is 0) (m1 : m.x.Rel x1 e1 b1 q1)
    (m2 : m.y.Rel x e b R) (m3 : m.z.Rel x3 e3 b3 q3) (he : 0 ≤ e) (he' : e ≤ 1) (hb : 0 ≤ b) (hb' : b ≤ 4)
    (hB : b ≤ B := by norm_num) (hE : e + 1 / 2 ^ 46 ≤ E := by norm_num) : (n.dot m).Rel (N * x) E B (Q * R) := by
  have z1 := h1.zero_mul m1
  have z3 := h3.zero_mul m3
  have p := h2.mul (e + 1 / 2 ^ 47 + 1 / 2 ^ 49) b hQ hR hQR m2 (hB := by linarith) (hE := by norm_num; linarith)
    (hbig := by norm_num; linarith)
  have := ((z1.rel_zero.add (e + 1 / 2 ^ 47 + 1 / 2 ^ 48) b hQR p (hB := by linarith) (hE := by norm_num; linarith)
    (hbig := by norm_num; linarith)).add E B hQR z3.rel_zero (hB := by linarith) (hE := by norm_num at hE ⊢; linarith)
    (hbig := by norm_num; linarith)).of_eq (show 0 + N * x + 0 = N * x by ring)
  exact this

set_option maxHeartbeats 1000000 in
/-- **The coordinates of the point within the triangle**, as computed from the distance `t`. -/
theorem bary_rel (h : FlatFace v0 v1 v2 O k a b) {r : Ray Flo} {S d : Vec ℝ} (hs : r.start.FIs S) (hd : r.dir.FIs d)
    (hSx : |S.x - O.x| ≤ 2 ^ 11) (hSy : |S.y - O.y| ≤ 2 ^ 11) (hSz : |S.z - O.z| ≤ 2 ^ 11)
    (dx : |d.x| ≤ 2) (dy : |d.y| ≤ 2) (dz : |d.z| ≤ 2) {t : Flo} {T : ℝ} (ht : t.Is T) (hT0 : 0 ≤ T)
    (hT : T ≤ 2 ^ 200 * 2 ^ 140) {X Z σ : ℝ} (hX : X * b = S.x + T * d.x - O.x) (hZ : Z * a = S.z + T * d.z - O.z)
    (hσ : σ = 1 + |X| + |Z|) :
    (Face.bary v0 v1 v2 r t).1.Rel (1 - X - Z) (1 / 2 ^ 32) 1 σ ∧ (Face.bary v0 v1 v2 r t).2.1.Rel Z (1 / 2 ^ 30) 1 σ ∧
      (Face.bary v0 v1 v2 r t).2.2.Rel X (1 / 2 ^ 32) 1 σ := by
  obtain ⟨ax, ay, az, bx, bY, bz⟩ := h.edges
  obtain ⟨nx, ny, nz⟩ := h.normal _ rfl
  have a0 : 0 < |a| := lt_of_lt_of_le one_pos h.a_ge
  have b0 : 0 < |b| := lt_of_lt_of_le one_pos h.b_ge
  have aX := abs_nonneg X
  have aZ := abs_nonneg Z
  have σ1 : 1 ≤ σ := by linarith
  have σ2 : σ ≤ 2 ^ 200 * 2 ^ 150 := by
    have big : ∀ {x c s d o : ℝ}, x * c = s + T * d - o → 1 ≤ |c| → |s - o| ≤ 2 ^ 11 → |d| ≤ 2 → |x| ≤ 2 ^ 200 * 2 ^ 142 := by
      intro x c s d o e hc hso hd
      have h1 : |x| ≤ |x * c| := by rw [abs_mul]; exact le_mul_of_one_le_right (abs_nonneg _) hc
      have h2 : |T * d| ≤ 2 ^ 200 * 2 ^ 140 * 2 := by
        rw [abs_mul, abs_of_nonneg hT0]; exact mul_le_mul hT hd (abs_nonneg _) (by positivity)
      have h3 : |x * c| ≤ |s - o| + |T * d| := by
        rw [e, show s + T * d - o = (s - o) + T * d by ring]; exact abs_add_le _ _
      norm_num at *
      linarith
    have := big hX h.b_ge hSx dx
    have := big hZ h.a_ge hSz dz
    norm_num at *
    linarith
  have fσ : Roomy σ := roomy_of σ1 (σ2.trans (by norm_num))
  have σ0 : 0 < σ := fσ.pos
  have ab1 : 1 ≤ |a| * |b| := by nlinarith [h.a_ge, h.b_ge]
  have ab2 : |a| * |b| ≤ 2 ^ 22 := (mul_le_mul h.a_le h.b_le b0.le (by positivity)).trans (by norm_num)
  have ab0 : 0 < |a| * |b| := by positivity
  have q1 : 1 ≤ σ * (|a| * |b|) := by nlinarith
  have q2 : σ * (|a| * |b|) ≤ 2 ^ 200 * 2 ^ 172 :=
    (mul_le_mul σ2 ab2 ab0.le (by positivity)).trans (by norm_num)
  have fq : Roomy (σ * (|a| * |b|)) := roomy_of q1 (q2.trans (by norm_num))
  have q0 := fq.pos
  have fqq : Roomy ((|a| * |b|) * (σ * (|a| * |b|))) := by
    refine roomy_of (by nlinarith) ?_
    exact (mul_le_mul ab2 q2 q0.le (by positivity)).trans (by norm_num)
  have fn : Roomy ((|a| * |b|) * (|a| * |b|)) := by
    refine roomy_of (by nlinarith) ?_
    exact (mul_le_mul ab2 ab2 ab0.le (by positivity)).trans (by norm_num)
  have fσb : Roomy (σ * |b|) := roomy_of (by nlinarith [h.b_ge])
    ((mul_le_mul σ2 h.b_le b0.le (by positivity)).trans (by norm_num))
  have fσa : Roomy (σ * |a|) := roomy_of (by nlinarith [h.a_ge])
    ((mul_le_mul σ2 h.a_le a0.le (by positivity)).trans (by norm_num))
  have fa : Roomy |a| := roomy_of h.a_ge (h.a_le.trans (by norm_num))
  have fb : Roomy |b| := roomy_of h.b_ge (h.b_le.trans (by norm_num))
  -- the point
  have px := place hs.1 h.p0.1 hd.1 ht hSx h.b_ge h.b_le hX (by linarith : 1 + |X| ≤ σ) (σ2.trans (by norm_num))
  have pz := place hs.2.2 h.p0.2.2 hd.2.2 ht hSz h.a_ge h.a_le hZ (by linarith : 1 + |Z| ≤ σ) (σ2.trans (by norm_num))
  obtain ⟨py', py⟩ := fin hs.2.1 h.p0.2.1 hd.2.1 ht hSy dy hT0 hT
  generalize hA : v1.pos.sub v0.pos = A at *
  generalize hB : v2.pos.sub v0.pos = B at *
  generalize hn : A.cross B = n at *
  obtain ⟨p, hp⟩ : ∃ p, p = (r.start.sub v0.pos).madd t r.dir := ⟨_, rfl⟩
  have px : p.x.Rel (X * b) (1 / 2 ^ 39) 1 (σ * |b|) := by rw [hp]; exact px
  have pz : p.z.Rel (Z * a) (1 / 2 ^ 39) 1 (σ * |a|) := by rw [hp]; exact pz
  have py : p.y.Rel py' 1 1 (2 ^ 200 * 2 ^ 150) := by rw [hp]; exact py
  have hXb : |X * b| ≤ σ * |b| := by rw [abs_mul]; exact mul_le_mul_of_nonneg_right (by linarith) b0.le
  have hZa : |Z * a| ≤ σ * |a| := by rw [abs_mul]; exact mul_le_mul_of_nonneg_right (by linarith) a0.le
  have hkZ : |k * (Z * a)| ≤ 1 / 2 ^ 40 * (σ * (|a| * |b|)) := by
    rw [abs_mul]
    refine mul_le_mul h.k_le (hZa.trans ?_) (abs_nonneg _) (by norm_num)
    exact mul_le_mul_of_nonneg_left (le_mul_of_one_le_right a0.le h.b_ge) σ0.le
  have sa : 1 * (σ * |a|) ≤ 1 * (σ * (|a| * |b|)) := by
    rw [one_mul, one_mul]
    exact mul_le_mul_of_nonneg_left (le_mul_of_one_le_right a0.le h.b_ge) σ0.le
  have f1a : Roomy (1 * (σ * |a|)) := by rwa [one_mul]
  have fab : Roomy (|a| * (σ * |b|)) := by rwa [show |a| * (σ * |b|) = σ * (|a| * |b|) by ring]
  have fba : Roomy (|b| * (σ * |a|)) := by rwa [show |b| * (σ * |a|) = σ * (|a| * |b|) by ring]
  have hab : |a * b| = |a| * |b| := abs_mul a b
  -- bounds for the components that do not count
  have f1 : Roomy (|a| * (2 ^ 200 * 2 ^ 150)) := roomy_of (by nlinarith [h.a_ge])
    ((mul_le_mul h.a_le le_rfl (by positivity) (by positivity)).trans (by norm_num))
  have f2 : Roomy (1 * (2 ^ 200 * 2 ^ 150)) := roomy_of (by norm_num) (by norm_num)
  -- the third coordinate
  have c : (A.cross p).y.Rel (a * b * X) (1 / 2 ^ 37) 1 (σ * (|a| * |b|)) := by
    have m1 := (az.mul (1 / 2 ^ 39 + 1 / 2 ^ 50) 1 a0 fσb.pos fab px).in_scale
      (show |a| * (σ * |b|) = σ * (|a| * |b|) by ring)
    have m2 := (ax.mul (1 / 2 ^ 49) (1 / 2 ^ 40) one_pos fσa.pos f1a pz).scale 1 (by norm_num) (by norm_num) sa
    have m3 := m1.sub (1 / 2 ^ 38) 2 fq m2
    refine (m3.shift (y := a * b * X) (f := 1 / 2 ^ 40) (1 / 2 ^ 37) 3 ?_ q0.le).bound ?_
    · rw [show a * (X * b) - k * (Z * a) - a * b * X = -(k * (Z * a)) by ring, abs_neg]; exact hkZ
    · rw [show a * b * X = a * (X * b) by ring, abs_mul, one_mul, show σ * (|a| * |b|) = |a| * (σ * |b|) by ring]
      exact mul_le_mul_of_nonneg_left hXb a0.le
  have cx : ∃ x e b q, (A.cross p).x.Rel x e b q :=
    ⟨_, _, _, _, ((Is.zero_mul ay pz).rel_zero).sub 4 1 f1 (az.mul 3 1 a0 (by positivity) f1 py)⟩
  have cz : ∃ x e b q, (A.cross p).z.Rel x e b q :=
    ⟨_, _, _, _, (ax.mul 3 1 one_pos (by positivity) f2 py).sub 4 1 f2 ((Is.zero_mul ay px).rel_zero)⟩
  -- the first coordinate
  have ux : (p.sub A).x.Rel (X * b) (1 / 2 ^ 38 + 1 / 2 ^ 40) 1 (σ * |b|) := by
    have m1 := px.sub (1 / 2 ^ 38) 2 fσb (ax.scale 1 (by norm_num) (by norm_num) (show (1 : ℝ) ≤ 1 * (σ * |b|) by nlinarith [h.b_ge]))
    refine (m1.shift (y := X * b) (f := 1 / 2 ^ 40) (1 / 2 ^ 38 + 1 / 2 ^ 40) 3 ?_ fσb.pos.le).bound (by rwa [one_mul])
    rw [show X * b - k - X * b = -k by ring, abs_neg]
    exact h.k_le.trans (by nlinarith [h.b_ge])
  have uz : (p.sub A).z.Rel (Z * a - a) (1 / 2 ^ 38) 1 (σ * |a|) := by
    refine (pz.sub (1 / 2 ^ 38) 2 fσa (az.scale 1 (by norm_num) (by norm_num) (show |a| ≤ 1 * (σ * |a|) by nlinarith))).bound ?_
    rw [show Z * a - a = (Z - 1) * a by ring, abs_mul, one_mul]
    refine mul_le_mul_of_nonneg_right ?_ a0.le
    have := abs_sub Z 1
    rw [abs_one] at this
    linarith
  obtain ⟨uy', uy⟩ : ∃ x, (p.sub A).y.Rel x 2 1 (2 ^ 200 * 2 ^ 150) :=
    ⟨_, py.sub 2 1 (roomy_of (by norm_num) (by norm_num)) ay.rel_zero⟩
  have wx : (B.sub A).x.Rel b (1 / 2 ^ 38) 1 |b| := by
    have m1 := bx.sub (1 / 2 ^ 39) 2 fb (ax.scale 1 (by norm_num) (by norm_num) (show (1 : ℝ) ≤ 1 * |b| by linarith [h.b_ge]))
    refine (m1.shift (y := b) (f := 1 / 2 ^ 40) (1 / 2 ^ 38) 3 ?_ b0.le).bound (by rw [one_mul])
    rw [show b - k - b = -k by ring, abs_neg]
    exact h.k_le.trans (by nlinarith [h.b_ge])
  have wy : (B.sub A).y.Is 0 := bY.zero_sub ay
  have wz : (B.sub A).z.Rel (-a) (1 / 2 ^ 50) 1 |a| := (bz.rel_zero.sub (1 / 2 ^ 50) 1 fa az).of_eq (by ring)
  have g : ((B.sub A).cross (p.sub A)).y.Rel (a * b * (1 - X - Z)) (1 / 2 ^ 35) 1 (σ * (|a| * |b|)) := by
    have m1 := (wz.mul (1 / 2 ^ 37) 1 a0 fσb.pos fab ux).in_scale
      (show |a| * (σ * |b|) = σ * (|a| * |b|) by ring)
    have m2 := (wx.mul (1 / 2 ^ 36) 1 b0 fσa.pos fba uz).in_scale
      (show |b| * (σ * |a|) = σ * (|a| * |b|) by ring)
    refine ((m1.sub (1 / 2 ^ 35) 2 fq m2).of_eq (show -a * (X * b) - b * (Z * a - a) = a * b * (1 - X - Z) by ring)).bound ?_
    rw [abs_mul, hab, one_mul, mul_comm]
    refine mul_le_mul_of_nonneg_right ?_ ab0.le
    have h1 := abs_sub (1 - X) Z
    have h2 := abs_sub 1 X
    rw [abs_one] at h2
    linarith
  have gx : ∃ x e b q, ((B.sub A).cross (p.sub A)).x.Rel x e b q :=
    ⟨_, _, _, _, ((Is.zero_mul wy uz).rel_zero).sub 4 1 f1 (wz.mul 3 1 a0 (by positivity) f1 uy)⟩
  have f3 : Roomy (|b| * (2 ^ 200 * 2 ^ 150)) := roomy_of (by nlinarith [h.b_ge])
    ((mul_le_mul h.b_le le_rfl (by positivity) (by positivity)).trans (by norm_num))
  have gz : ∃ x e b q, ((B.sub A).cross (p.sub A)).z.Rel x e b q :=
    ⟨_, _, _, _, (wx.mul 3 1 b0 (by positivity) f3 uy).sub 4 1 f3 ((Is.zero_mul wy ux).rel_zero)⟩
  -- the quotients
  have n2 : n.len2.Rel (a * b * (a * b)) (1 / 2 ^ 45) 1 (|a| * |b| * (|a| * |b|)) :=
    dot_rel (1 / 2 ^ 45) 1 ab0 ab0 fn nx ny nz (nx.rel_zero (Q := 1)) ny (nz.rel_zero (Q := 1)) (by norm_num) (by norm_num)
      (by norm_num) (by norm_num)
  have quot : ∀ {m : Vec Flo} {x e : ℝ}, (∃ x e b q, m.x.Rel x e b q) → (∃ x e b q, m.z.Rel x e b q) → 0 ≤ e → e ≤ 1 / 2 ^ 35 →
      m.y.Rel (a * b * x) e 1 (σ * (|a| * |b|)) → (n.dot m / n.len2).Rel x (1 / 2 ^ 33) 1 σ := by
    intro m x e ⟨_, _, _, _, m1⟩ ⟨_, _, _, _, m3⟩ he he' m2
    have m2' := m2.weaken (e' := 1 / 2 ^ 35) (b' := 1) q0.le he' le_rfl
    have d1 := dot_rel (1 / 2 ^ 34) 1 ab0 q0 fqq nx ny nz m1 m2' m3 (by norm_num) (by norm_num) (by norm_num) (by norm_num)
    have es : |a| * |b| * (σ * (|a| * |b|)) / (|a| * |b| * (|a| * |b|)) = σ := by field_simp
    have ha : a ≠ 0 := abs_pos.1 a0
    have hb : b ≠ 0 := abs_pos.1 b0
    refine ((d1.div 1 (1 / 2 ^ 33) 1 fqq.pos fn.pos (by rwa [es]) n2 ?_).in_scale es).of_eq (by field_simp)
    rw [one_mul, abs_mul, hab]
  have l1 := quot gx gz (by norm_num) le_rfl g
  have l3 := quot cx cz (by norm_num) (by norm_num) c
  have one : (lit 1 : Flo).Rel 1 0 1 σ := flo_lit_one.rel (by rw [abs_one]; linarith)
  have l2 := ((one.sub (1 / 2 ^ 32) 2 fσ l1).sub (1 / 2 ^ 31) 3 fσ l3).of_eq (show 1 - (1 - X - Z) - X = Z by ring)
  have e1 : (Face.bary v0 v1 v2 r t).1 = n.dot ((B.sub A).cross (p.sub A)) / n.len2 := by
    subst hp hn hA hB; rfl
  have e3 : (Face.bary v0 v1 v2 r t).2.2 = n.dot (A.cross p) / n.len2 := by
    subst hp hn hA hB; rfl
  have e2 : (Face.bary v0 v1 v2 r t).2.1 = lit 1 - n.dot ((B.sub A).cross (p.sub A)) / n.len2 - n.dot (A.cross p) / n.len2 := by
    subst hp hn hA hB; rfl
  rw [e1, e2, e3]
  exact ⟨l1.weaken σ0.le, (l2.weaken (b' := 3) σ0.le).bound (by linarith), l3.weaken σ0.le⟩

end FlatFace

end BR
