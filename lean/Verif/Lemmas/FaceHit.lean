import Verif.Lemmas.FaceErr
import Verif.Lemmas.BoxSeen

/-! In double precision, at what distance and where a ray meets a level triangle. -/

namespace BR

open Flo

theorem div_finite {a b : Flo} {x y T : ℝ} (ha : a.Is x) (hb : b.Is y) (h : (a / b).Is T) : y ≠ 0 ∧ T = roundBits 53 (x / y) := by
  obtain ⟨s, hs⟩ := ha
  obtain ⟨t, ht⟩ := hb
  obtain ⟨u, hu⟩ := h
  change (Flo.rnd (a.e / b.e)).e = _ at hu
  rw [hs, ht] at hu
  by_cases hy : y = 0
  · exfalso
    subst hy
    rw [Ext.num_div_zero] at hu
    split at hu <;> cases hu
  refine ⟨hy, ?_⟩
  rw [Ext.num_div_num _ _ _ _ hy] at hu
  rcases Flo.rnd_cases (x / y) ((Ext.num x s).sgn ^^ (Ext.num y t).sgn) with ⟨v, h⟩ | ⟨v, h⟩
  · rw [h] at hu; cases hu
  · rw [h] at hu
    injection hu with h1 _
    exact h1.symm

/-- The distance at which nothing has been hit yet. -/
theorem flo_far : ∃ x : ℝ, (lit (9 * 10 ^ 99) : Flo).Is x ∧ 2 ^ 200 ≤ x ∧ x ≤ 2 ^ 200 * 2 ^ 140 := by
  have e : |((9 * 10 ^ 99 : ℚ) : ℝ)| = 9 * 10 ^ 99 := by push_cast; exact abs_of_pos (by norm_num)
  have h : (lit (9 * 10 ^ 99) : Flo).Is (roundBits 53 ((9 * 10 ^ 99 : ℚ) : ℝ)) := by
    change (rnd (lit _)).Is _
    rw [Ext.lit_ext]
    refine rnd_ample _ ?_
    rw [e]; unfold ample; norm_num
  have h1 := roundBits_err 53 (by norm_num) ((9 * 10 ^ 99 : ℚ) : ℝ)
  rw [e] at h1
  push_cast at h1 h
  rw [abs_le] at h1
  refine ⟨_, h, ?_, ?_⟩ <;> norm_num at h1 ⊢ <;> linarith

/-- What is ahead and nearer than the far distance is at a finite distance. -/
theorem ahead_finite {t : Flo} (h0 : (t >. lit 0) = true) (h1 : (t <. lit (9 * 10 ^ 99)) = true) :
    ∃ T, t.Is T ∧ 0 < T ∧ T ≤ 2 ^ 200 * 2 ^ 140 := by
  obtain ⟨x, hx, -, hx2⟩ := flo_far
  have z : (lit 0 : Flo).Is 0 := by
    have := lit_is 0 0 0 (by simp) (by norm_num) (by norm_num) (by simp)
    simpa using this
  obtain ⟨a, b, ha, hb, hab⟩ := (CmpModel.lt_iff _ _).1 h0
  obtain ⟨c, d, hc, hd, hcd⟩ := (CmpModel.lt_iff _ _).1 h1
  rw [z.key, Option.some.injEq] at ha
  rw [hx.key, Option.some.injEq] at hd
  rw [hb, Option.some.injEq] at hc
  subst ha hd hc
  induction b with
  | bot => exact absurd hab (by simp)
  | top => exact absurd hcd (by simp)
  | coe T =>
    refine ⟨T, flo_of_key hb, by exact_mod_cast hab, ?_⟩
    have : T < x := by exact_mod_cast hcd
    linarith

namespace FlatFace

variable {v0 v1 v2 : Vertex Flo} {O : Vec ℝ} {k a b : ℝ}

/-- The two products of which the distance is the quotient. -/
private theorem ups (h : FlatFace v0 v1 v2 O k a b) (w : Vec Flo) {y e H : ℝ} (hH : 0 < H) (h1 : 1 / 2 ^ 125 ≤ H) (h2 : H ≤ 2 ^ 100)
    (he : 0 ≤ e) (he' : e ≤ 1) (hx : ∃ x e b q, w.x.Rel x e b q) (hy : w.y.Rel y e 1 H) (hz : ∃ x e b q, w.z.Rel x e b q) :
    (((v1.pos.sub v0.pos).cross (v2.pos.sub v0.pos)).dot w).Rel (a * b * y) (e + 1 / 2 ^ 46) 1 (|a| * |b| * H) := by
  obtain ⟨_, _, _, _, hx⟩ := hx
  obtain ⟨_, _, _, _, hz⟩ := hz
  obtain ⟨nx, ny, nz⟩ := h.normal _ rfl
  have a0 : 0 < |a| := lt_of_lt_of_le one_pos h.a_ge
  have b0 : 0 < |b| := lt_of_lt_of_le one_pos h.b_ge
  have ab1 : 1 ≤ |a| * |b| := by nlinarith [h.a_ge, h.b_ge]
  have ab2 : |a| * |b| ≤ 2 ^ 22 := (mul_le_mul h.a_le h.b_le b0.le (by positivity)).trans (by norm_num)
  have f : Roomy (|a| * |b| * H) := by
    refine ⟨?_, ?_⟩
    · have : H ≤ |a| * |b| * H := le_mul_of_one_le_left hH.le ab1
      refine le_trans ?_ this
      refine le_trans ?_ h1
      norm_num
    · exact (mul_le_mul ab2 h2 hH.le (by positivity)).trans (by norm_num)
  exact dot_rel (e + 1 / 2 ^ 46) 1 (by positivity) hH f nx ny nz hx hy hz he he' (by norm_num) (by norm_num) le_rfl le_rfl

private theorem fin_of {s : Flo} {x : ℝ} (h : s.Is x) : ∃ x e b q, s.Rel x e b q := ⟨x, 0, |x|, 1, h.rel (by simp)⟩

private theorem fin_sub {s o : Flo} {S o' : ℝ} (hs : s.Is S) (ho : o.Is o') (hS : |S - o'| ≤ 2 ^ 11) : ∃ x e b q, (s - o).Rel x e b q :=
  ⟨_, _, _, 1, Is.sub_rel (b := 2 ^ 11) 1 (roomy_of le_rfl (by norm_num)) hs ho (by simpa using hS)⟩

/-- **The distance to the plane of the triangle**, as computed: correct but for `2^-44` of itself. -/
theorem plane_rel (h : FlatFace v0 v1 v2 O k a b) {r : Ray Flo} {S d : Vec ℝ} (hs : r.start.FIs S) (hd : r.dir.FIs d)
    (hSx : |S.x - O.x| ≤ 2 ^ 11) (hSy : |S.y - O.y| ≤ 2 ^ 11) (hSz : |S.z - O.z| ≤ 2 ^ 11)
    (hoff : 1 / 2 ^ 60 ≤ |S.y - O.y|) (dy : |d.y| ≤ 2) (dy0 : 1 / 2 ^ 120 ≤ |d.y|) :
    (Face.planeT v0 v1 v2 r).Rel ((O.y - S.y) / d.y) (1 / 2 ^ 44) 1 |(O.y - S.y) / d.y| := by
  have H0 : 0 < |S.y - O.y| := lt_of_lt_of_le (by positivity) hoff
  have G0 : 0 < |d.y| := lt_of_lt_of_le (by positivity) dy0
  have a0 : 0 < |a| := lt_of_lt_of_le one_pos h.a_ge
  have b0 : 0 < |b| := lt_of_lt_of_le one_pos h.b_ge
  have fH : Roomy |S.y - O.y| := ⟨le_trans (by norm_num) hoff, hSy.trans (by norm_num)⟩
  have num := h.ups (r.start.sub v0.pos) (e := 1 / 2 ^ 52) H0 (le_trans (by norm_num) hoff) (hSy.trans (by norm_num)) (by norm_num)
    (by norm_num) (fin_sub hs.1 h.p0.1 hSx) (Is.sub_rel (b := 1) (1 / 2 ^ 52) fH hs.2.1 h.p0.2.1 (by rw [one_mul]))
    (fin_sub hs.2.2 h.p0.2.2 hSz)
  have den := h.ups r.dir (e := 0) G0 (le_trans (by norm_num) dy0) (dy.trans (by norm_num)) le_rfl (by norm_num)
    (fin_of hd.1) (hd.2.1.rel (by rw [one_mul])) (fin_of hd.2.2)
  have ha : a ≠ 0 := abs_pos.1 a0
  have hb : b ≠ 0 := abs_pos.1 b0
  have hdy : d.y ≠ 0 := abs_pos.1 G0
  have es : |a| * |b| * |S.y - O.y| / (|a| * |b| * |d.y|) = |(O.y - S.y) / d.y| := by
    rw [abs_div, abs_sub_comm O.y]; field_simp
  have f : Roomy |(O.y - S.y) / d.y| := by
    rw [abs_div, abs_sub_comm]
    refine ⟨?_, ?_⟩
    · rw [le_div_iff₀ G0]
      refine le_trans ?_ hoff
      refine (mul_le_mul_of_nonneg_left dy (by positivity)).trans (by norm_num)
    · rw [div_le_iff₀ G0]
      refine hSy.trans ?_
      refine le_trans ?_ (mul_le_mul_of_nonneg_left dy0 (by positivity))
      norm_num
  refine ((num.neg.div 1 (1 / 2 ^ 44) 1 (by positivity) (by positivity) (by rwa [es]) den ?_).in_scale es).of_eq ?_
  · rw [one_mul, abs_mul, abs_mul]
  · field_simp; ring

/-- A ray that is nearly parallel to the triangle does not meet its plane soon. -/
theorem plane_far (h : FlatFace v0 v1 v2 O k a b) {r : Ray Flo} {S d : Vec ℝ} (hs : r.start.FIs S) (hd : r.dir.FIs d)
    (hSx : |S.x - O.x| ≤ 2 ^ 11) (hSy : |S.y - O.y| ≤ 2 ^ 11) (hSz : |S.z - O.z| ≤ 2 ^ 11)
    (hoff : 1 / 2 ^ 60 ≤ |S.y - O.y|) (dy0 : |d.y| ≤ 1 / 2 ^ 120) {T : ℝ} (hT : (Face.planeT v0 v1 v2 r).Is T) : 2 ^ 30 ≤ |T| := by
  have H0 : 0 < |S.y - O.y| := lt_of_lt_of_le (by positivity) hoff
  have a0 : 0 < |a| := lt_of_lt_of_le one_pos h.a_ge
  have b0 : 0 < |b| := lt_of_lt_of_le one_pos h.b_ge
  have ab1 : 1 ≤ |a| * |b| := by nlinarith [h.a_ge, h.b_ge]
  have ab2 : |a| * |b| ≤ 2 ^ 22 := (mul_le_mul h.a_le h.b_le b0.le (by positivity)).trans (by norm_num)
  have fH : Roomy |S.y - O.y| := ⟨le_trans (by norm_num) hoff, hSy.trans (by norm_num)⟩
  have num := h.ups (r.start.sub v0.pos) (e := 1 / 2 ^ 52) H0 (le_trans (by norm_num) hoff) (hSy.trans (by norm_num)) (by norm_num)
    (by norm_num) (fin_sub hs.1 h.p0.1 hSx) (Is.sub_rel (b := 1) (1 / 2 ^ 52) fH hs.2.1 h.p0.2.1 (by rw [one_mul]))
    (fin_sub hs.2.2 h.p0.2.2 hSz)
  have den := h.ups r.dir (e := 0) (H := 1 / 2 ^ 120) (by positivity) (by norm_num) (by norm_num) le_rfl (by norm_num)
    (fin_of hd.1) (hd.2.1.rel (by rwa [one_mul])) (fin_of hd.2.2)
  obtain ⟨⟨u, hu, hue⟩, -⟩ := num.neg
  obtain ⟨⟨v, hv, hve⟩, hvb⟩ := den
  obtain ⟨hv0, e⟩ := div_finite hu hv hT
  have hu1 : 1 / 2 ^ 62 ≤ |u| := by
    have h1 := abs_sub_abs_le_abs_sub (-(a * b * (S.y - O.y))) u
    rw [abs_sub_comm, abs_neg, abs_mul, abs_mul] at h1
    have h2 : |S.y - O.y| ≤ |a| * |b| * |S.y - O.y| := le_mul_of_one_le_left H0.le ab1
    generalize |a| * |b| * |S.y - O.y| = q at *
    norm_num at *
    linarith
  have hv1 : |v| ≤ 1 / 2 ^ 97 := by
    have h1 := abs_sub_abs_le_abs_sub v (a * b * d.y)
    have h2 : |a| * |b| * (1 / 2 ^ 120) ≤ 2 ^ 22 * (1 / 2 ^ 120) := mul_le_mul_of_nonneg_right ab2 (by positivity)
    norm_num at *
    linarith
  have hv2 : 0 < |v| := abs_pos.2 hv0
  have hq : 2 ^ 35 ≤ |u / v| := by
    rw [abs_div, le_div_iff₀ hv2]
    refine (mul_le_mul_of_nonneg_left hv1 (by positivity)).trans (le_trans ?_ hu1)
    norm_num
  have h1 := roundBits_err 53 (by norm_num) (u / v)
  rw [← e] at h1
  have h2 := abs_sub_abs_le_abs_sub (u / v) T
  rw [abs_sub_comm] at h2
  norm_num at *
  linarith

/-- A ray from `S` in the direction `d`, not too far from the corner `O` of a triangle but off its plane. -/
structure Sighted (r : Ray Flo) (S d O : Vec ℝ) : Prop where
  start : r.start.FIs S
  dir : r.dir.FIs d
  x_le : |S.x - O.x| ≤ 2 ^ 11
  y_le : |S.y - O.y| ≤ 2 ^ 11
  z_le : |S.z - O.z| ≤ 2 ^ 11
  off : 1 / 2 ^ 60 ≤ |S.y - O.y|
  long : 1 / 2 ≤ d.x ^ 2 + d.y ^ 2 + d.z ^ 2
  short : d.x ^ 2 + d.y ^ 2 + d.z ^ 2 ≤ 2

/-- What a triangle answers. -/
theorem hit_cases {M : Type} (v0 v1 v2 : Vertex Flo) (r : Ray Flo) :
    ((Face.hit v0 v1 v2 r : HitRecord Flo M) = HitRecord.miss) ∨
    ((Face.planeT v0 v1 v2 r >. lit 0) = true ∧ ((Face.bary v0 v1 v2 r (Face.planeT v0 v1 v2 r)).1 <. lit 0) = false ∧
      ((Face.bary v0 v1 v2 r (Face.planeT v0 v1 v2 r)).2.1 <. lit 0) = false ∧
      ((Face.bary v0 v1 v2 r (Face.planeT v0 v1 v2 r)).2.2 <. lit 0) = false ∧
      (Face.hit v0 v1 v2 r : HitRecord Flo M).t = Face.planeT v0 v1 v2 r) := by
  unfold Face.hit
  dsimp only
  generalize Face.planeT v0 v1 v2 r = t
  generalize Face.bary v0 v1 v2 r t = l
  by_cases h0 : (t >. lit 0) = true
  · rw [h0]
    by_cases h1 : (l.1 <. lit 0 || l.2.1 <. lit 0 || l.2.2 <. lit 0) = true
    · left; rw [if_pos h1]; rfl
    · right
      rw [if_neg h1]
      simp only [Bool.not_eq_true, Bool.or_eq_false_iff] at h1
      exact ⟨rfl, h1.1.1, h1.1.2, h1.2, rfl⟩
  · left
    rw [Bool.not_eq_true] at h0
    rw [h0]
    rfl

private theorem not_neg {l : Flo} {x e b Q : ℝ} (h : l.Rel x e b Q) (hl : (l <. lit 0) = false) : -(e * Q) ≤ x := by
  obtain ⟨⟨v, hv, hve⟩, -⟩ := h
  have z : (lit 0 : Flo).Is 0 := by
    have := lit_is 0 0 0 (by simp) (by norm_num) (by norm_num) (by simp)
    simpa using this
  rw [lt_is hv z, decide_eq_false_iff_not, not_lt] at hl
  rw [abs_le] at hve
  linarith

private theorem not_neg' {l : Flo} {x e b Q : ℝ} (h : l.Rel x e b Q) (hl : e * Q ≤ x) : (l <. lit 0) = false := by
  obtain ⟨⟨v, hv, hve⟩, -⟩ := h
  have z : (lit 0 : Flo).Is 0 := by
    have := lit_is 0 0 0 (by simp) (by norm_num) (by norm_num) (by simp)
    simpa using this
  rw [lt_is hv z, decide_eq_false_iff_not, not_lt]
  rw [abs_le] at hve
  linarith

/-- **What a triangle reports is there.** -/
theorem hit_sound {M : Type} (h : FlatFace v0 v1 v2 O k a b) {r : Ray Flo} {S d : Vec ℝ} (q : Sighted r S d O)
    (hpos : ((Face.hit v0 v1 v2 r : HitRecord Flo M).t >. lit 0) = true)
    (hnear : ((Face.hit v0 v1 v2 r : HitRecord Flo M).t <. lit (9 * 10 ^ 99)) = true) :
    ∃ T X Z, (Face.hit v0 v1 v2 r : HitRecord Flo M).t = Face.planeT v0 v1 v2 r ∧ (Face.planeT v0 v1 v2 r).Is T ∧ 0 < T ∧ T ≤ 2 ^ 16 ∧
      1 / 2 ^ 120 ≤ |d.y| ∧ |T - (O.y - S.y) / d.y| ≤ 1 / 2 ^ 44 * |(O.y - S.y) / d.y| ∧ X * b = S.x + T * d.x - O.x ∧
      Z * a = S.z + T * d.z - O.z ∧ -(1 / 2 ^ 28) ≤ X ∧ -(1 / 2 ^ 28) ≤ Z ∧ X + Z ≤ 1 + 1 / 2 ^ 28 := by
  obtain ⟨dx, dy, dz⟩ := small_comp q.short
  rcases hit_cases (M := M) v0 v1 v2 r with e | ⟨-, l1, l2, l3, e⟩
  · rw [e] at hpos
    have : ((lit 0 : Flo) <. lit 0) = true := hpos
    have z : (lit 0 : Flo).Is 0 := by
      have := lit_is 0 0 0 (by simp) (by norm_num) (by norm_num) (by simp)
      simpa using this
    rw [lt_is z z] at this
    simp at this
  rw [e] at hpos hnear
  obtain ⟨T, hT, hT0, hT1⟩ := ahead_finite hpos hnear
  have ha : a ≠ 0 := abs_pos.1 (lt_of_lt_of_le one_pos h.a_ge)
  have hb : b ≠ 0 := abs_pos.1 (lt_of_lt_of_le one_pos h.b_ge)
  obtain ⟨X, hX⟩ : ∃ X, X * b = S.x + T * d.x - O.x := ⟨_, div_mul_cancel₀ _ hb⟩
  obtain ⟨Z, hZ⟩ : ∃ Z, Z * a = S.z + T * d.z - O.z := ⟨_, div_mul_cancel₀ _ ha⟩
  obtain ⟨b1, b2, b3⟩ := h.bary_rel q.start q.dir q.x_le q.y_le q.z_le dx dy dz hT hT0.le hT1 hX hZ rfl
  have c1 := not_neg b1 l1
  have c2 := not_neg b2 l2
  have c3 := not_neg b3 l3
  have hσ : 1 + |X| + |Z| ≤ 4 := by
    have hX' : |X| ≤ 1 + 1 / 2 ^ 29 * (1 + |X| + |Z|) := by
      rw [abs_le]; constructor <;> norm_num at * <;> linarith [abs_nonneg X, abs_nonneg Z]
    have hZ' : |Z| ≤ 1 + 1 / 2 ^ 29 * (1 + |X| + |Z|) := by
      rw [abs_le]; constructor <;> norm_num at * <;> linarith [abs_nonneg X, abs_nonneg Z]
    norm_num at *
    linarith
  have x1 : |X| ≤ 3 := by linarith [abs_nonneg Z]
  have z1 : |Z| ≤ 3 := by linarith [abs_nonneg X]
  have far : ∀ {x c s δ o : ℝ}, x * c = s + T * δ - o → |x| ≤ 3 → |c| ≤ 2 ^ 11 → |s - o| ≤ 2 ^ 11 → T * |δ| ≤ 2 ^ 13 := by
    intro x c s δ o e hx hc hso
    have h1 : |x * c| ≤ 3 * 2 ^ 11 := by rw [abs_mul]; exact mul_le_mul hx hc (abs_nonneg _) (by norm_num)
    have h2 : T * |δ| = |x * c - (s - o)| := by
      rw [e, show s + T * δ - o - (s - o) = T * δ by ring, abs_mul, abs_of_pos hT0]
    rw [h2]
    refine (abs_sub _ _).trans ?_
    norm_num at *
    linarith
  have tx := far hX x1 h.b_le q.x_le
  have tz := far hZ z1 h.a_le q.z_le
  have quarter : ∀ {δ : ℝ}, T * |δ| ≤ 2 ^ 13 → 1 / 4 ≤ |δ| → T ≤ 2 ^ 15 := by
    intro δ h1 h2
    have := mul_le_mul_of_nonneg_left h2 hT0.le
    norm_num at *
    linarith
  have dy0 : 1 / 2 ^ 120 ≤ |d.y| := by
    by_contra hlt
    rw [not_le] at hlt
    have hf := h.plane_far q.start q.dir q.x_le q.y_le q.z_le q.off hlt.le hT
    rw [abs_of_pos hT0] at hf
    rcases big_comp q.long with c | c | c
    · have := quarter tx c
      norm_num at *
      linarith
    · norm_num at *
      linarith
    · have := quarter tz c
      norm_num at *
      linarith
  obtain ⟨⟨T', hT', hTe⟩, -⟩ := h.plane_rel q.start q.dir q.x_le q.y_le q.z_le q.off dy dy0
  obtain ⟨s, hs⟩ := hT
  obtain ⟨s', hs'⟩ := hT'
  rw [hs] at hs'
  injection hs' with hTT _
  subst hTT
  refine ⟨T, X, Z, e, ⟨s, hs⟩, hT0, ?_, dy0, hTe, hX, hZ, ?_, ?_, ?_⟩
  · rcases big_comp q.long with c | c | c
    · have := quarter tx c
      norm_num at *
      linarith
    · have h1 : |(O.y - S.y) / d.y| ≤ 2 ^ 13 := by
        rw [abs_div, abs_sub_comm, div_le_iff₀ (lt_of_lt_of_le (by norm_num) c)]
        have := q.y_le
        norm_num at *
        linarith
      have h2 := abs_sub_abs_le_abs_sub T ((O.y - S.y) / d.y)
      rw [abs_of_pos hT0] at h2
      norm_num at *
      linarith
    · have := quarter tz c
      norm_num at *
      linarith
  all_goals
    norm_num at *
    linarith

/-- **What is there is reported.** -/
theorem hit_complete {M : Type} (h : FlatFace v0 v1 v2 O k a b) {r : Ray Flo} {S d : Vec ℝ} (q : Sighted r S d O)
    (dy0 : 1 / 2 ^ 120 ≤ |d.y|) (hT : 0 < (O.y - S.y) / d.y) (hT1 : (O.y - S.y) / d.y ≤ 2 ^ 200)
    (hin : ∀ T X Z : ℝ, |T - (O.y - S.y) / d.y| ≤ 1 / 2 ^ 44 * |(O.y - S.y) / d.y| → X * b = S.x + T * d.x - O.x →
      Z * a = S.z + T * d.z - O.z → 1 / 2 ^ 28 ≤ X ∧ 1 / 2 ^ 28 ≤ Z ∧ X + Z ≤ 1 - 1 / 2 ^ 28) :
    ((Face.hit v0 v1 v2 r : HitRecord Flo M).t >. lit 0) = true := by
  obtain ⟨dx, dy, dz⟩ := small_comp q.short
  obtain ⟨⟨T, ht, hTe⟩, -⟩ := h.plane_rel q.start q.dir q.x_le q.y_le q.z_le q.off dy dy0
  have hT0 : 0 < T := by
    rw [abs_of_pos hT, abs_le] at hTe
    norm_num at *
    linarith
  have hT2 : T ≤ 2 ^ 200 * 2 ^ 140 := by
    rw [abs_of_pos hT, abs_le] at hTe
    norm_num at *
    linarith
  have ha : a ≠ 0 := abs_pos.1 (lt_of_lt_of_le one_pos h.a_ge)
  have hb : b ≠ 0 := abs_pos.1 (lt_of_lt_of_le one_pos h.b_ge)
  obtain ⟨X, hX⟩ : ∃ X, X * b = S.x + T * d.x - O.x := ⟨_, div_mul_cancel₀ _ hb⟩
  obtain ⟨Z, hZ⟩ : ∃ Z, Z * a = S.z + T * d.z - O.z := ⟨_, div_mul_cancel₀ _ ha⟩
  obtain ⟨i1, i2, i3⟩ := hin T X Z hTe hX hZ
  obtain ⟨b1, b2, b3⟩ := h.bary_rel q.start q.dir q.x_le q.y_le q.z_le dx dy dz ht hT0.le hT2 hX hZ rfl
  have hσ : 1 + |X| + |Z| ≤ 2 := by
    rw [abs_of_nonneg (le_trans (by norm_num) i1), abs_of_nonneg (le_trans (by norm_num) i2)]
    norm_num at *
    linarith
  have c1 := not_neg' b1 (by norm_num at *; linarith)
  have c2 := not_neg' b2 (by norm_num at *; linarith)
  have c3 := not_neg' b3 (by norm_num at *; linarith)
  have z : (lit 0 : Flo).Is 0 := by
    have := lit_is 0 0 0 (by simp) (by norm_num) (by norm_num) (by simp)
    simpa using this
  have hp : (Face.planeT v0 v1 v2 r >. lit 0) = true := by
    rw [show (Face.planeT v0 v1 v2 r >. lit 0) = (lit 0 <. Face.planeT v0 v1 v2 r) from rfl, lt_is z ht]
    exact decide_eq_true hT0
  unfold Face.hit
  dsimp only
  rw [hp, c1, c2, c3]
  exact hp

end FlatFace

end BR
