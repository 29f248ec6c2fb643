import Verif.Spec.Room
import Verif.Lemmas.Bounce
import Verif.Lemmas.Sturdy
import Verif.Props.C91_BoxHit

/-! In double precision: rays in a room of balls and boxes. -/

namespace BR.Bounce

/-- The direction is undefined. -/
def LostDir (v : Vec Flo) : Prop := Lost v.x ∧ Lost v.y ∧ Lost v.z

/-- A ray that objects in a room can be asked about. -/
def Fair (r : Ray Flo) : Prop := ∃ s, r.start.FIs s ∧ Within 62 s ∧
  (LostDir r.dir ∨ ∃ d, r.dir.FIs d ∧ 1 / 2 ≤ ip d d ∧ ip d d ≤ 2)

/-- Where a ray lands. -/
structure Landing (lamp : Vec ℝ → Prop) (s d : Vec ℝ) (t : Flo) (n' : Vec Flo) (T : ℝ) (n : Vec ℝ) : Prop where
  t : t.Is T
  pos : 0 < T
  le : T ≤ 2 ^ 14
  normal : n'.FIs n
  unit : |ip n n - 1| ≤ 1 / 2 ^ 41
  here : Within 60.01 (along s d T)
  off : ∀ L, lamp L → 1 / 1100 ≤ apart L (along s d T)

theorem lost_key {a : Flo} (h : Lost a) : CmpModel.key a = none := by
  change Ext.key a.e = none
  rw [h]; rfl

theorem gt_key_none {a b : Flo} (h : CmpModel.key a = none) : (a >. b) = false := by
  rw [Bool.eq_false_iff]
  intro h'
  obtain ⟨_, _, -, h1, -⟩ := (CmpModel.lt_iff _ _).1 h'
  rw [h] at h1; cases h1

theorem gt_key_none' {a b : Flo} (h : CmpModel.key b = none) : (a >. b) = false := by
  rw [Bool.eq_false_iff]
  intro h'
  obtain ⟨_, _, h1, -⟩ := (CmpModel.lt_iff _ _).1 h'
  rw [h] at h1; cases h1

theorem lost_of {a : Flo} (h : CmpModel.key a = none) : Lost a := by
  change Ext.key a.e = none at h
  unfold Lost
  rcases e : a.e with _ | s | ⟨x, s⟩
  · rfl
  · rw [e] at h; cases s <;> cases h
  · rw [e] at h; cases h

theorem div_lost {a b : Flo} (h : Lost b) : Lost (a / b) := by
  change (Flo.rnd (a.e / b.e)).e = _
  rw [h]; simp [Flo.rnd, Flo.roundTo]

theorem sub_lost {a b : Flo} (h : Lost b) : Lost (a - b) := by
  change (Flo.rnd (a.e - b.e)).e = _
  rw [h]; simp [Flo.rnd, Flo.roundTo]

theorem lost_sub {a b : Flo} (h : Lost a) : Lost (a - b) := by
  change (Flo.rnd (a.e - b.e)).e = _
  rw [h]; simp [Flo.rnd, Flo.roundTo]

theorem lost_neg {a : Flo} (h : Lost a) : Lost (-a) := by
  change -a.e = _
  rw [h]; rfl

theorem lost_sqrt {a : Flo} (h : Lost a) : Lost (GoFloat.sqrt a) := by
  change (Flo.rnd (GoFloat.sqrt a.e)).e = _
  rw [h]; rfl

/-- A box is not hit by an undefined ray. -/
theorem box_lost {b : BBox Flo} {m : Option (Mat Flo)} {r : Ray Flo} (h : LostDir r.dir) : b.hit m r = .ok HitRecord.miss := by
  have h1 : Lost (BBox.slab b.min.x b.max.x r.start.x r.dir.x).1 := by
    unfold BBox.slab fmin
    dsimp only
    split <;> exact mul_lost (div_lost h.1)
  have h2 : Lost (b.intersect r) := by
    unfold BBox.intersect BBox.tenTex BBox.max3
    dsimp only
    generalize (BBox.slab b.min.x b.max.x r.start.x r.dir.x).1 = a at *
    have g1 : ∀ c : Flo, (a <. c) = false := fun c => gt_key_none' (lost_key h1)
    have g2 : ∀ c : Flo, (c <. a) = false := fun c => gt_key_none (lost_key h1)
    simp only [g1, g2, Bool.false_eq_true, if_false]
    exact h1
  unfold BBox.hit
  dsimp only
  rw [gt_key_none (lost_key h2)]
  rfl

/-- A ball is not hit by an undefined ray. -/
theorem ball_lost {q : Quadric Flo (Mat Flo)} {r : Ray Flo} (h : LostDir r.dir) : q.hit r = HitRecord.miss := by
  have hA : Lost (q.coeffs r).1 := by
    unfold Quadric.coeffs
    dsimp only
    exact add_lost (mul_lost h.2.2)
  unfold Quadric.hit
  dsimp only
  split
  · rfl
  · have t1 : Lost ((-(q.coeffs r).2.1 - GoFloat.sqrt ((q.coeffs r).2.1 * (q.coeffs r).2.1 - lit 4 * (q.coeffs r).1 * (q.coeffs r).2.2)) /
        (lit 2 * (q.coeffs r).1)) := div_lost (mul_lost hA)
    have t2 : Lost ((-(q.coeffs r).2.1 + GoFloat.sqrt ((q.coeffs r).2.1 * (q.coeffs r).2.1 - lit 4 * (q.coeffs r).1 * (q.coeffs r).2.2)) /
        (lit 2 * (q.coeffs r).1)) := div_lost (mul_lost hA)
    generalize (-(q.coeffs r).2.1 - GoFloat.sqrt ((q.coeffs r).2.1 * (q.coeffs r).2.1 - lit 4 * (q.coeffs r).1 * (q.coeffs r).2.2)) /
        (lit 2 * (q.coeffs r).1) = a at *
    generalize (-(q.coeffs r).2.1 + GoFloat.sqrt ((q.coeffs r).2.1 * (q.coeffs r).2.1 - lit 4 * (q.coeffs r).1 * (q.coeffs r).2.2)) /
        (lit 2 * (q.coeffs r).1) = b at *
    have acc : ∀ {t : Flo}, Lost t → q.accept r t = false := by
      intro t ht
      unfold Quadric.accept
      rw [gt_key_none (lost_key ht)]; rfl
    rw [show (b <. a) = false from gt_key_none (lost_key t1)]
    simp only [Bool.false_eq_true, if_false]
    rw [acc t1, acc t2]
    simp

theorem miss_t {M : Type} : ((HitRecord.miss : HitRecord Flo M).t >. lit 0) = false := by
  have : ((lit 0 : Flo) <. lit 0) = false := by
    rw [Flo.lt_is Ball.flo_zero Ball.flo_zero]; simp
  exact this

/-- What an object in a room answers to a ray. -/
def Answer (lamp : Vec ℝ → Prop) (r : Ray Flo) (h : HitRecord Flo (Mat Flo)) : Prop :=
  ∃ m, h.mat = some m ∧ m.Total ∧ (m.Plain ∨ m.Tame ∧ ∃ s d T n, r.start.FIs s ∧ r.dir.FIs d ∧ Within 62 s ∧
    1 / 2 ≤ ip d d ∧ ip d d ≤ 2 ∧ Landing lamp s d h.t h.normal.normalized T n)

theorem apart_tri (p q c : Vec ℝ) : |apart p c - apart q c| ≤ apart p q := by
  have key : ∀ p q c : Vec ℝ, apart p c ≤ apart p q + apart q c := by
    intro p q c
    unfold apart
    refine Real.sqrt_le_iff.2 ⟨by positivity, ?_⟩
    have h1 := Real.sq_sqrt (show 0 ≤ (p.x - q.x) ^ 2 + (p.y - q.y) ^ 2 + (p.z - q.z) ^ 2 by positivity)
    have h2 := Real.sq_sqrt (show 0 ≤ (q.x - c.x) ^ 2 + (q.y - c.y) ^ 2 + (q.z - c.z) ^ 2 by positivity)
    have h3 : (p.x - q.x) * (q.x - c.x) + (p.y - q.y) * (q.y - c.y) + (p.z - q.z) * (q.z - c.z) ≤
        Real.sqrt ((p.x - q.x) ^ 2 + (p.y - q.y) ^ 2 + (p.z - q.z) ^ 2) *
          Real.sqrt ((q.x - c.x) ^ 2 + (q.y - c.y) ^ 2 + (q.z - c.z) ^ 2) := by
      rw [← Real.sqrt_mul (by positivity)]
      refine Real.le_sqrt_of_sq_le ?_
      have := Ball.dot_sq_le ⟨p.x - q.x, p.y - q.y, p.z - q.z⟩ ⟨q.x - c.x, q.y - c.y, q.z - c.z⟩
      dsimp only at this
      nlinarith [this]
    nlinarith
  have sym : apart p q = apart q p := by unfold apart; congr 1; ring
  rw [abs_le]
  constructor
  · have := key q p c; rw [sym]; linarith
  · have := key p q c; linarith

/-- The landing of a ray on a ball. -/
theorem ball_answer {lamp : Vec ℝ → Prop} {m : Mat Flo} {diam : Flo} {center : Vec Flo} {c : Vec ℝ} {R : ℝ} (hc : center.FIs c)
    (hd : diam.Is (2 * R)) (hR : 1 / 32 ≤ R) (hx : |c.x| + R ≤ 60) (hy : |c.y| + R ≤ 60) (hz : |c.z| + R ≤ 60) (ht : m.Total)
    (hm : m.Tame) (off : ∀ L, lamp L → 1 / 1024 ≤ |apart L c - R|) {r : Ray Flo} (hr : Fair r) :
    (Obj.sphereQ (some m) diam center).hit r = HitRecord.miss ∨ Answer lamp r ((Obj.sphereQ (some m) diam center).hit r) := by
  obtain ⟨s, hs, ws, hl | ⟨d, hd', h1, h2⟩⟩ := hr
  · exact .inl (ball_lost hl)
  have bc : |c.x| ≤ 60 ∧ |c.y| ≤ 60 ∧ |c.z| ≤ 60 := ⟨by linarith, by linarith, by linarith⟩
  have hR60 : R ≤ 60 := by linarith [abs_nonneg c.x]
  have far : ∀ {a b : ℝ}, |a| ≤ 62 → |b| ≤ 60 → |a - b| ≤ 128 := fun ha hb => (abs_sub _ _).trans (by linarith)
  have hz' : Ball.Sized diam center r s d c R := ⟨hs, hd', hc, hd, by linarith, by linarith, h1, h2, far ws.1 bc.1,
    far ws.2.1 bc.2.1, far ws.2.2 bc.2.2⟩
  rcases Ball.hit_sound (m := some m) hz' with e | ⟨t, T, hT, hT0, hT1, hex, e⟩
  · exact .inl e
  right
  have w64 : ∀ {x : ℝ}, |x| ≤ 62 → |x| ≤ 64 := fun h => h.trans (by norm_num)
  have w64' : ∀ {x : ℝ}, |x| ≤ 60 → |x| ≤ 64 := fun h => h.trans (by norm_num)
  obtain ⟨a, ν, n, κ, g, p, hlv, hn, ha, -⟩ := Ball.leaving hz' hR ⟨w64 ws.1, w64 ws.2.1, w64 ws.2.2⟩
    ⟨w64' bc.1, w64' bc.2.1, w64' bc.2.2⟩ hT hT0 hT1 hex rfl
  rw [e]
  refine ⟨m, rfl, ht, .inr ⟨hm, s, d, T, n, hs, hd', ws, h1, h2, hT, hT0, hT1.trans (by norm_num), hn, ?_, ?_, ?_⟩⟩
  · -- the normal is of unit length
    have hg := hlv.glo
    have hg0 : 0 < g := by linarith [hg.1]
    have hv : Within 1.001 ⟨κ * ν.x, κ * ν.y, κ * ν.z⟩ := by
      refine within_of_sq (by norm_num) ?_
      have : ip ⟨κ * ν.x, κ * ν.y, κ * ν.z⟩ ⟨κ * ν.x, κ * ν.y, κ * ν.z⟩ = (κ * g) ^ 2 := by
        rw [mul_pow, hlv.len]; unfold ip; ring
      rw [this]
      have := hlv.unit
      rw [abs_le] at this
      exact pow_le_pow_left₀ (mul_nonneg hlv.κpos.le hg0.le) (by norm_num at this ⊢; linarith [this.2]) 2
    have hvv : ip ⟨κ * ν.x, κ * ν.y, κ * ν.z⟩ ⟨κ * ν.x, κ * ν.y, κ * ν.z⟩ = (κ * g) ^ 2 := by
      rw [mul_pow, hlv.len]; unfold ip; ring
    have hρ : Within (1 / 2 ^ 50) (n.sub ⟨κ * ν.x, κ * ν.y, κ * ν.z⟩) := hlv.par
    generalize (⟨κ * ν.x, κ * ν.y, κ * ν.z⟩ : Vec ℝ) = v at *
    have e1 : ip n n - 1 = ((κ * g) ^ 2 - 1) + 2 * ip v (n.sub v) + ip (n.sub v) (n.sub v) := by
      rw [← hvv]; unfold ip Vec.sub; ring
    have c1 := ip_le hv hρ
    have c2 := ip_le hρ hρ
    have c3 : |(κ * g) ^ 2 - 1| ≤ 2.01 / 2 ^ 48 := by
      have hu := hlv.unit
      have hu' := hu
      rw [abs_le] at hu'
      have : (κ * g) ^ 2 - 1 = (κ * g - 1) * (κ * g + 1) := by ring
      have hk := mul_nonneg hlv.κpos.le hg0.le
      rw [this, abs_mul, abs_of_nonneg (by linarith : 0 ≤ κ * g + 1)]
      calc |κ * g - 1| * (κ * g + 1) ≤ 1 / 2 ^ 48 * 2.01 :=
            mul_le_mul hu (by norm_num at hu' ⊢; linarith [hu'.2]) (by linarith) (by positivity)
        _ = _ := by ring
    rw [e1]
    rw [abs_le] at c1 c2 c3 ⊢
    norm_num at c1 c2 c3 ⊢
    constructor <;> linarith [c1.1, c1.2, c2.1, c2.2, c3.1, c3.2]
  · -- the point is in reach
    have hon := hlv.on
    rw [ha] at hon
    dsimp only at hon
    rw [abs_le] at hon
    have hcomp : ∀ {x y z : ℝ}, x ^ 2 + y ^ 2 + z ^ 2 ≤ R ^ 2 + 1 / 2 ^ 28 → |x| ≤ R + 0.01 := by
      intro x y z h
      refine abs_le_of_sq_le_sq ?_ (by linarith)
      have : (R + 0.01) ^ 2 = R ^ 2 + 0.02 * R + 0.0001 := by ring
      rw [this]
      norm_num at h ⊢
      nlinarith [sq_nonneg y, sq_nonneg z]
    have tri : ∀ {p c : ℝ}, |p - c| ≤ R + 0.01 → |c| + R ≤ 60 → |p| ≤ 60.01 := by
      intro p c h h'
      have := abs_add_le (p - c) c
      rw [sub_add_cancel] at this
      norm_num at h ⊢
      linarith
    unfold along
    exact ⟨tri (hcomp (y := s.y + T * d.y - c.y) (z := s.z + T * d.z - c.z) (by linarith [hon.2])) hx, tri (hcomp (y := s.x + T * d.x - c.x) (z := s.z + T * d.z - c.z) (by linarith [hon.2])) hy,
      tri (hcomp (y := s.x + T * d.x - c.x) (z := s.y + T * d.y - c.y) (by linarith [hon.2])) hz⟩
  · -- lamps are off
    intro L hL
    have hL' := off L hL
    have htri := apart_tri L (along s d T) c
    have hon : |apart (along s d T) c - R| ≤ 1 / 2 ^ 22 := by
      have h0 : 0 ≤ apart (along s d T) c := Real.sqrt_nonneg _
      have hsq : apart (along s d T) c ^ 2 = (s.x + T * d.x - c.x) ^ 2 + (s.y + T * d.y - c.y) ^ 2 + (s.z + T * d.z - c.z) ^ 2 :=
        Real.sq_sqrt (by positivity)
      have hon := hlv.on
      rw [ha] at hon
      dsimp only at hon
      rw [← hsq] at hon
      generalize apart (along s d T) c = A at *
      have : A ^ 2 - R ^ 2 = (A - R) * (A + R) := by ring
      rw [this, abs_mul, abs_of_nonneg (by linarith : 0 ≤ A + R)] at hon
      have : |A - R| * (1 / 32) ≤ |A - R| * (A + R) := mul_le_mul_of_nonneg_left (by linarith) (abs_nonneg _)
      norm_num at this hon ⊢
      linarith
    rw [abs_le] at hon htri
    rcases abs_cases (apart L c - R) with ⟨e, -⟩ | ⟨e, -⟩ <;> rw [e] at hL' <;> norm_num at hL' hon ⊢ <;>
      linarith [hon.1, hon.2, htri.1, htri.2]

end BR.Bounce
