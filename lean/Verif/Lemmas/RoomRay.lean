import Verif.Lemmas.Room

/-! In double precision: the rays sent out from where a ray has landed. -/

namespace BR.Bounce

/-- A vector near one of unit length is nearly of unit length. -/
theorem unit_near {v w : Vec ℝ} {e f : ℝ} (hv : |ip v v - 1| ≤ e) (he : e ≤ 1 / 2) (hw : Within f (w.sub v)) (hf : f ≤ 1 / 4) :
    |ip w w - 1| ≤ e + 9 * f := by
  have hf0 : 0 ≤ f := (abs_nonneg _).trans hw.1
  have hv' := hv
  rw [abs_le] at hv'
  have wv : Within 1.3 v := within_of_sq (by norm_num) (by norm_num; linarith [hv'.2])
  have c1 := ip_le wv hw
  have c2 := ip_le hw hw
  have e1 : ip w w - 1 = (ip v v - 1) + 2 * ip v (w.sub v) + ip (w.sub v) (w.sub v) := by unfold ip Vec.sub; ring
  rw [e1]
  have c3 : 3 * (f * f) ≤ f := by nlinarith
  rw [abs_le] at *
  norm_num at c1 ⊢
  constructor <;> linarith [c1.1, c1.2, c2.1, c2.2]

/-- A normalised vector is nearly of unit length. -/
theorem normalized_ip {v : Vec Flo} {w : Vec ℝ} (h : v.FIs w) (hlo : 1 / 2 ^ 24 ≤ ip w w) (hhi : ip w w ≤ 2 ^ 24) :
    ∃ n, v.normalized.FIs n ∧ |ip n n - 1| ≤ 1 / 2 ^ 44 := by
  have eip : ip w w = w.x ^ 2 + w.y ^ 2 + w.z ^ 2 := by unfold ip; ring
  rw [eip] at hlo hhi
  have g2 : Real.sqrt (w.x ^ 2 + w.y ^ 2 + w.z ^ 2) ^ 2 = w.x ^ 2 + w.y ^ 2 + w.z ^ 2 := Real.sq_sqrt (by positivity)
  obtain ⟨n, κ, hdir, hκ, hunit, hp⟩ := normalized_is h (g := Real.sqrt (w.x ^ 2 + w.y ^ 2 + w.z ^ 2))
    (Real.le_sqrt_of_sq_le (le_trans (by norm_num) hlo))
    (by rw [Real.sqrt_le_left (by norm_num)]; exact hhi.trans (by norm_num)) g2
  have hG0 : 0 ≤ Real.sqrt (w.x ^ 2 + w.y ^ 2 + w.z ^ 2) := Real.sqrt_nonneg _
  refine ⟨n, hdir, ?_⟩
  generalize Real.sqrt (w.x ^ 2 + w.y ^ 2 + w.z ^ 2) = g at *
  have c3 : |ip ⟨κ * w.x, κ * w.y, κ * w.z⟩ ⟨κ * w.x, κ * w.y, κ * w.z⟩ - 1| ≤ 2.01 / 2 ^ 48 := by
    have : ip ⟨κ * w.x, κ * w.y, κ * w.z⟩ ⟨κ * w.x, κ * w.y, κ * w.z⟩ - 1 = (κ * g - 1) * (κ * g + 1) := by
      have : (κ * g - 1) * (κ * g + 1) = κ ^ 2 * g ^ 2 - 1 := by ring
      rw [this, g2]; unfold ip; ring
    have hu' := hunit
    rw [abs_le] at hu'
    have hk := mul_nonneg hκ.le hG0
    rw [this, abs_mul, abs_of_nonneg (by linarith : 0 ≤ κ * g + 1)]
    calc |κ * g - 1| * (κ * g + 1) ≤ 1 / 2 ^ 48 * 2.01 :=
          mul_le_mul hunit (by norm_num at hu' ⊢; linarith [hu'.2]) (by linarith) (by positivity)
      _ = _ := by ring
  exact (unit_near c3 (by norm_num) (f := 1 / 2 ^ 50) hp (by norm_num)).trans (by norm_num)

/-- The computed dot product of two vectors of moderate length. -/
theorem dot_is {a' b' : Vec Flo} {a b : Vec ℝ} (ha : a'.FIs a) (hb : b'.FIs b) (wa : Within 1.3 a) (wb : Within 1.3 b) :
    (a'.dot b').Near (ip a b) (1 / 2 ^ 49) 5.1 := by
  have t1 := (ha.1.near wa.1).mul (1.7 / 2 ^ 53) 1.69 (hb.1.near wb.1)
  have t2 := (ha.2.1.near wa.2.1).mul (1.7 / 2 ^ 53) 1.69 (hb.2.1.near wb.2.1)
  have t3 := (ha.2.2.near wa.2.2).mul (1.7 / 2 ^ 53) 1.69 (hb.2.2.near wb.2.2)
  exact (t1.add (7 / 2 ^ 53) 3.38 t2).add (1 / 2 ^ 49) 5.1 t3

/-- The point of a ray at a parameter. -/
theorem at_is {r : Ray Flo} {s d : Vec ℝ} (hs : r.start.FIs s) (hd : r.dir.FIs d) (ws : Within 62 s) (wd : Within 1.5 d)
    {t : Flo} {T : ℝ} (ht : t.Is T) (bT : |T| ≤ 2 ^ 15) :
    ∃ p, (r.at t).FIs p ∧ Within (1 / 2 ^ 35) (p.sub (along s d T)) := by
  have key : ∀ {p q : Flo} {x y : ℝ}, p.Is x → q.Is y → |x| ≤ 62 → |y| ≤ 1.5 → ∃ w, (p + t * q).Is w ∧ |w - (x + T * y)| ≤ 1 / 2 ^ 35 := by
    intro p q x y hp hq hx hy
    have h1 := (ht.near bT).mul (1 / 2 ^ 37) (2 ^ 16) (hq.near hy)
    exact ((hp.near hx).add (1 / 2 ^ 35) (2 ^ 17) h1).1
  obtain ⟨x, hx, ex⟩ := key hs.1 hd.1 ws.1 wd.1
  obtain ⟨y, hy, ey⟩ := key hs.2.1 hd.2.1 ws.2.1 wd.2.1
  obtain ⟨z, hz, ez⟩ := key hs.2.2 hd.2.2 ws.2.2 wd.2.2
  exact ⟨⟨x, y, z⟩, ⟨hx, hy, hz⟩, ex, ey, ez⟩

/-- A small step. -/
theorem step_is {p' n' : Vec Flo} {p n : Vec ℝ} (hp : p'.FIs p) (hn : n'.FIs n) (wp : Within 62 p) (wn : Within 1.3 n) :
    ∃ q, (p'.madd tiny n').FIs q ∧ Within (1 / 2 ^ 19) (q.sub p) := by
  have key : ∀ {a b : Flo} {x y : ℝ}, a.Is x → b.Is y → |x| ≤ 62 → |y| ≤ 1.3 → ∃ w, (a + tiny * b).Is w ∧ |w - x| ≤ 1 / 2 ^ 19 := by
    intro a b x y ha hb hx hy
    have h1 := Ball.tiny_near.mul (4 / 2 ^ 53) 1.3 (hb.near hy)
    obtain ⟨w, hw, he⟩ := ((ha.near hx).add (1 / 2 ^ 45) 64 h1).1
    refine ⟨w, hw, ?_⟩
    rw [abs_le] at he hy ⊢
    norm_num at he hy ⊢
    constructor <;> linarith [he.1, he.2, hy.1, hy.2]
  obtain ⟨x, hx, ex⟩ := key hp.1 hn.1 wp.1 wn.1
  obtain ⟨y, hy, ey⟩ := key hp.2.1 hn.2.1 wp.2.1 wn.2.1
  obtain ⟨z, hz, ez⟩ := key hp.2.2 hn.2.2 wp.2.2 wn.2.2
  exact ⟨⟨x, y, z⟩, ⟨hx, hy, hz⟩, ex, ey, ez⟩

/-- A vector turned around. -/
theorem turned_is {n' : Vec Flo} {n : Vec ℝ} (hn : n'.FIs n) {e : ℝ} (hu : |ip n n - 1| ≤ e) (he : e ≤ 1 / 4) :
    ∃ m, (n'.mul (lit (-1))).FIs m ∧ |ip m m - 1| ≤ e + 1 / 2 ^ 48 := by
  have wn : Within 1.3 n := by
    rw [abs_le] at hu
    exact within_of_sq (by norm_num) (by norm_num; linarith [hu.2])
  have im := flo_int_is (-1) (by norm_num)
  norm_num at im
  have key : ∀ {b : Flo} {y : ℝ}, b.Is y → |y| ≤ 1.3 → ∃ w, (lit (-1) * b).Is w ∧ |w - -y| ≤ 1 / 2 ^ 52 := by
    intro b y hb hy
    obtain ⟨w, hw, he⟩ := ((im.near (b := 1) (by norm_num)).mul (1 / 2 ^ 52) 1.3 (hb.near hy)).1
    exact ⟨w, hw, by rwa [neg_one_mul] at he⟩
  obtain ⟨x, hx, ex⟩ := key hn.1 wn.1
  obtain ⟨y, hy, ey⟩ := key hn.2.1 wn.2.1
  obtain ⟨z, hz, ez⟩ := key hn.2.2 wn.2.2
  refine ⟨⟨x, y, z⟩, ⟨hx, hy, hz⟩, ?_⟩
  have h1 : |ip ⟨-n.x, -n.y, -n.z⟩ ⟨-n.x, -n.y, -n.z⟩ - 1| ≤ e := by
    have : ip ⟨-n.x, -n.y, -n.z⟩ ⟨-n.x, -n.y, -n.z⟩ = ip n n := by unfold ip; ring
    rwa [this]
  refine (unit_near h1 (by linarith) (f := 1 / 2 ^ 52) (w := ⟨x, y, z⟩) ⟨ex, ey, ez⟩ (by norm_num)).trans ?_
  norm_num

theorem within_unit {d : Vec ℝ} {e : ℝ} (h : |ip d d - 1| ≤ e) (he : e ≤ 1 / 4) : Within 1.3 d := by
  rw [abs_le] at h
  exact within_of_sq (by norm_num) (by norm_num; linarith [h.2])

theorem ip_sq_le (a b : Vec ℝ) : ip a b ^ 2 ≤ ip a a * ip b b := by
  have := Ball.dot_sq_le a b
  unfold ip
  nlinarith [this]

/-- The direction after reflection. -/
theorem reflect_is {v' n' : Vec Flo} {v n : Vec ℝ} (hv : v'.FIs v) (hn : n'.FIs n) {e : ℝ} (uv : |ip v v - 1| ≤ e) (he : e ≤ 1 / 4)
    (un : |ip n n - 1| ≤ 1 / 2 ^ 40) : ∃ w, (reflect v' n').FIs w ∧ |ip w w - 1| ≤ e + 1 / 2 ^ 36 := by
  have wv := within_unit uv he
  have wn := within_unit un (by norm_num)
  have hd := dot_is hv hn wv wn
  have im := flo_int_is (-2) (by norm_num)
  norm_num at im
  have hk := (im.near (b := 2) (by norm_num)).mul (1 / 2 ^ 47) 10.2 hd
  have hc : |ip v n| ≤ 1.3 := by
    refine abs_le_of_sq_le_sq ?_ (by norm_num)
    refine (ip_sq_le v n).trans ?_
    have h1 := (abs_le.1 uv).2
    have h2 := (abs_le.1 un).2
    have h3 := (abs_le.1 un).1
    norm_num at h2 h3 ⊢
    have : ip v v ≤ 5 / 4 := by linarith
    have h0 : 0 ≤ ip n n := by linarith
    calc ip v v * ip n n ≤ 5 / 4 * ip n n := mul_le_mul_of_nonneg_right this h0
      _ ≤ _ := by linarith
  have hk' : (lit (-2) * v'.dot n').Near (-2 * ip v n) (1 / 2 ^ 47) 2.6 := hk.bound (by
    rw [abs_mul]; norm_num at hc ⊢; linarith)
  have key : ∀ {p q : Flo} {x y : ℝ}, p.Is x → q.Is y → |x| ≤ 1.3 → |y| ≤ 1.3 →
      ∃ w, (p + (lit (-2) * v'.dot n') * q).Is w ∧ |w - (x + -2 * ip v n * y)| ≤ 1 / 2 ^ 45 := by
    intro p q x y hp hq hx hy
    have h1 := hk'.mul (1 / 2 ^ 46) 3.4 (hq.near hy)
    exact ((hp.near hx).add (1 / 2 ^ 45) 4.7 h1).1
  obtain ⟨x, hx, ex⟩ := key hv.1 hn.1 wv.1 wn.1
  obtain ⟨y, hy, ey⟩ := key hv.2.1 hn.2.1 wv.2.1 wn.2.1
  obtain ⟨z, hz, ez⟩ := key hv.2.2 hn.2.2 wv.2.2 wn.2.2
  refine ⟨⟨x, y, z⟩, ⟨hx, hy, hz⟩, ?_⟩
  set c := ip v n with hcdef
  have h1 : |ip ⟨v.x + -2 * c * n.x, v.y + -2 * c * n.y, v.z + -2 * c * n.z⟩
      ⟨v.x + -2 * c * n.x, v.y + -2 * c * n.y, v.z + -2 * c * n.z⟩ - 1| ≤ e + 7 / 2 ^ 40 := by
    have : ip ⟨v.x + -2 * c * n.x, v.y + -2 * c * n.y, v.z + -2 * c * n.z⟩
        ⟨v.x + -2 * c * n.x, v.y + -2 * c * n.y, v.z + -2 * c * n.z⟩ - 1 = (ip v v - 1) + 4 * c ^ 2 * (ip n n - 1) := by
      have e1 : ip ⟨v.x + -2 * c * n.x, v.y + -2 * c * n.y, v.z + -2 * c * n.z⟩
        ⟨v.x + -2 * c * n.x, v.y + -2 * c * n.y, v.z + -2 * c * n.z⟩ = ip v v - 4 * c * ip v n + 4 * c ^ 2 * ip n n := by
        unfold ip; ring
      rw [e1, ← hcdef]; ring
    rw [this]
    refine (abs_add_le _ _).trans (add_le_add uv ?_)
    rw [abs_mul, abs_of_nonneg (by positivity : 0 ≤ 4 * c ^ 2)]
    have h2 : 4 * c ^ 2 ≤ 7 := by
      have := sq_le_sq' (by linarith [(abs_le.1 hc).1]) (abs_le.1 hc).2
      norm_num at this; linarith
    calc 4 * c ^ 2 * |ip n n - 1| ≤ 7 * (1 / 2 ^ 40) := mul_le_mul h2 un (abs_nonneg _) (by norm_num)
      _ = _ := by ring
  refine (unit_near h1 (by norm_num; linarith) (f := 1 / 2 ^ 45) (w := ⟨x, y, z⟩) ⟨ex, ey, ez⟩ (by norm_num)).trans ?_
  norm_num
  linarith

/-- The direction after refraction. -/
theorem refract_is {i' n' : Vec Flo} {i n : Vec ℝ} (hi : i'.FIs i) (hn : n'.FIs n) (ui : |ip i i - 1| ≤ 1 / 2 ^ 43)
    (un : |ip n n - 1| ≤ 1 / 2 ^ 43) {n1 n2 : Flo} {x y : ℝ} (h1 : n1.Is x) (h2 : n2.Is y) (bx : 1 / 4 ≤ x ∧ x ≤ 4)
    (bY : 1 / 4 ≤ y ∧ y ≤ 4) {cosi sin2t : Flo} (ec : cosi = -i'.dot n')
    (es : sin2t = n1 / n2 * (n1 / n2) * (lit 1 - cosi * cosi)) (hs : (sin2t >. lit 1) = false) :
    ∃ w, (refractDir (n1 / n2) cosi sin2t i' n').FIs w ∧ |ip w w - 1| ≤ 1 / 2 ^ 30 := by
  have wi := within_unit ui (by norm_num)
  have wn := within_unit un (by norm_num)
  -- the quotient of the indices
  obtain ⟨⟨ν, hν, eν⟩, bν⟩ := (h1.near (b := 4) (by rw [abs_le]; constructor <;> linarith [bx.1, bx.2])).div (1 / 4) (1 / 2 ^ 48) 16
    (h2.near (b := 4) (by rw [abs_le]; constructor <;> linarith [bY.1, bY.2])) (by rw [abs_of_nonneg (by linarith [bY.1])]; exact bY.1)
  have cν : |ν| ≤ 16.01 := by
    have := abs_sub_abs_le_abs_sub ν (x / y)
    norm_num at eν bν ⊢; linarith
  generalize n1 / n2 = n12 at *
  -- the cosine
  obtain ⟨⟨c, hc, e1⟩, -⟩ := (dot_is hi hn wi wn).neg
  rw [← ec] at hc
  have b1 : |ip i n| ≤ 1.001 := by
    refine abs_le_of_sq_le_sq ?_ (by norm_num)
    refine (ip_sq_le i n).trans ?_
    rw [abs_le] at ui un
    norm_num at ui un ⊢
    calc ip i i * ip n n ≤ 1.0001 * 1.0001 := mul_le_mul (by norm_num; linarith) (by norm_num; linarith) (by linarith) (by norm_num)
      _ ≤ _ := by norm_num
  have bc : |c| ≤ 1.002 := by
    have := abs_sub_abs_le_abs_sub c (-ip i n)
    rw [abs_neg] at this
    exact (by linarith : |c| ≤ 1.001 + 1 / 2 ^ 49).trans (by norm_num)
  have i1 : (lit 1 : Flo).Is 1 := flo_lit_one
  -- the sine
  have s1 := (hν.near cν).mul (257 / 2 ^ 53) 257 (hν.near cν)
  have s2 := (hc.near bc).mul (1.1 / 2 ^ 53) 1.005 (hc.near bc)
  have s3 := (i1.near (b := 1) (by norm_num)).sub (4 / 2 ^ 53) 2.005 s2
  obtain ⟨⟨σ, hσ, eσ⟩, bσ⟩ := s1.mul (1 / 2 ^ 41) 516 s3
  rw [← es] at hσ
  have cσ : |σ| ≤ 517 := by
    have := abs_sub_abs_le_abs_sub σ (ν * ν * (1 - c * c))
    exact (by linarith : |σ| ≤ 516 + 1 / 2 ^ 41).trans (by norm_num)
  have hσ1 : σ ≤ 1 := by
    have h : (lit 1 <. sin2t) = false := hs
    rw [Flo.lt_is i1 hσ] at h
    simpa using h
  -- the cosine of the transmitted ray
  have s4 := Flo.sub_is i1 hσ (by rw [abs_le] at cσ ⊢; constructor <;> norm_num <;> linarith [cσ.1, cσ.2])
  have hρ0 : 0 ≤ roundBits 53 (1 - σ) := roundBits_nonneg 53 (by norm_num) (by linarith)
  have eρ : |roundBits 53 (1 - σ) - (1 - σ)| ≤ 520 / 2 ^ 53 := by
    refine (round_rel (1 - σ)).trans ?_
    have : |1 - σ| ≤ 518 := by rw [abs_le] at cσ ⊢; constructor <;> linarith [cσ.1, cσ.2]
    norm_num at this ⊢
    linarith
  generalize roundBits 53 (1 - σ) = ρ at *
  have hρ : ρ ≤ 519 := by rw [abs_le] at eρ cσ; norm_num at eρ; linarith [eρ.2, cσ.1]
  have s5 := Flo.sqrt_is s4 hρ0 (hρ.trans (by norm_num))
  have hr0 : 0 ≤ Real.sqrt ρ := Real.sqrt_nonneg _
  have hrr : Real.sqrt ρ * Real.sqrt ρ = ρ := Real.mul_self_sqrt hρ0
  have hr1 : Real.sqrt ρ ≤ 23 := by rw [Real.sqrt_le_left (by norm_num)]; exact hρ.trans (by norm_num)
  generalize Real.sqrt ρ = g at *
  have eq0 : |roundBits 53 g - g| ≤ 24 / 2 ^ 53 := by
    refine (round_rel g).trans ?_
    rw [abs_of_nonneg hr0]
    norm_num
    linarith
  unfold refractDir
  generalize GoFloat.sqrt (lit 1 - sin2t) = q' at *
  generalize roundBits 53 g = q at *
  have bq : |q| ≤ 24 := by
    have := abs_sub_abs_le_abs_sub q g
    rw [abs_of_nonneg hr0] at this
    norm_num at eq0 ⊢; linarith
  have eq1 : |q * q - ρ| ≤ 2000 / 2 ^ 53 := by
    have : q * q - ρ = (q - g) * (q + g) := by rw [← hrr]; ring
    rw [this, abs_mul]
    have h3 : |q + g| ≤ 47 := (abs_add_le _ _).trans (by rw [abs_of_nonneg hr0]; linarith)
    calc |q - g| * |q + g| ≤ 24 / 2 ^ 53 * 47 := mul_le_mul eq0 h3 (abs_nonneg _) (by norm_num)
      _ ≤ _ := by norm_num
  -- the combination
  have s6 := ((hν.near cν).mul (17 / 2 ^ 53) 16.1 (hc.near bc)).sub (1 / 2 ^ 47) 40.1 (s5.near bq)
  have key : ∀ {a b : Flo} {u v : ℝ}, a.Is u → b.Is v → |u| ≤ 1.3 → |v| ≤ 1.3 →
      ∃ w, (n12 * a + (n12 * cosi - q') * b).Is w ∧ |w - (ν * u + (ν * c - q) * v)| ≤ 1 / 2 ^ 44 := by
    intro a b u v ha hb hu hv
    have t1 := (hν.near cν).mul (22 / 2 ^ 53) 21 (ha.near hu)
    have t2 := s6.mul (1 / 2 ^ 45) 53 (hb.near hv)
    exact (t1.add (1 / 2 ^ 44) 75 t2).1
  obtain ⟨wx, hwx, ewx⟩ := key hi.1 hn.1 wi.1 wn.1
  obtain ⟨wy, hwy, ewy⟩ := key hi.2.1 hn.2.1 wi.2.1 wn.2.1
  obtain ⟨wz, hwz, ewz⟩ := key hi.2.2 hn.2.2 wi.2.2 wn.2.2
  refine ⟨⟨wx, wy, wz⟩, ⟨hwx, hwy, hwz⟩, ?_⟩
  have bK : |ν * c - q| ≤ 40.1 := s6.2
  have e0 : ip ⟨ν * i.x + (ν * c - q) * n.x, ν * i.y + (ν * c - q) * n.y, ν * i.z + (ν * c - q) * n.z⟩
      ⟨ν * i.x + (ν * c - q) * n.x, ν * i.y + (ν * c - q) * n.y, ν * i.z + (ν * c - q) * n.z⟩ - 1 =
      ν * ν * (ip i i - 1) + 2 * (ν * (ν * c - q)) * (c + ip i n) + (ν * c - q) * (ν * c - q) * (ip n n - 1) -
        (σ - ν * ν * (1 - c * c)) + (q * q - ρ) + (ρ - (1 - σ)) := by unfold ip; ring
  have prod : ∀ {a b A B : ℝ}, |a| ≤ A → |b| ≤ B → |a * b| ≤ A * B := by
    intro a b A B ha hb
    rw [abs_mul]
    exact mul_le_mul ha hb (abs_nonneg _) ((abs_nonneg _).trans ha)
  have f1 := prod (prod cν cν) ui
  have e1' : |c + ip i n| ≤ 1 / 2 ^ 49 := by rwa [sub_neg_eq_add] at e1
  have f2 := prod (prod cν bK) e1'
  have f3 := prod (prod bK bK) un
  have h1 : |ip ⟨ν * i.x + (ν * c - q) * n.x, ν * i.y + (ν * c - q) * n.y, ν * i.z + (ν * c - q) * n.z⟩
      ⟨ν * i.x + (ν * c - q) * n.x, ν * i.y + (ν * c - q) * n.y, ν * i.z + (ν * c - q) * n.z⟩ - 1| ≤ 1 / 2 ^ 31 := by
    rw [e0]
    rw [abs_le] at f1 f2 f3 eσ eρ eq1 ⊢
    norm_num at f1 f2 f3 eσ eρ eq1 ⊢
    constructor <;> linarith [f1.1, f1.2, f2.1, f2.2, f3.1, f3.2, eσ.1, eσ.2, eρ.1, eρ.2, eq1.1, eq1.2]
  refine (unit_near h1 (by norm_num) (f := 1 / 2 ^ 44) (w := ⟨wx, wy, wz⟩) ⟨ewx, ewy, ewz⟩ (by norm_num)).trans ?_
  norm_num

end BR.Bounce
