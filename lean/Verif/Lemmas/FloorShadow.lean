import Verif.Props.C87_SelfShadow
import Verif.Lemmas.FloorSeen

/-! Shadow rays that leave a floor, in double precision. -/

namespace BR
set_option linter.unusedSectionVars false

open Flo

variable {S : Type}

/-- The shadow loop does not notice an object that is not met before the lamp. -/
theorem occludeLoop_pass (before after : List (Obj Flo (Mat Flo))) (o : Obj Flo (Mat Flo)) (len : Flo) (r : Ray Flo)
    {f : HitRecord Flo (Mat Flo)} (hf : o.intersect r = .ok (f, r)) (hnot : (f.t >. lit 0 && f.t <. len) = false) (orig : Color Flo) :
    occludeLoop (before ++ o :: after) len orig r = occludeLoop (before ++ after) len orig r := by
  induction before generalizing orig with
  | nil =>
    rw [List.nil_append, List.nil_append, occludeLoop, hf, ok_bind]
    dsimp only
    rw [hnot]; rfl
  | cons b bs ih =>
    rw [List.cons_append, List.cons_append, occludeLoop, occludeLoop]
    cases e : b.intersect r with
    | error p => rfl
    | ok q =>
      obtain ⟨g, r1⟩ := q
      obtain rfl := b.intersect_keeps r g r1 e
      rw [ok_bind, ok_bind]
      dsimp only
      split
      · cases Mat.filter? g.mat with
        | none => rfl
        | some flt =>
          dsimp only
          cases flt g.loc orig with
          | error p => rfl
          | ok c => rw [ok_bind, ok_bind]; exact ih c
      · exact ih orig

/-- The loop over the lamps does not notice an object that is not met before any lamp that the surface faces. -/
theorem directLoop_pass (rng : Rng Flo S) (before after : List (Obj Flo (Mat Flo))) (o : Obj Flo (Mat Flo)) (p n : Vec Flo)
    (good : Vec Flo → Prop)
    (hpass : ∀ pos, good pos → ((pos.sub p).normalized.dot n <=. lit 0) = false →
      ∃ f, o.intersect ⟨p, (pos.sub p).normalized⟩ = .ok (f, ⟨p, (pos.sub p).normalized⟩) ∧
        (f.t >. lit 0 && f.t <. (pos.sub p).len) = false)
    (ls : List (Light Flo)) (hl : ∀ l ∈ ls, ∀ target ctx pos c ctx', l.sample rng target ctx = .ok ((pos, c), ctx') → good pos)
    (acc : Color Flo) (ctx : Ctx Flo S) :
    directLoop rng (fun r len orig => occludeLoop (before ++ o :: after) len orig r) p n ls acc ctx =
      directLoop rng (fun r len orig => occludeLoop (before ++ after) len orig r) p n ls acc ctx := by
  induction ls generalizing acc ctx with
  | nil => rfl
  | cons l ls ih =>
    have ih' := fun acc ctx => ih (fun l' h' => hl l' (List.mem_cons_of_mem _ h')) acc ctx
    rw [directLoop, directLoop]
    cases e : l.sample rng p ctx with
    | error q => rfl
    | ok q =>
      obtain ⟨⟨pos, c⟩, ctx1⟩ := q
      rw [ok_bind, ok_bind]
      dsimp only
      split
      · exact ih' _ _
      · split
        · exact ih' _ _
        · rename_i hcos
          obtain ⟨f, hf, hnot⟩ := hpass pos (hl l (List.mem_cons_self ..) _ _ _ _ _ e) (by simpa using hcos)
          rw [occludeLoop_pass _ _ _ _ _ hf hnot]
          cases occludeLoop (before ++ after) (pos.sub p).len c ⟨p, (pos.sub p).normalized⟩ with
          | error q => rfl
          | ok q => rw [ok_bind, ok_bind]; exact ih' _ _

namespace Flo

/-- The point from which shadow rays start: the point of the hit, moved by the small step up (`σ = 1`) or down (`σ = -1`). -/
theorem step_off {r : Ray Flo} {s d : Vec ℝ} (hs : r.start.FIs s) (hd : r.dir.FIs d) (hn : Within 1024 s)
    (hdb : |d.x| ≤ 2 ∧ |d.y| ≤ 2 ∧ |d.z| ≤ 2) {t : Flo} {T : ℝ} (ht : t.Is T) (hT : |T| ≤ 8192) {n : Vec Flo} {y σ : ℝ}
    (hnn : n.FIs ⟨0, y, 0⟩) (hy : |y - σ| ≤ 1 / 2 ^ 47) (hσ : |σ| = 1) :
    ∃ P : Vec ℝ, ((r.at t).madd tiny n).FIs P ∧ |P.x - (along s d T).x| ≤ 1 / 2 ^ 35 ∧
      |P.y - ((along s d T).y + σ / (1204 * 1024))| ≤ 1 / 2 ^ 35 ∧ |P.z - (along s d T).z| ≤ 1 / 2 ^ 35 := by
  have mv : ∀ {a δ b : Flo} {x u v : ℝ}, a.Is x → |x| ≤ 1024 → δ.Is u → |u| ≤ 2 → b.Is v → |v| ≤ 1.01 →
      ∃ w, (a + t * δ + tiny * b).Is w ∧ |w - (x + T * u + 1 / (1204 * 1024) * v)| ≤ 1 / 2 ^ 36 := by
    intro a δ b x u v ha hx hδ hu hb hv
    have h1 := (ht.near hT).mul (1 / 2 ^ 38) 16384 (hδ.near hu)
    have h2 := (ha.near hx).add (1 / 2 ^ 37) 17408 h1
    exact (h2.add (1 / 2 ^ 36) 17410 (Ball.tiny_near.mul (3 / 2 ^ 53) 1.01 (hb.near hv))).1
  have yb : |y| ≤ 1.01 := by
    have := abs_sub_abs_le_abs_sub y σ
    rw [hσ] at this
    norm_num at *; linarith
  obtain ⟨px, ix, ex⟩ := mv hs.1 hn.1 hd.1 hdb.1 hnn.1 (by norm_num)
  obtain ⟨py, iy, ey⟩ := mv hs.2.1 hn.2.1 hd.2.1 hdb.2.1 hnn.2.1 yb
  obtain ⟨pz, iz, ez⟩ := mv hs.2.2 hn.2.2 hd.2.2 hdb.2.2 hnn.2.2 (by norm_num)
  dsimp only at ex ey ez
  rw [mul_zero, add_zero] at ex ez
  refine ⟨⟨px, py, pz⟩, ⟨ix, iy, iz⟩, ex.trans (by norm_num), ?_, ez.trans (by norm_num)⟩
  change |py - (s.y + T * d.y + σ / (1204 * 1024))| ≤ _
  rw [abs_le] at *
  norm_num at *
  constructor <;> linarith

/-- The ray from there to a lamp on the side the surface faces, which is off the height of the floor. -/
theorem towards_lamp {p n pos : Vec Flo} {P L : Vec ℝ} {h y σ : ℝ} (hp : p.FIs P) (hpos : pos.FIs L) (hP : Within 1024 P) (hL : Within 1024 L)
    (hPy : |P.y - (h + σ / (1204 * 1024))| ≤ 1 / 2 ^ 31) (hoff : 1 / 1024 ≤ |L.y - h|)
    (hn : n.FIs ⟨0, y, 0⟩) (hy : |y - σ| ≤ 1 / 2 ^ 47) (hσ : |σ| = 1) (hcos : ((pos.sub p).normalized.dot n <=. lit 0) = false) :
    ∃ (l : Vec ℝ) (g : ℝ), LookingFrom ⟨p, (pos.sub p).normalized⟩ P l h ∧ 0 < (P.y - h) * l.y ∧ (pos.sub p).len.Is g ∧ g ≤ 2 ^ 100 := by
  have df : ∀ {a b : Flo} {x z : ℝ}, a.Is x → b.Is z → |x| ≤ 1024 → |z| ≤ 1024 → ∃ w, (a - b).Is w ∧ |w - (x - z)| ≤ 1 / 2 ^ 41 := by
    intro a b x z ha hb h1 h2
    exact ((ha.near h1).sub (1 / 2 ^ 41) 2048 (hb.near h2)).1
  obtain ⟨wx, ix, ex⟩ := df hpos.1 hp.1 hL.1 hP.1
  obtain ⟨wy, iy, ey⟩ := df hpos.2.1 hp.2.1 hL.2.1 hP.2.1
  obtain ⟨wz, iz, ez⟩ := df hpos.2.2 hp.2.2 hL.2.2 hP.2.2
  have big : ∀ {w a b : ℝ}, |w - (a - b)| ≤ 1 / 2 ^ 41 → |a| ≤ 1024 → |b| ≤ 1024 → w ^ 2 ≤ 2049 ^ 2 := by
    intro w a b h1 h2 h3
    rw [← sq_abs]
    refine pow_le_pow_left₀ (abs_nonneg _) ?_ 2
    rw [abs_le] at *
    norm_num at *
    constructor <;> linarith
  have bx := big ex hL.1 hP.1
  have bY := big ey hL.2.1 hP.2.1
  have bz := big ez hL.2.2 hP.2.2
  have σ1 : |σ / (1204 * 1024)| ≤ 1 / 2 ^ 20 := by rw [abs_div, hσ]; norm_num
  have wy1 : 1 / 2048 ≤ |wy| := by
    rw [abs_le] at ey hPy σ1
    rcases le_abs.1 hoff with h1 | h1
    · rw [abs_of_pos (by norm_num at *; linarith)]; norm_num at *; linarith
    · rw [abs_of_neg (by norm_num at *; linarith)]; norm_num at *; linarith
  have q0 : 1 / 2 ^ 22 ≤ wy ^ 2 := by
    rw [← sq_abs]
    exact le_trans (by norm_num) (pow_le_pow_left₀ (by norm_num) wy1 2)
  have x0 := sq_nonneg wx
  have z0 := sq_nonneg wz
  have hFI : (pos.sub p).FIs ⟨wx, wy, wz⟩ := ⟨ix, iy, iz⟩
  have hlo : 1 / 2 ^ 24 ≤ wx ^ 2 + wy ^ 2 + wz ^ 2 := by norm_num at *; linarith
  have hhi : wx ^ 2 + wy ^ 2 + wz ^ 2 ≤ 2 ^ 24 := by norm_num at *; linarith
  -- its length
  obtain ⟨u, hu, eu⟩ := len2_is hFI rfl hlo hhi
  dsimp only at eu
  have u0 : 0 ≤ u := by rw [abs_le] at eu; norm_num at *; linarith
  have u1 : u ≤ 2 ^ 26 := by rw [abs_le] at eu; norm_num at *; linarith
  have hlen := sqrt_is hu u0 (u1.trans (by norm_num))
  have hg : roundBits 53 (Real.sqrt u) ≤ 2 ^ 100 := by
    have h1 := round_rel (Real.sqrt u)
    rw [abs_of_nonneg (Real.sqrt_nonneg u), abs_le] at h1
    have h2 : Real.sqrt u ≤ 2 ^ 13 := by
      rw [Real.sqrt_le_left (by norm_num)]; exact u1.trans (by norm_num)
    norm_num at *; linarith
  -- its direction
  obtain ⟨l, hdir, lb, hA1, hA2⟩ := Ball.normalized_unit hFI hlo hhi
  have g2 : Real.sqrt (wx ^ 2 + wy ^ 2 + wz ^ 2) ^ 2 = wx ^ 2 + wy ^ 2 + wz ^ 2 := Real.sq_sqrt (by positivity)
  obtain ⟨l', κ, hdir', hκ, hunit, -, hpy, -⟩ := normalized_is hFI (g := Real.sqrt (wx ^ 2 + wy ^ 2 + wz ^ 2))
    (Real.le_sqrt_of_sq_le (le_trans (by norm_num) hlo))
    (by rw [Real.sqrt_le_left (by norm_num)]; exact hhi.trans (by norm_num)) g2
  have ll : l.y = l'.y := by
    obtain ⟨_, e1⟩ := hdir.2.1
    obtain ⟨_, e2⟩ := hdir'.2.1
    exact (Ext.num.inj (e1.symm.trans e2)).1
  rw [← ll] at hpy
  dsimp only at hpy
  have gle : Real.sqrt (wx ^ 2 + wy ^ 2 + wz ^ 2) ≤ 2 ^ 12 := by
    rw [Real.sqrt_le_left (by norm_num)]; exact hhi.trans (by norm_num)
  have κ1 : 1 / 2 ^ 13 ≤ κ := by
    by_contra hlt
    rw [not_le] at hlt
    have := mul_le_mul hlt.le gle (Real.sqrt_nonneg _) (by norm_num)
    rw [abs_le] at hunit
    norm_num at *; linarith
  have ly : 1 / 2 ^ 25 ≤ |l.y| := by
    have h1 : 1 / 2 ^ 24 ≤ |κ * wy| := by
      rw [abs_mul, abs_of_pos hκ]
      exact le_trans (by norm_num) (mul_le_mul κ1 wy1 (by norm_num) hκ.le)
    have h2 := abs_sub_abs_le_abs_sub (κ * wy) l.y
    rw [abs_sub_comm] at h2
    norm_num at *; linarith
  have yb : |y| ≤ 1.01 := by
    have := abs_sub_abs_le_abs_sub y σ
    rw [hσ] at this
    norm_num at *; linarith
  have hdot := Ball.dot_pos hdir hn lb ⟨by norm_num, yb, by norm_num⟩ hcos
  dsimp only at hdot
  rw [mul_zero, mul_zero, zero_add, add_zero] at hdot
  have e1 : l.y * y = l.y * σ + l.y * (y - σ) := by ring
  have e2 : |l.y * (y - σ)| ≤ 1 / 2 ^ 46 := by
    rw [abs_mul]
    exact (mul_le_mul lb.2.1 hy (abs_nonneg _) (by norm_num)).trans (by norm_num)
  have e3 : |l.y * σ| = |l.y| := by rw [abs_mul, hσ, mul_one]
  have pos1 : 1 / 2 ^ 25 ≤ l.y * σ := by
    rw [← e3] at ly
    rcases le_abs.1 ly with h1 | h1
    · exact h1
    · rw [abs_le] at e2
      norm_num at *; linarith
  have σσ : σ * σ = 1 := by rw [← abs_mul_abs_self, hσ, one_mul]
  refine ⟨l, _, ⟨hp, hdir, hP, ?_, ?_, hA2.trans_eq' (by unfold Ball.quadA; ring)⟩, ?_, hlen, hg⟩
  · have h1 : |σ / (1204 * 1024)| = 1 / (1204 * 1024) := by rw [abs_div, hσ]; norm_num
    have h2 := abs_sub_abs_le_abs_sub (σ / (1204 * 1024)) (P.y - h)
    rw [abs_sub_comm (σ / (1204 * 1024)) (P.y - h), show P.y - h - σ / (1204 * 1024) = P.y - (h + σ / (1204 * 1024)) by ring, h1] at h2
    norm_num at *; linarith
  · have : Ball.quadA l = l.x ^ 2 + l.y ^ 2 + l.z ^ 2 := by unfold Ball.quadA; ring
    rw [← this]
    norm_num at *; linarith
  · have e4 : (P.y - h) * l.y = 1 / (1204 * 1024) * (l.y * σ) + (P.y - (h + σ / (1204 * 1024))) * l.y := by ring
    have h1 : |P.y - (h + σ / (1204 * 1024))| * |l.y| ≤ 1 / 2 ^ 31 * |l.y| := mul_le_mul_of_nonneg_right hPy (abs_nonneg _)
    rw [← abs_mul] at h1
    have e5 : |l.y| = l.y * σ := by rw [← e3, abs_of_pos (by norm_num at *; linarith)]
    rw [e5, abs_le] at h1
    rw [e4]
    generalize (P.y - (h + σ / (1204 * 1024))) * l.y = q at *
    generalize l.y * σ = z at *
    norm_num at *; linarith

end Flo

end BR
