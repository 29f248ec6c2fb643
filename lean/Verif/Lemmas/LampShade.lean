import Verif.Lemmas.LampBlock

/-! Matte surfaces among balls, boxes and floors, lit by lamps that are clearly seen or clearly hidden, in double precision. -/

namespace BR
set_option linter.unusedSectionVars false

open Flo

variable {S : Type} {p n : Vec Flo} {P m Q N : Vec ℝ}

section
variable {pos : Vec Flo} {L v : Vec ℝ} {g : ℝ} {o : Obj Flo (Mat Flo)} {os : List (Obj Flo (Mat Flo))}

theorem occlude_pass (h : Way p pos P Q L v g) {mt : Option (Mat Flo)} {b : Obstacle} (hb : b.Built mt o) (hc : b.Clears Q L) (c : Color Flo) :
    occludeLoop (o :: os) (pos.sub p).len c ⟨p, (pos.sub p).normalized⟩ = occludeLoop os (pos.sub p).len c ⟨p, (pos.sub p).normalized⟩ := by
  obtain ⟨f, hf, hn⟩ := h.passes hb hc
  rw [occludeLoop, hf, ok_bind]
  dsimp only
  rw [hn, if_neg (by simp)]

theorem occlude_tint (h : Way p pos P Q L v g) {col : Color Flo} {u : Bool} {b : Obstacle} (hb : b.Built (some (.transparent col.tex u)) o) (hc : b.Blocks Q L)
    (c : Color Flo) : occludeLoop (o :: os) (pos.sub p).len c ⟨p, (pos.sub p).normalized⟩ =
      occludeLoop os (pos.sub p).len (c.mul3 col) ⟨p, (pos.sub p).normalized⟩ := by
  obtain ⟨f, hf, hn, he⟩ := h.stops hb hc
  rw [occludeLoop, hf, ok_bind]
  dsimp only
  rw [hn, if_pos rfl, he]
  rfl

theorem occlude_stop (h : Way p pos P Q L v g) {mt : Option (Mat Flo)} {b : Obstacle} (hb : b.Built mt o) (hc : b.Blocks Q L) (hm : Mat.filter? mt = none)
    (c : Color Flo) : occludeLoop (o :: os) (pos.sub p).len c ⟨p, (pos.sub p).normalized⟩ = .ok (Color.black, ⟨p, (pos.sub p).normalized⟩) := by
  obtain ⟨f, hf, hn, he⟩ := h.stops hb hc
  rw [occludeLoop, hf, ok_bind]
  dsimp only
  rw [hn, if_pos rfl, he, hm]
  rfl

end

/-- The shadow test, where the light goes through transparent things. -/
theorem occlude_dims {pos : Vec Flo} {L v : Vec ℝ} {g : ℝ} (h : Way p pos P Q L v g) {objs : List (Obj Flo (Mat Flo))}
    {things : List (Option (Mat Flo) × Obstacle)} {tints : List (Color Flo)} (hF : List.Forall₂ (fun o t => t.2.Built t.1 o) objs things)
    (hd : Dims Q L things tints) (c : Color Flo) :
    occludeLoop objs (pos.sub p).len c ⟨p, (pos.sub p).normalized⟩ = .ok (tints.foldl Color.mul3 c, ⟨p, (pos.sub p).normalized⟩) := by
  induction hd generalizing objs c with
  | nil => cases hF; rfl
  | clear hc _ ih =>
    cases hF with
    | cons hb hF => rw [occlude_pass h hb hc, ih hF]
  | tint hc _ ih =>
    cases hF with
    | cons hb hF => rw [occlude_tint h hb hc, ih hF]; rfl

/-- The shadow test, where something opaque is in the way. -/
theorem occlude_dark {pos : Vec Flo} {L v : Vec ℝ} {g : ℝ} (h : Way p pos P Q L v g) {objs : List (Obj Flo (Mat Flo))}
    {things : List (Option (Mat Flo) × Obstacle)} (hF : List.Forall₂ (fun o t => t.2.Built t.1 o) objs things)
    (hd : Darkened Q L things) (c : Color Flo) :
    occludeLoop objs (pos.sub p).len c ⟨p, (pos.sub p).normalized⟩ = .ok (Color.black, ⟨p, (pos.sub p).normalized⟩) := by
  induction hF generalizing c with
  | nil =>
    obtain ⟨-, t, ht, -⟩ := hd
    simp at ht
  | @cons o t os ts hb _ ih =>
    obtain ⟨hall, t', ht', hb', hm'⟩ := hd
    have rest : t' ∈ ts → Darkened Q L ts := fun ht' => ⟨fun t ht => hall t (by simp [ht]), t', ht', hb', hm'⟩
    rcases List.mem_cons.1 ht' with rfl | ht'
    · exact occlude_stop h hb hb' hm' c
    · rcases hall t (by simp) with hc | ⟨hc, hm | ⟨col, u, hm⟩⟩
      · rw [occlude_pass h hb hc, ih (rest ht')]
      · exact occlude_stop h hb hc hm c
      · rw [hm] at hb
        rw [occlude_tint h hb hc, ih (rest ht')]

/-- A product of colours, one of the three. -/
theorem tints_value (k : Primary) {tints : List (Color Flo)} {κs : List (Primary → ℝ)}
    (hk : List.Forall₂ (fun t κ => ∀ k, (t.pick k).Is (κ k) ∧ 0 ≤ κ k ∧ κ k ≤ 1) tints κs)
    (n : ℕ) (hn : n + tints.length ≤ 2 ^ 20) {c : Color Flo} {x y : ℝ} (hx : (c.pick k).Is x)
    (yb : |y| ≤ 2 ^ 50) (hxy : |x - y| ≤ n * (2 / 2 ^ 53 * |y| + 2 / 2 ^ 200)) :
    ∃ z, ((tints.foldl Color.mul3 c).pick k).Is z ∧
      |z - (κs.map fun κ => κ k).prod * y| ≤ (n + tints.length : ℕ) * (2 / 2 ^ 53 * |(κs.map fun κ => κ k).prod * y| + 2 / 2 ^ 200) := by
  induction hk generalizing n c x y with
  | nil => exact ⟨x, hx, by simpa using hxy⟩
  | @cons t κ ts κs ht _ ih =>
    obtain ⟨ht, κ0, κ1⟩ := ht k
    rw [List.length_cons] at hn
    have hn' : (n : ℝ) ≤ 2 ^ 20 := by exact_mod_cast (by omega : n ≤ 2 ^ 20)
    have n0 : (0 : ℝ) ≤ n := Nat.cast_nonneg n
    have hy : |y * κ k| = |y| * κ k := by rw [abs_mul, abs_of_nonneg κ0]
    have hyb : |y * κ k| ≤ 2 ^ 50 := by rw [hy]; exact (mul_le_of_le_one_right (abs_nonneg _) κ1).trans yb
    have h2 : |x * κ k - y * κ k| ≤ n * (2 / 2 ^ 53 * |y * κ k| + 2 / 2 ^ 200) := by
      rw [← sub_mul, abs_mul, abs_of_nonneg κ0, hy]
      refine (mul_le_mul_of_nonneg_right hxy κ0).trans ?_
      rw [mul_assoc]
      refine mul_le_mul_of_nonneg_left ?_ n0
      have : 2 / 2 ^ 200 * κ k ≤ 2 / 2 ^ 200 := mul_le_of_le_one_right (by positivity) κ1
      rw [add_mul]
      linarith
    have hδ : n * (2 / 2 ^ 53 * |y * κ k| + 2 / 2 ^ 200) ≤ 2 ^ 20 * (2 / 2 ^ 53 * |y * κ k| + 2 / 2 ^ 200) :=
      mul_le_mul_of_nonneg_right hn' (by positivity)
    have hxb : |x * κ k| ≤ 3 / 2 * |y * κ k| + 1 / 2 ^ 170 := by
      have h1 := abs_add_le (x * κ k - y * κ k) (y * κ k)
      rw [sub_add_cancel] at h1
      have h0 := abs_nonneg (y * κ k)
      generalize |y * κ k| = Y at *
      norm_num at *
      linarith
    have hz : ((c.mul3 t).pick k).Is (roundBits 53 (x * κ k)) := by
      rw [pick_mul3]
      refine Flo.mul_is hx ht (hxb.trans ?_)
      norm_num at *
      linarith
    have step : |roundBits 53 (x * κ k) - y * κ k| ≤ (n + 1 : ℕ) * (2 / 2 ^ 53 * |y * κ k| + 2 / 2 ^ 200) := by
      have hr := round_rel (x * κ k)
      have h3 := abs_add_le (roundBits 53 (x * κ k) - x * κ k) (x * κ k - y * κ k)
      rw [sub_add_sub_cancel] at h3
      have h4 : |x * κ k| / 2 ^ 53 ≤ (3 / 2 * |y * κ k| + 1 / 2 ^ 170) / 2 ^ 53 := div_le_div_of_nonneg_right hxb (by positivity)
      have h0 := abs_nonneg (y * κ k)
      push_cast
      rw [add_mul, one_mul]
      generalize (n : ℝ) * (2 / 2 ^ 53 * |y * κ k| + 2 / 2 ^ 200) = A at *
      generalize |y * κ k| = Y at *
      norm_num at *
      linarith
    obtain ⟨z, hz', ez⟩ := ih (n + 1) (by omega) hz hyb step
    refine ⟨z, hz', ?_⟩
    rw [List.map_cons, List.prod_cons, List.length_cons, show n + (ts.length + 1) = n + 1 + ts.length by ring,
      show κ k * (κs.map fun κ => κ k).prod * y = (κs.map fun κ => κ k).prod * (y * κ k) by ring]
    exact ez

/-- A part is between nothing and all. -/
theorem Decided.part_mem {things : List (Option (Mat Flo) × Obstacle)} {l : Bulb} {part : Primary → ℝ} (hd : Decided things Q l part) (k : Primary) :
    0 ≤ part k ∧ part k ≤ 1 := by
  cases hd with
  | hidden _ => exact ⟨le_rfl, zero_le_one⟩
  | seen κs h1 h2 hk =>
    dsimp only
    clear h1 h2
    induction hk with
    | nil => simp
    | cons ht _ ih =>
      rw [List.map_cons, List.prod_cons]
      exact ⟨mul_nonneg (ht k).2.1 ih.1, mul_le_one₀ (ht k).2.2 ih.1 ih.2⟩

/-- The shadow test, where the lamp is clearly seen, clearly hidden, or clearly behind transparent things. -/
theorem occlude_decided {pos : Vec Flo} {v : Vec ℝ} {g : ℝ} {l : Bulb} (h : Way p pos P Q l.pos v g) {objs : List (Obj Flo (Mat Flo))}
    {things : List (Option (Mat Flo) × Obstacle)} (hF : List.Forall₂ (fun o t => t.2.Built t.1 o) objs things) {part : Primary → ℝ}
    (hd : Decided things Q l part) (c : Color Flo) :
    ∃ y r', occludeLoop objs (pos.sub p).len c ⟨p, (pos.sub p).normalized⟩ = .ok (y, r') ∧ ∀ k ι, (c.pick k).Is ι → |ι| ≤ 2 ^ 45 →
      ∃ ω, (y.pick k).Is ω ∧ |ω - part k * ι| ≤ 1 / 2 ^ 32 * |part k * ι| + 1 / 2 ^ 179 := by
  cases hd with
  | hidden hd =>
    refine ⟨_, _, occlude_dark h hF hd c, fun k ι _ _ => ⟨0, pick_black k, ?_⟩⟩
    rw [zero_mul, sub_zero, abs_zero, mul_zero, zero_add]
    positivity
  | @seen tints κs hd hn hk =>
    refine ⟨_, _, occlude_dims h hF hd c, fun k ι hι ιb => ?_⟩
    obtain ⟨z, hz, ez⟩ := tints_value k hk 0 (by rw [zero_add]; exact hn) hι (y := ι) (ιb.trans (by norm_num)) (by simp)
    refine ⟨z, hz, ez.trans ?_⟩
    rw [zero_add]
    have hn' : (tints.length : ℝ) ≤ 2 ^ 20 := by exact_mod_cast hn
    refine (mul_le_mul_of_nonneg_right hn' (by positivity)).trans (le_of_eq ?_)
    ring

/-- A lamp with nothing in the way. -/
theorem Decided.clear {things : List (Option (Mat Flo) × Obstacle)} {l : Bulb} (h : ∀ t ∈ things, t.2.Clears Q l.pos) :
    Decided things Q l (fun _ => 1) := by
  refine .seen [] (tints := []) ?_ (by simp) .nil
  induction things with
  | nil => exact .nil
  | cons t ts ih => exact .clear (h t (by simp)) (ih fun t' ht' => h t' (by simp [ht']))

/-- A lamp hidden by opaque things. -/
theorem Decided.shade {things : List (Option (Mat Flo) × Obstacle)} {l : Bulb}
    (h : ∀ t ∈ things, t.2.Clears Q l.pos ∨ t.2.Blocks Q l.pos ∧ Mat.filter? t.1 = none)
    (hex : ∃ t ∈ things, t.2.Blocks Q l.pos ∧ Mat.filter? t.1 = none) : Decided things Q l (fun _ => 0) :=
  .hidden ⟨fun t ht => (h t ht).imp id fun h => ⟨h.1, .inl h.2⟩, hex⟩

/-- The last sum and product of the matte material. -/
theorem lit_finish {a c q : Flo} {α χ ρ G B x : ℝ} (ha : a.Is α) (hc : c.Is χ) (hq : q.Is ρ) (x0 : 0 ≤ x) (x1 : x ≤ 2 ^ 20)
    (e : |α - G| ≤ (3 / 2 ^ 13 + x / 2 ^ 51) * B + x / 2 ^ 170) (h1 : 0 ≤ G) (h2 : G ≤ B) (h3 : B ≤ x * 2 ^ 43) (χ0 : 0 ≤ χ) (χ1 : χ ≤ 10 ^ 12)
    (ρ0 : 0 ≤ ρ) (ρ1 : ρ ≤ 1) :
    ∃ v, ((a + c) * q).Is v ∧ |v - ρ * (G + χ)| ≤ 1 / 2048 * B + 1 / 2 ^ 50 * χ + 1 / 2 ^ 100 := by
  have hB : 0 ≤ B := h1.trans h2
  have e1 : |α - G| ≤ 31 / 2 ^ 16 * B + 1 / 2 ^ 150 := by
    have p1 : x / 2 ^ 51 * B ≤ 1 / 2 ^ 31 * B := mul_le_mul_of_nonneg_right (by norm_num at *; linarith) hB
    have p2 : x / 2 ^ 170 ≤ 1 / 2 ^ 150 := by norm_num at *; linarith
    norm_num at *
    linarith
  have hbig : B ≤ 2 ^ 20 * 2 ^ 43 := h3.trans (mul_le_mul_of_nonneg_right x1 (by norm_num))
  clear e h3
  have hsum : |α + χ| ≤ 2 * B + χ + 1 / 2 ^ 150 := by
    rw [abs_le] at *
    norm_num at *
    constructor <;> linarith
  have hr := (round_rel (α + χ)).trans (add_le_add (div_le_div_of_nonneg_right hsum (by norm_num)) le_rfl)
  have hi := Flo.add_is ha hc (hsum.trans (by norm_num at *; linarith))
  generalize roundBits 53 (α + χ) = β at hr hi
  have e2 : |β - (G + χ)| ≤ 63 / 2 ^ 17 * B + 1 / 2 ^ 52 * χ + 1 / 2 ^ 140 := by
    rw [abs_le] at *
    norm_num at *
    constructor <;> linarith
  have e3 : |β * ρ - ρ * (G + χ)| ≤ 63 / 2 ^ 17 * B + 1 / 2 ^ 52 * χ + 1 / 2 ^ 140 := by
    rw [show β * ρ - ρ * (G + χ) = ρ * (β - (G + χ)) by ring, abs_mul, abs_of_nonneg ρ0]
    exact (mul_le_mul ρ1 e2 (abs_nonneg _) zero_le_one).trans (by rw [one_mul])
  have hρ : |ρ * (G + χ)| ≤ B + χ := by
    rw [abs_mul, abs_of_nonneg ρ0, abs_of_nonneg (by linarith)]
    exact (mul_le_mul ρ1 (show G + χ ≤ B + χ by linarith) (by linarith) zero_le_one).trans (by rw [one_mul])
  have hpr : |β * ρ| ≤ 2 * B + 2 * χ + 1 := by
    generalize ρ * (G + χ) = w at *
    rw [abs_le] at *
    norm_num at *
    constructor <;> linarith
  have hr2 := (round_rel (β * ρ)).trans (add_le_add (div_le_div_of_nonneg_right (show |β * ρ| ≤ 2 * B + 2 * χ + 1 / 2 ^ 140 by
    generalize ρ * (G + χ) = w at *
    rw [abs_le] at *
    norm_num at *
    constructor <;> linarith) (by norm_num)) le_rfl)
  refine ⟨_, Flo.mul_is hi hq (hpr.trans (by norm_num at *; linarith)), ?_⟩
  generalize roundBits 53 (β * ρ) = w1 at *
  generalize ρ * (G + χ) = w at *
  rw [abs_le] at *
  norm_num at *
  constructor <;> linarith

theorem generate2_depth {rng : Rng Flo S} {c c' : Ctx Flo S} {uv : Flo × Flo} (h : c.generate2 rng = .ok (uv, c')) : c'.depth = c.depth := by
  unfold Ctx.generate2 at h
  split_ifs at h
  · obtain ⟨x, -, h⟩ := bind_eq_ok.1 h
    cases h
    rfl
  · obtain ⟨x, -, h⟩ := bind_eq_ok.1 h
    cases h
    rfl
  · cases h
    rfl

/-- The colour of a matte surface. -/
theorem shade_lit (rng : Rng Flo S) (s : Scene Flo) (lf : LF Flo S) (tex : Tex Flo) (r : Ray Flo) (h : HitCoords Flo)
    (hp : Patch ((r.at h.t).madd tiny (flipTowards h.normal r.dir)) (flipTowards h.normal r.dir) P m Q N) (wP : Within 64 P)
    (lamps : List Fitting) (hlights : s.lights = lamps.map Fitting.light) (hfew : lamps.length ≤ 2 ^ 20)
    {things : List (Option (Mat Flo) × Obstacle)} (hF : List.Forall₂ (fun o t => t.2.Built t.1 o) s.objects things)
    (hl : ∀ x ∈ lamps, LampFor Q x.pos x.power x.bulb ∧ Decided things Q x.bulb x.part)
    {ctx ctx' : Ctx Flo S} {col : Color Flo} (he : shadeMatte rng s lf tex r h ctx = .ok (col, ctx')) :
    ∃ (ray : Ray Flo) (ctx1 ctx2 : Ctx Flo S) (c refl : Color Flo), lf .indirect ray ctx1 = .ok (c, ctx2) ∧
      ctx1.depth = ctx.depth ∧ tex h.loc = .ok refl ∧
      RightColor lamps Q N refl c col := by
  unfold shadeMatte at he
  dsimp only at he
  generalize flipTowards h.normal r.dir = n at *
  generalize (r.at h.t).madd tiny n = p at *
  obtain ⟨acc, e, ht⟩ := direct_lit hp rng s.occlude lamps (fun x hx => (hl x hx).1) (fun x hx => (hl x hx).2.part_mem) (by
    intro x hx c
    obtain ⟨v, g, hw⟩ := hp.way wP (hl x hx).1
    exact occlude_decided hw hF (hl x hx).2 c) 0 Color.black (fun _ => 0) (fun _ => 0) (fun k => Tally.zero (pick_black k))
    (by rw [zero_add]; exact hfew.trans (by norm_num)) ctx.takeRay.2
  rw [hlights, e, ok_bind] at he
  dsimp only at he
  rw [bind_eq_ok] at he
  obtain ⟨⟨uv, ctx1⟩, hgen, he⟩ := he
  dsimp only at he
  rw [bind_eq_ok] at he
  obtain ⟨⟨c, ctx2⟩, hlf, he⟩ := he
  dsimp only at he
  rw [bind_eq_ok] at he
  obtain ⟨refl, hrefl, he⟩ := he
  refine ⟨_, ctx1, ctx2, c, refl, hlf, (generate2_depth hgen).trans rfl, hrefl, ?_⟩
  intro k χ ρ hχ χ0 χ1 hρ ρ0 ρ1
  have hcol : col = (acc.add c).mul3 refl := by
    cases he
    rfl
  obtain ⟨α, hα, eα, s0, s1, s2⟩ := ht k
  rw [hcol, pick_mul3, pick_add]
  have hlen : ((0 + lamps.length : ℕ) : ℝ) ≤ 2 ^ 20 := by rw [zero_add]; exact_mod_cast hfew
  have hlen0 : (0 : ℝ) ≤ ((0 + lamps.length : ℕ) : ℝ) := Nat.cast_nonneg _
  rw [zero_add (List.sum _)] at s0 s1 eα
  rw [zero_add (List.sum _)] at s1 s2 eα
  exact lit_finish hα hχ hρ hlen0 hlen eα s0 s1 s2 χ0 χ1 ρ0 ρ1

end BR
