import Verif.Lemmas.Radiance
import Verif.Lemmas.ExtRange
import Verif.Lemmas.Sampler
import Verif.Model.Api
import Verif.Spec.Sampler

/-!
C63: a scene lit only by its own surfaces never renders brighter than its brightest surface.

Numbers are extended numbers, so that infinite distances and NaN (for example from a zero normal) are covered.
-/

namespace BR

open Ext

section

variable {L : ℝ}

private theorem all3 {P Q : Ext → Prop} {f : Ext → Ext} {a : Color Ext} (h : ∀ x, P x → Q (f x))
    (ha : a.All P) : Color.All Q ⟨f a.R, f a.G, f a.B⟩ := ⟨h _ ha.1, h _ ha.2.1, h _ ha.2.2⟩

private theorem all3₂ {P Q R : Ext → Prop} {f : Ext → Ext → Ext} {a b : Color Ext}
    (h : ∀ x y, P x → Q y → R (f x y)) (ha : a.All P) (hb : b.All Q) :
    Color.All R ⟨f a.R b.R, f a.G b.G, f a.B b.B⟩ := ⟨h _ _ ha.1 hb.1, h _ _ ha.2.1 hb.2.1, h _ _ ha.2.2 hb.2.2⟩

private theorem mul3_in {a k : Color Ext} (ha : a.All (InOrNaN L)) (hk : k.All (In 1)) :
    (a.mul3 k).All (InOrNaN L) :=
  all3₂ (f := fun x y => x * y) (fun x y hx hy => by simpa using hx.mul hy.orNaN) ha hk

private theorem blend_in {w : Ext} (hw : w.InOrNaN 1) {a b : Color Ext} (ha : a.All (InOrNaN L))
    (hb : b.All (InOrNaN L)) : ((a.mul w).madd (lit 1 - w) b).All (InOrNaN L) :=
  all3₂ (f := fun x y => w * x + (lit 1 - w) * y) (fun x y hx hy => hw.blend hx hy) ha hb

private theorem closed_of_passive (hL : 0 ≤ L) (m : Mat Ext) (hm : m.Passive L) :
    m.Closed (Color.All (InOrNaN L)) (Color.All (InOrNaN 0)) (Color.All (InOrNaN 0)) := by
  have zero_add {d c : Color Ext} (hd : d.All (InOrNaN 0)) (hc : c.All (InOrNaN L)) : (d.add c).All (InOrNaN L) :=
    all3₂ (f := fun x y => x + y) (fun x y hx hy => by simpa using hx.add hy) hd hc
  induction m with
  | black => rw [Mat.Closed]; trivial
  | flat tex => rw [Mat.Passive] at hm; rw [Mat.Closed]; exact fun p c e => all3 (f := id) (fun _ h => h.orNaN) (hm p c e)
  | matte tex =>
    rw [Mat.Passive] at hm; rw [Mat.Closed]
    exact fun p k e d c hd hc => mul3_in (zero_add hd hc) (hm p k e)
  | reflective k => rw [Mat.Passive] at hm; rw [Mat.Closed]; exact fun c hc => mul3_in hc hm
  | reflectFresnel n u ih =>
    rw [Mat.Passive] at hm; rw [Mat.Closed]
    exact ⟨ih hm.2, fun x a b ha hb => blend_in (fresnel_in hm.1 (abs_nonneg x)) ha hb⟩
  | refractive n1 n2 =>
    rw [Mat.Passive] at hm; rw [Mat.Closed]
    intro dir normal n i m1 m2 cosi sin2t hg _ a b ha hb
    exact all3₂ (f := fun x y => _ * x + (lit 1 - _) * y) (fun x y hx hy => (refract_in hm.1 hm.2 hg).blend hx hy) ha hb
  | transparent tex b =>
    rw [Mat.Passive] at hm; rw [Mat.Closed]
    intro p k e
    exact ⟨fun c hc => mul3_in hc (hm p k e), fun c hc => mul3_in hc (hm p k e)⟩
  | twoSided f b ihf ihb => rw [Mat.Passive] at hm; rw [Mat.Closed]; exact ⟨ihf hm.1, ihb hm.2⟩
  | blend a A b B iha ihb =>
    rw [Mat.Passive] at hm; rw [Mat.Closed]
    obtain ⟨⟨x, y, hx, hy, x0, y0, hxy⟩, hA, hB⟩ := hm
    refine ⟨iha hA, ihb hB, fun c d hc hd => all3₂ (f := fun u v => a * u + b * v) (fun u v hu hv => ?_) hc hd⟩
    have h1 : a.InOrNaN x := .inr ⟨x, hx, x0, le_rfl⟩
    have h2 : b.InOrNaN y := .inr ⟨y, hy, y0, le_rfl⟩
    exact ((h1.mul hu).add (h2.mul hv)).mono (by nlinarith)
  | blendMap tex A B iha ihb =>
    rw [Mat.Passive] at hm; rw [Mat.Closed]
    exact ⟨iha hm.2.1, ihb hm.2.2, fun p k e x y hx hy => blend_in (hm.1 p k e).1.orNaN hx hy⟩
  | func f => rw [Mat.Passive] at hm; rw [Mat.Closed]; exact hm

private theorem zero_mul_any {w x : Ext} (hx : x.InOrNaN 0) : (w * x).InOrNaN 0 := by
  rcases hx with rfl | ⟨v, ⟨s, rfl⟩, v0, v1⟩
  · exact .inl (mul_nan _)
  · have : v = 0 := le_antisymm v1 v0
    subst this
    cases w with
    | nan => exact .inl (nan_mul _)
    | inf t => rw [inf_mul_num, if_pos rfl]; exact .inl rfl
    | num u t => exact .inr ⟨u * 0, (is_num u t).mul (is_num 0 s), by simp, by simp⟩

private theorem medium_of_passive (m : Medium Ext) (hm : m.Passive L) :
    m.Closed (Color.All (InOrNaN L)) (Color.All (InOrNaN 0)) (Color.All (InOrNaN 0)) := by
  cases m with
  | expFog d amb h =>
    rw [Medium.Passive] at hm; rw [Medium.Closed]
    exact fun len hl c hc => blend_in (exp_in (nonneg_of_ge hl) hm.1) hc (all3 (f := id) (fun _ h => h.orNaN) hm.2)
  | fog d h n =>
    rw [Medium.Passive] at hm; rw [Medium.Closed]
    intro r tMax
    refine ⟨fun u d k hd hk => all3₂ (f := fun x y => x + _ * y) (fun x y hx hy => ?_) hd hk,
      fun c e hc he => all3₂ (f := fun x y => _ * x + y) (fun x y hx hy => ?_) hc he⟩
    · simpa using hx.add (zero_mul_any hy)
    · simpa using ((exp_in (fogInterval_nonneg h r tMax) hm).mul hx).add hy

private theorem scene_closed {S : Type} (rng : Rng Ext S) (s : Scene Ext) (hL : 0 ≤ L) (hl : s.lights = [])
    (hm : ∀ o ∈ s.objects, o.AllMat (Mat.Passive L)) (hmed : ∀ m ∈ s.media, m.Passive L) :
    s.Closed rng (Color.All (InOrNaN L)) (Color.All (InOrNaN 0)) (Color.All (InOrNaN 0)) (Color.All (InOrNaN 0)) := by
  have hb : ∀ {K : ℝ}, 0 ≤ K → (Color.black : Color Ext).All (InOrNaN K) := by
    intro K hK
    have : (BR.lit 0 : Ext).InOrNaN K := .inr ⟨0, by simpa using Is.lit 0, le_rfl, hK⟩
    exact ⟨this, this, this⟩
  refine ⟨hb hL, hb le_rfl, hb le_rfl, hb le_rfl, ?_, ?_, ?_, ?_, fun m h => medium_of_passive m (hmed m h)⟩
  · intro d k w hd hk _
    exact all3₂ (f := fun x y => x + w * y) (fun x y hx hy => by simpa using hx.add (zero_mul_any hy)) hd hk
  · rw [hl]; simp
  · exact fun o ho => Obj.AllMat.mono (closed_of_passive hL) o (hm o ho)
  · rw [hl]; simp

/-- The light field of a scene without separate light sources whose materials emit at most `L` and do not
amplify light: every channel of the colour of every ray is a number from 0 to `L`, or NaN. For every recursion
depth, every state of the random sequences and every ray, direct or indirect. -/
theorem C63_light_field {S : Type} (rng : Rng Ext S) (s : Scene Ext) (hL : 0 ≤ L) (hl : s.lights = [])
    (hm : ∀ o ∈ s.objects, o.AllMat (Mat.Passive L)) (hmed : ∀ m ∈ s.media, m.Passive L)
    (fuel : Nat) (f : Field) (r : Ray Ext) (ctx ctx' : Ctx Ext S) (c : Color Ext)
    (h : s.lightField rng fuel f r ctx = .ok (c, ctx')) : c.All (Ext.InOrNaN L) :=
  lightField_closed (scene_closed rng s hL hl hm hmed) fuel f r ctx c ctx' h

private theorem push_in {n : Nat} {cell : Cell Ext} (hn : cell.n = n) (hs : cell.sum.All (In (n * L)))
    (hL : 0 ≤ L) (c : Color Ext) (hc : c.All (InOrNaN L)) :
    (cell.push c).n = n + 1 ∧ (cell.push c).sum.All (In ((n + 1 : ℕ) * L)) := by
  refine ⟨by rw [Cell.push_n, hn], ?_⟩
  have e : ((n + 1 : ℕ) : ℝ) * L = n * L + L := by push_cast; ring
  unfold Cell.push
  split
  · exact all3 (f := id) (fun x ⟨v, h, v0, v1⟩ => ⟨v, h, v0, by rw [e]; linarith⟩) hs
  · rename_i hnan
    have hne : ∀ x : Ext, (x ==. x) = true → x ≠ .nan := by rintro x h rfl; simp at h
    simp only [Color.isNaN, Bool.or_eq_true, Bool.not_eq_true', not_or, Bool.not_eq_false] at hnan
    have hin : c.All (In L) := by
      obtain ⟨⟨h1, h2⟩, h3⟩ := hnan
      refine ⟨?_, ?_, ?_⟩
      · rcases hc.1 with h | h
        · exact absurd h (hne _ h1)
        · exact h
      · rcases hc.2.1 with h | h
        · exact absurd h (hne _ h2)
        · exact h
      · rcases hc.2.2 with h | h
        · exact absurd h (hne _ h3)
        · exact h
    refine all3₂ (f := fun x y => x + y) (fun x y hx hy => ?_) hs hin
    obtain ⟨v, hv, v0, v1⟩ := hx
    obtain ⟨w, hw, w0, w1⟩ := hy
    exact ⟨v + w, hv.add hw, add_nonneg v0 w0, by rw [e]; linarith⟩

private theorem samplePixel_in {C : Type} {sh : Shader Ext C}
    (hf : ∀ ctx u v c ctx', sh.f ctx u v = .ok (c, ctx') → c.All (InOrNaN L)) (hL : 0 ≤ L)
    (w h : Nat) (aa : Bool) (p : Nat × Nat) (k : Nat) :
    ∀ (n : Nat) (ctx : C) (cell : Cell Ext) (cell' : Cell Ext) (ctx' : C), cell.n = n → cell.sum.All (In (n * L)) →
      samplePixel sh w h aa p k ctx cell = .ok (cell', ctx') →
      cell'.n = n + k ∧ cell'.sum.All (In ((n + k : ℕ) * L)) := by
  induction k with
  | zero =>
    intro n ctx cell cell' ctx' hn hs e
    simp only [samplePixel, Except.ok.injEq, Prod.mk.injEq] at e
    rw [← e.1]; exact ⟨hn, hs⟩
  | succ k ih =>
    intro n ctx cell cell' ctx' hn hs e
    rw [samplePixel] at e
    obtain ⟨⟨c, c1⟩, e1, e⟩ := bind_eq_ok.1 e
    have hc : c.All (InOrNaN L) := by
      unfold passColor at e1
      obtain ⟨⟨xi, yi⟩, -, e1⟩ := bind_eq_ok.1 e1
      obtain ⟨c2, -, e1⟩ := bind_eq_ok.1 e1
      split at e1
      · obtain ⟨⟨uv, c3⟩, -, e1⟩ := bind_eq_ok.1 e1
        exact hf _ _ _ _ _ e1
      · exact hf _ _ _ _ _ e1
    obtain ⟨h1, h2⟩ := push_in hn hs hL c hc
    have := ih (n + 1) _ _ _ _ h1 h2 e
    rw [show n + (k + 1) = n + 1 + k by omega]
    exact this

/-- The image: after any positive number of passes every pixel of such a scene is a finite number from 0 to `L`
in every channel (samples with a NaN channel are dropped by the sampler). For every camera, image size and
pixel, with or without anti-aliasing. -/
theorem C63_pixel {S : Type} (rng : Rng Ext S) (s : Scene Ext) (hL : 0 ≤ L) (hl : s.lights = [])
    (hm : ∀ o ∈ s.objects, o.AllMat (Mat.Passive L)) (hmed : ∀ m ∈ s.media, m.Passive L)
    (cam : Cam Ext) (w h : Nat) (aa : Bool) (p : Nat × Nat) (passes : Nat) (hp : 1 ≤ passes)
    (ctx ctx' : Ctx Ext S) (cell : Cell Ext)
    (e : samplePixel (ctxShader (s.imageFunc rng cam)) w h aa p passes ctx Cell.zero = .ok (cell, ctx')) :
    cell.image.All (Ext.In L) := by
  have hzero : (BR.lit 0 : Ext).In (((0 : ℕ) : ℝ) * L) := ⟨0, by simpa using Is.lit 0, le_rfl, by simp⟩
  obtain ⟨hn, hs⟩ := samplePixel_in (sh := ctxShader (s.imageFunc rng cam)) (L := L) (by
    intro ctx u v c ctx' hf
    change s.imageFunc rng cam ctx u v = _ at hf
    unfold Scene.imageFunc at hf
    dsimp only at hf
    obtain ⟨⟨c1, c2⟩, e1, hf⟩ := bind_eq_ok.1 hf
    simp only [pure_ok, Except.ok.injEq, Prod.mk.injEq] at hf
    rw [← hf.1]
    exact C63_light_field rng s hL hl hm hmed _ _ _ _ _ _ e1) hL w h aa p passes 0 ctx Cell.zero cell ctx' rfl
    ⟨hzero, hzero, hzero⟩ e
  rw [Nat.zero_add] at hn hs
  have hpos : (0 : ℝ) < passes := by exact_mod_cast hp
  have hq : (lit 1 / ofInt cell.n : Ext).Is (1 / passes) := by
    rw [hn]
    have h1 : (BR.lit 1 : Ext).Is 1 := by simpa using Is.lit 1
    have h2 : (ofInt (passes : ℤ) : Ext).Is passes := ⟨false, by simp⟩
    exact h1.div h2 hpos.ne'
  refine all3 (f := fun x => lit 1 / ofInt cell.n * x) (fun x hx => ?_) hs
  obtain ⟨v, hv, v0, v1⟩ := hx
  refine ⟨1 / passes * v, hq.mul hv, by positivity, ?_⟩
  rw [one_div, inv_mul_le_iff₀ hpos]
  exact v1

end

/-! ## Non-vacuity -/

/-- A glass ball with index 3/2 over a half grey ground, under a sky of brightness 2, seen through thin fog:
the hypotheses hold for `L = 2`. -/
example (ball ground : Quadric Ext (Mat Ext)) (hb : ball.mat = some (.refractive (fin 1) (fin (3 / 2))))
    (hg : ground.mat = some (.blend (fin (1 / 4)) (.reflective ⟨fin 1, fin 1, fin 1⟩) (fin (3 / 4))
      (.matte (⟨fin (1 / 2), fin (1 / 2), fin (1 / 2)⟩ : Color Ext).tex))) :
    let sky : Obj Ext (Mat Ext) := .backdrop (some (.flat (⟨fin 2, fin 2, fin 2⟩ : Color Ext).tex))
    let s : Scene Ext := ⟨[], [sky, .quadric ball, .not (.quadric ground)],
      [.expFog (fin (1 / 10)) ⟨fin 1, fin 1, fin 1⟩ (fin 5)], 10⟩
    s.lights = [] ∧ (∀ o ∈ s.objects, o.AllMat (Mat.Passive 2)) ∧ ∀ m ∈ s.media, m.Passive 2 := by
  have hin : ∀ {v K : ℝ}, 0 ≤ v → v ≤ K → (fin v).In K := fun h0 h1 => ⟨_, ⟨_, rfl⟩, h0, h1⟩
  have hp : ∀ {v : ℝ}, 0 < v → (fin v).Positive := fun h0 => ⟨_, ⟨_, rfl⟩, h0⟩
  refine ⟨rfl, ?_, ?_⟩
  · intro o ho
    simp only [List.mem_cons, List.not_mem_nil, or_false] at ho
    rcases ho with rfl | rfl | rfl
    · rw [Obj.AllMat]
      rintro x ⟨⟩
      rw [Mat.Passive]
      rintro p c ⟨⟩
      exact ⟨hin (by norm_num) le_rfl, hin (by norm_num) le_rfl, hin (by norm_num) le_rfl⟩
    · rw [Obj.AllMat]
      intro x hx
      rw [hb] at hx
      cases hx
      rw [Mat.Passive]
      exact ⟨hp (by norm_num), hp (by norm_num)⟩
    · rw [Obj.AllMat, Obj.AllMat]
      intro x hx
      rw [hg] at hx
      cases hx
      rw [Mat.Passive, Mat.Passive, Mat.Passive]
      refine ⟨⟨1 / 4, 3 / 4, ⟨_, rfl⟩, ⟨_, rfl⟩, by norm_num, by norm_num, by norm_num⟩, ?_, ?_⟩
      · exact ⟨hin (by norm_num) le_rfl, hin (by norm_num) le_rfl, hin (by norm_num) le_rfl⟩
      · rintro p c ⟨⟩
        exact ⟨hin (by norm_num) (by norm_num), hin (by norm_num) (by norm_num), hin (by norm_num) (by norm_num)⟩
  · intro m hm
    simp only [List.mem_cons, List.not_mem_nil, or_false] at hm
    subst hm
    rw [Medium.Passive]
    exact ⟨⟨_, ⟨_, rfl⟩, by norm_num⟩, hin (by norm_num) (by norm_num), hin (by norm_num) (by norm_num), hin (by norm_num) (by norm_num)⟩

end BR
