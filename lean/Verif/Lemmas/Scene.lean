import Verif.Lemmas.GoM
import Verif.Lemmas.Object
import Verif.Model.Scene

/-! The context during light field evaluation: recursion depth, sequences and ray pool. -/

namespace BR
set_option linter.unusedSectionVars false

variable {F S : Type} [Add F] [Sub F] [Mul F] [Div F] [Neg F] [GoFloat F]

theorem bind_congr_ok {α β : Type} {x x' : GoM α} {f f' : α → GoM β} (hx : x = x')
    (hf : ∀ a, x = .ok a → f a = f' a) : (x >>= f) = (x' >>= f') := by
  subst hx
  cases x with
  | error e => rfl
  | ok a => exact hf a rfl

/-- Rays handed out and not yet returned. -/
def Ctx.outstanding (c : Ctx F S) : Int := (c.rays.next : Int) - c.rays.free.length

/-- `c'` has the depth and the deterministic sequences of `c`, and `k` more rays outstanding. -/
structure Ctx.Step (k : Int) (c c' : Ctx F S) : Prop where
  depth : c'.depth = c.depth
  seq1 : c'.seq1 = c.seq1
  seq2 : c'.seq2 = c.seq2
  seqL : c'.seqL = c.seqL
  aa : c'.aa = c.aa
  out : c'.outstanding = c.outstanding + k

namespace Ctx.Step

theorem refl (c : Ctx F S) : Step 0 c c := ⟨rfl, rfl, rfl, rfl, rfl, by simp⟩

theorem trans {j k : Int} {a b c : Ctx F S} (h : Step j a b) (g : Step k b c) : Step (j + k) a c :=
  ⟨g.depth.trans h.depth, g.seq1.trans h.seq1, g.seq2.trans h.seq2, g.seqL.trans h.seqL,
    g.aa.trans h.aa, by rw [g.out, h.out, Int.add_assoc]⟩

theorem take (c : Ctx F S) : Step 1 c c.takeRay.2 := by
  refine ⟨rfl, rfl, rfl, rfl, rfl, ?_⟩
  unfold takeRay outstanding Pool.get
  cases h : c.rays.free with
  | nil => simp
  | cons a l => simp; omega

theorem put (c : Ctx F S) (a : Nat) : Step (-1) c (c.putRay a) := by
  refine ⟨rfl, rfl, rfl, rfl, rfl, ?_⟩
  unfold putRay outstanding Pool.put
  simp; omega

theorem gen2 {rng : Rng F S} {c c' : Ctx F S} {uv : F × F} (e : c.generate2 rng = .ok (uv, c')) :
    Step 0 c c' := by
  unfold Ctx.generate2 at e
  split at e
  · simp at e
  · split at e
    · obtain ⟨u, -, e⟩ := bind_eq_ok.1 e
      rw [pure_ok] at e
      simp only [Except.ok.injEq, Prod.mk.injEq] at e
      rw [← e.2]; exact refl c
    · split at e
      · obtain ⟨u, -, e⟩ := bind_eq_ok.1 e
        rw [pure_ok] at e
        simp only [Except.ok.injEq, Prod.mk.injEq] at e
        rw [← e.2]; exact refl c
      · simp only [Except.ok.injEq, Prod.mk.injEq] at e
        rw [← e.2]
        exact ⟨rfl, rfl, rfl, rfl, rfl, by simp [outstanding]⟩

end Ctx.Step

open Ctx (Step)

/-- A context computation started at depth `d` leaves the context as it was. -/
def KeepsAt (d : Int) {α : Type} (m : CtxM F S α) : Prop :=
  ∀ c a c', c.depth = d → m c = .ok (a, c') → Step 0 c c'

theorem Light.sample_step (rng : Rng F S) (l : Light F) (p : Vec F) (c : Ctx F S)
    (a : Vec F × Color F) (c' : Ctx F S) (e : l.sample rng p c = .ok (a, c')) : Step 0 c c' := by
  induction l generalizing p a c' with
  | point => simp only [sample, Except.ok.injEq, Prod.mk.injEq] at e; rw [← e.2]; exact .refl c
  | planar =>
    rw [sample] at e
    obtain ⟨⟨uv, c1⟩, e1, e2⟩ := bind_eq_ok.1 e
    simp only [pure_ok, Except.ok.injEq, Prod.mk.injEq] at e2
    rw [← e2.2]; exact Step.gen2 e1
  | transformed f i o ob ih =>
    rw [sample] at e
    obtain ⟨⟨⟨u, b⟩, c1⟩, e1, e2⟩ := bind_eq_ok.1 e
    simp only [pure_ok, Except.ok.injEq, Prod.mk.injEq] at e2
    rw [← e2.2]; exact ih _ _ _ e1

theorem directLoop_step (rng : Rng F S) (occl : Ray F → F → Color F → GoM (Color F × Ray F))
    (p n : Vec F) (ls : List (Light F)) (acc : Color F) (c : Ctx F S) (a : Color F) (c' : Ctx F S)
    (e : directLoop rng occl p n ls acc c = .ok (a, c')) : Step 0 c c' := by
  induction ls generalizing acc c with
  | nil => simp only [directLoop, Except.ok.injEq, Prod.mk.injEq] at e; rw [← e.2]; exact .refl c
  | cons l ls ih =>
    rw [directLoop] at e
    obtain ⟨⟨⟨lp, int⟩, c1⟩, e1, e2⟩ := bind_eq_ok.1 e
    have s1 := l.sample_step rng p c _ _ e1
    dsimp only at e2
    split at e2
    · exact s1.trans (ih _ _ e2)
    · split at e2
      · exact s1.trans (ih _ _ e2)
      · obtain ⟨⟨i2, r2⟩, -, e3⟩ := bind_eq_ok.1 e2
        exact s1.trans (ih _ _ e3)

theorem withRay_step {lf : LF F S} {d : Int} (hlf : ∀ f r, KeepsAt d (lf f r)) (f : Field) (r : Ray F) :
    KeepsAt d (withRay lf f r) := by
  intro c a c' hd e
  unfold withRay at e
  dsimp only at e
  obtain ⟨⟨col, c1⟩, e1, e2⟩ := bind_eq_ok.1 e
  simp only [pure_ok, Except.ok.injEq, Prod.mk.injEq] at e2
  rw [← e2.2]
  have h1 := hlf _ _ _ _ _ ((Step.take c).depth.trans hd) e1
  exact ((Step.take c).trans h1).trans (Step.put _ _)

theorem shadeMatte_step {rng : Rng F S} {s : Scene F} {lf : LF F S} {d : Int}
    (hlf : ∀ f r, KeepsAt d (lf f r)) (tex : Tex F) (r : Ray F) (h : HitCoords F) :
    KeepsAt d (shadeMatte rng s lf tex r h) := by
  intro c a c' hd e
  unfold shadeMatte at e
  dsimp only at e
  obtain ⟨⟨acc, c1⟩, e1, e⟩ := bind_eq_ok.1 e
  obtain ⟨⟨uv, c2⟩, e2, e⟩ := bind_eq_ok.1 e
  obtain ⟨⟨col, c3⟩, e3, e⟩ := bind_eq_ok.1 e
  obtain ⟨refl, -, e⟩ := bind_eq_ok.1 e
  simp only [pure_ok, Except.ok.injEq, Prod.mk.injEq] at e
  rw [← e.2]
  have h1 := directLoop_step _ _ _ _ _ _ _ _ _ e1
  have h2 := Step.gen2 e2
  have h12 := ((Step.take c).trans h1).trans h2
  have h3 := hlf _ _ _ _ _ (h12.depth.trans hd) e3
  exact (h12.trans h3).trans (Step.put _ _)

theorem shadeRefractive_step {lf : LF F S} {d : Int}
    (hlf : ∀ f r, KeepsAt d (lf f r)) (n1 n2 : F) (r : Ray F) (h : HitCoords F) :
    KeepsAt d (shadeRefractive lf n1 n2 r h) := by
  intro c a c' hd e
  unfold shadeRefractive at e
  dsimp only at e
  split at e
  · exact withRay_step hlf _ _ _ _ _ hd e
  · obtain ⟨⟨ct, c1⟩, e1, e⟩ := bind_eq_ok.1 e
    obtain ⟨⟨cr, c2⟩, e2, e⟩ := bind_eq_ok.1 e
    simp only [pure_ok, Except.ok.injEq, Prod.mk.injEq] at e
    rw [← e.2]
    have h1 := (Step.take c).trans (hlf _ _ _ _ _ ((Step.take c).depth.trans hd) e1)
    have h2 := h1.trans (Step.take c1)
    have h3 := h2.trans (hlf _ _ _ _ _ (h2.depth.trans hd) e2)
    exact (h3.trans (Step.put _ _)).trans (Step.put _ _)

theorem whenPos_step {d : Int} (k : F) {m : CtxM F S (Color F)} (hm : KeepsAt d m) :
    KeepsAt d (whenPos k m) := by
  intro c a c' hd e
  unfold whenPos at e
  split at e
  · exact hm _ _ _ hd e
  · simp only [Except.ok.injEq, Prod.mk.injEq] at e; rw [← e.2]; exact .refl c

theorem Mat.shade_step {rng : Rng F S} {s : Scene F} {lf : LF F S} {d : Int}
    (hlf : ∀ f r, KeepsAt d (lf f r)) (m : Mat F) (r : Ray F) (h : HitCoords F) :
    KeepsAt d (m.shade rng s lf r h) := by
  induction m with
  | black =>
    intro c a c' hd e
    simp only [shade, Except.ok.injEq, Prod.mk.injEq] at e; rw [← e.2]; exact .refl c
  | flat tex =>
    intro c a c' hd e
    rw [shade] at e
    obtain ⟨x, -, e⟩ := bind_eq_ok.1 e
    simp only [pure_ok, Except.ok.injEq, Prod.mk.injEq] at e; rw [← e.2]; exact .refl c
  | matte tex => intro c a c' hd e; rw [shade] at e; exact shadeMatte_step hlf _ _ _ _ _ _ hd e
  | reflective col =>
    intro c a c' hd e
    rw [shade] at e
    obtain ⟨⟨x, c1⟩, e1, e⟩ := bind_eq_ok.1 e
    simp only [pure_ok, Except.ok.injEq, Prod.mk.injEq] at e; rw [← e.2]
    exact withRay_step hlf _ _ _ _ _ hd e1
  | reflectFresnel n u ih =>
    intro c a c' hd e
    rw [shade] at e
    dsimp only at e
    obtain ⟨⟨x, c1⟩, e1, e⟩ := bind_eq_ok.1 e
    obtain ⟨⟨y, c2⟩, e2, e⟩ := bind_eq_ok.1 e
    simp only [pure_ok, Except.ok.injEq, Prod.mk.injEq] at e; rw [← e.2]
    have h1 := (Step.take c).trans (ih _ _ _ ((Step.take c).depth.trans hd) e1)
    have h2 := h1.trans (hlf _ _ _ _ _ (h1.depth.trans hd) e2)
    exact h2.trans (Step.put _ _)
  | refractive n1 n2 => intro c a c' hd e; rw [shade] at e; exact shadeRefractive_step hlf _ _ _ _ _ _ _ hd e
  | transparent tex b =>
    intro c a c' hd e
    rw [shade] at e
    dsimp only at e
    obtain ⟨⟨x, c1⟩, e1, e⟩ := bind_eq_ok.1 e
    obtain ⟨y, -, e⟩ := bind_eq_ok.1 e
    simp only [pure_ok, Except.ok.injEq, Prod.mk.injEq] at e; rw [← e.2]
    have h1 := (Step.take c).trans (hlf _ _ _ _ _ ((Step.take c).depth.trans hd) e1)
    exact h1.trans (Step.put _ _)
  | twoSided f b ihf ihb =>
    intro c a c' hd e
    rw [shade] at e
    split at e
    · exact ihf _ _ _ hd e
    · exact ihb _ _ _ hd e
  | blend a ma b mb iha ihb =>
    intro c a c' hd e
    rw [shade] at e
    obtain ⟨⟨x, c1⟩, e1, e⟩ := bind_eq_ok.1 e
    obtain ⟨⟨y, c2⟩, e2, e⟩ := bind_eq_ok.1 e
    simp only [pure_ok, Except.ok.injEq, Prod.mk.injEq] at e; rw [← e.2]
    have h1 := iha _ _ _ hd e1
    exact h1.trans (ihb _ _ _ (h1.depth.trans hd) e2)
  | blendMap tex ma mb iha ihb =>
    intro c a c' hd e
    rw [shade] at e
    obtain ⟨k, -, e⟩ := bind_eq_ok.1 e
    dsimp only at e
    obtain ⟨⟨x, c1⟩, e1, e⟩ := bind_eq_ok.1 e
    obtain ⟨⟨y, c2⟩, e2, e⟩ := bind_eq_ok.1 e
    simp only [pure_ok, Except.ok.injEq, Prod.mk.injEq] at e; rw [← e.2]
    have h1 := whenPos_step _ iha _ _ _ hd e1
    exact h1.trans (whenPos_step _ ihb _ _ _ (h1.depth.trans hd) e2)
  | func f =>
    intro c a c' hd e
    rw [shade] at e
    obtain ⟨x, -, e⟩ := bind_eq_ok.1 e
    simp only [pure_ok, Except.ok.injEq, Prod.mk.injEq] at e; rw [← e.2]; exact .refl c

theorem fogLoop_step (rng : Rng F S) (occl : Ray F → F → Color F → GoM (Color F × Ray F))
    (p : Vec F) (w : F) (n : Int) (ls : List (Light F)) (acc : Color F) (c : Ctx F S) (a : Color F)
    (c' : Ctx F S) (e : fogLoop rng occl p w n ls acc c = .ok (a, c')) : Step 0 c c' := by
  induction ls generalizing acc c n with
  | nil => simp only [fogLoop, Except.ok.injEq, Prod.mk.injEq] at e; rw [← e.2]; exact .refl c
  | cons l ls ih =>
    rw [fogLoop] at e
    split at e
    · simp only [Except.ok.injEq, Prod.mk.injEq] at e; rw [← e.2]; exact .refl c
    · obtain ⟨⟨⟨lp, int⟩, c1⟩, e1, e2⟩ := bind_eq_ok.1 e
      have s1 := l.sample_step rng p c _ _ e1
      dsimp only at e2
      split at e2
      · exact s1.trans (ih _ _ _ e2)
      · obtain ⟨⟨i2, r2⟩, -, e3⟩ := bind_eq_ok.1 e2
        exact s1.trans (ih _ _ _ e3)

theorem Medium.filter_step {rng : Rng F S} {s : Scene F} (m : Medium F) (r : Ray F) (t : F)
    (col : Color F) (c : Ctx F S) (a : Color F) (c' : Ctx F S)
    (e : m.filter rng s r t col c = .ok (a, c')) : Step 0 c c' := by
  cases m with
  | expFog d am h =>
    rw [filter] at e
    obtain ⟨b, -, e⟩ := bind_eq_ok.1 e
    dsimp only at e
    split at e
    · simp only [pure_ok, Except.ok.injEq, Prod.mk.injEq] at e; rw [← e.2]; exact .refl c
    · split at e
      · simp [throw, throwThe, MonadExceptOf.throw] at e
      · simp only [pure_ok, Except.ok.injEq, Prod.mk.injEq] at e; rw [← e.2]; exact .refl c
  | fog d h n =>
    rw [filter] at e
    obtain ⟨b, -, e⟩ := bind_eq_ok.1 e
    dsimp only at e
    split at e
    · simp only [pure_ok, Except.ok.injEq, Prod.mk.injEq] at e; rw [← e.2]; exact .refl c
    · obtain ⟨⟨uv, c1⟩, e1, e⟩ := bind_eq_ok.1 e
      dsimp only at e
      obtain ⟨⟨acc, c2⟩, e2, e⟩ := bind_eq_ok.1 e
      simp only [pure_ok, Except.ok.injEq, Prod.mk.injEq] at e; rw [← e.2]
      have h1 := (Step.gen2 e1).trans (Step.take c1)
      exact (h1.trans (fogLoop_step _ _ _ _ _ _ _ _ _ _ e2)).trans (Step.put _ _)

theorem mediaLoop_step {rng : Rng F S} {s : Scene F} (r : Ray F) (t : F) (ms : List (Medium F))
    (col : Color F) (c : Ctx F S) (a : Color F) (c' : Ctx F S)
    (e : mediaLoop rng s r t ms col c = .ok (a, c')) : Step 0 c c' := by
  induction ms generalizing col c with
  | nil => simp only [mediaLoop, Except.ok.injEq, Prod.mk.injEq] at e; rw [← e.2]; exact .refl c
  | cons m ms ih =>
    rw [mediaLoop] at e
    obtain ⟨⟨c1, x1⟩, e1, e⟩ := bind_eq_ok.1 e
    exact (m.filter_step _ _ _ _ _ _ e1).trans (ih _ _ e)

theorem shadeFront_step {rng : Rng F S} {s : Scene F} {lf : LF F S} {d : Int}
    (hlf : ∀ f r, KeepsAt d (lf f r)) (front : HitRecord F (Mat F)) (r : Ray F) :
    KeepsAt d (shadeFront rng s lf front r) := by
  intro c a c' hd e
  unfold shadeFront at e
  split at e
  · simp at e
  · exact Mat.shade_step hlf _ _ _ _ _ _ hd e

theorem lightFieldFrom_step {rng : Rng F S} {s : Scene F} {base : LF F S} (n : Nat) (f : Field)
    (r : Ray F) (d : Int)
    (hb : (∀ d f r, KeepsAt d (base f r)) ∨ (d ≤ s.recursionDepth ∧ s.recursionDepth - d ≤ n)) :
    KeepsAt d (s.lightFieldFrom rng base n f r) := by
  induction n generalizing f r d with
  | zero =>
    intro c a c' hd e
    rw [Scene.lightFieldFrom] at e
    split at e
    · simp only [Except.ok.injEq, Prod.mk.injEq] at e; rw [← e.2]; exact .refl c
    · rcases hb with hb | hb
      · exact hb _ _ _ _ _ _ rfl e
      · omega
  | succ n ih =>
    intro c a c' hd e
    rw [Scene.lightFieldFrom] at e
    split at e
    · simp only [Except.ok.injEq, Prod.mk.injEq] at e; rw [← e.2]; exact .refl c
    · dsimp only at e
      obtain ⟨⟨front, r1⟩, -, e⟩ := bind_eq_ok.1 e
      obtain ⟨⟨c1, x1⟩, e1, e⟩ := bind_eq_ok.1 e
      obtain ⟨⟨c2, x2⟩, e2, e⟩ := bind_eq_ok.1 e
      simp only [pure_ok, Except.ok.injEq, Prod.mk.injEq] at e; rw [← e.2]
      have h1 := shadeFront_step (fun f r => ih f r (c.depth + 1) (by
        rcases hb with hb | hb
        · exact .inl hb
        · right; omega)) _ _ _ _ _ rfl e1
      have h2 := h1.trans (mediaLoop_step _ _ _ _ _ _ _ e2)
      exact ⟨by have := h2.depth; dsimp only at this ⊢; omega, h2.seq1, h2.seq2, h2.seqL, h2.aa, h2.out⟩

theorem lightField_step {rng : Rng F S} {s : Scene F} (n : Nat) (f : Field) (r : Ray F) (d : Int) :
    KeepsAt d (s.lightField rng n f r) :=
  lightFieldFrom_step n f r d (.inl fun _ _ _ _ _ _ _ e => by simp at e)

/-! ## The light field at deeper levels only matters at the next depth -/

/-- Two light fields agree on contexts of depth `d`. -/
def AgreeAt (d : Int) (lf lf' : LF F S) : Prop := ∀ f r c, c.depth = d → lf f r c = lf' f r c

theorem withRay_congr {lf lf' : LF F S} {d : Int} (hlf : AgreeAt d lf lf') (f : Field) (r : Ray F)
    (c : Ctx F S) (hd : c.depth = d) : withRay lf f r c = withRay lf' f r c := by
  unfold withRay
  dsimp only
  rw [hlf _ _ _ ((Step.take c).depth.trans hd)]

theorem shadeMatte_congr {rng : Rng F S} {s : Scene F} {lf lf' : LF F S} {d : Int}
    (hlf : AgreeAt d lf lf') (tex : Tex F) (r : Ray F) (h : HitCoords F)
    (c : Ctx F S) (hd : c.depth = d) :
    shadeMatte rng s lf tex r h c = shadeMatte rng s lf' tex r h c := by
  unfold shadeMatte
  dsimp only
  refine bind_congr_ok rfl fun ⟨acc, c1⟩ e1 => ?_
  refine bind_congr_ok rfl fun ⟨uv, c2⟩ e2 => ?_
  dsimp only at e2 ⊢
  have h12 := ((Step.take c).trans (directLoop_step _ _ _ _ _ _ _ _ _ e1)).trans (Step.gen2 e2)
  rw [hlf _ _ _ (h12.depth.trans hd)]

theorem shadeRefractive_congr {lf lf' : LF F S} {d : Int} (hlf : AgreeAt d lf lf')
    (hk : ∀ f r, KeepsAt d (lf f r)) (n1 n2 : F) (r : Ray F) (h : HitCoords F) (c : Ctx F S)
    (hd : c.depth = d) : shadeRefractive lf n1 n2 r h c = shadeRefractive lf' n1 n2 r h c := by
  unfold shadeRefractive
  dsimp only
  split
  · exact withRay_congr hlf _ _ _ hd
  · refine bind_congr_ok (hlf _ _ _ ((Step.take c).depth.trans hd)) fun ⟨ct, c1⟩ e1 => ?_
    have h1 := ((Step.take c).trans (hk _ _ _ _ _ ((Step.take c).depth.trans hd) e1)).trans (Step.take c1)
    dsimp only
    rw [hlf _ _ _ (h1.depth.trans hd)]

theorem Mat.shade_congr {rng : Rng F S} {s : Scene F} {lf lf' : LF F S} {d : Int}
    (hlf : AgreeAt d lf lf') (hk : ∀ f r, KeepsAt d (lf f r)) (m : Mat F) (r : Ray F) (h : HitCoords F)
    (c : Ctx F S) (hd : c.depth = d) : m.shade rng s lf r h c = m.shade rng s lf' r h c := by
  induction m generalizing c with
  | black => rfl
  | flat tex => rfl
  | matte tex => rw [shade, shade]; exact shadeMatte_congr hlf _ _ _ _ hd
  | reflective col => rw [shade, shade, withRay_congr hlf _ _ _ hd]
  | reflectFresnel n u ih =>
    rw [shade, shade]
    dsimp only
    have hd1 := (Step.take c).depth.trans hd
    refine bind_congr_ok (ih _ hd1) fun ⟨x, c1⟩ e1 => ?_
    dsimp only
    rw [hlf _ _ _ ((Mat.shade_step hk _ _ _ _ _ _ hd1 e1).depth.trans hd1)]
  | refractive n1 n2 => rw [shade, shade]; exact shadeRefractive_congr hlf hk _ _ _ _ _ hd
  | transparent tex b =>
    rw [shade, shade]
    dsimp only
    rw [hlf _ _ _ ((Step.take c).depth.trans hd)]
  | twoSided f b ihf ihb => rw [shade, shade, ihf _ hd, ihb _ hd]
  | blend a ma b mb iha ihb =>
    rw [shade, shade]
    refine bind_congr_ok (iha _ hd) fun ⟨x, c1⟩ e1 => ?_
    dsimp only
    rw [ihb _ ((Mat.shade_step hk _ _ _ _ _ _ hd e1).depth.trans hd)]
  | blendMap tex ma mb iha ihb =>
    rw [shade, shade]
    refine bind_congr_ok rfl fun k _ => ?_
    dsimp only
    have e : whenPos k.R (ma.shade rng s lf r h) c = whenPos k.R (ma.shade rng s lf' r h) c := by
      unfold whenPos; rw [iha _ hd]
    refine bind_congr_ok e fun ⟨x, c1⟩ e1 => ?_
    dsimp only
    have h1 := whenPos_step _ (Mat.shade_step hk ma r h) _ _ _ hd e1
    have e : whenPos (lit 1 - k.R) (mb.shade rng s lf r h) c1
        = whenPos (lit 1 - k.R) (mb.shade rng s lf' r h) c1 := by
      unfold whenPos; rw [ihb _ (h1.depth.trans hd)]
    rw [e]
  | func f => rfl

theorem shadeFront_congr {rng : Rng F S} {s : Scene F} {lf lf' : LF F S} {d : Int}
    (hlf : AgreeAt d lf lf') (hk : ∀ f r, KeepsAt d (lf f r)) (front : HitRecord F (Mat F)) (r : Ray F)
    (c : Ctx F S) (hd : c.depth = d) :
    shadeFront rng s lf front r c = shadeFront rng s lf' front r c := by
  unfold shadeFront
  split
  · rfl
  · exact Mat.shade_congr hlf hk _ _ _ _ hd

theorem lightFieldFrom_limit {rng : Rng F S} {s : Scene F} (base : LF F S) (n : Nat) (f : Field)
    (r : Ray F) (c : Ctx F S) (h : s.recursionDepth = c.depth) :
    s.lightFieldFrom rng base n f r c = .ok (Color.black, c) := by
  cases n <;> rw [Scene.lightFieldFrom, if_pos h]

theorem lightFieldFrom_indep {rng : Rng F S} {s : Scene F} (base base' : LF F S) (n n' : Nat) (f : Field)
    (r : Ray F) (c : Ctx F S) (hd : c.depth ≤ s.recursionDepth)
    (hn : s.recursionDepth - c.depth ≤ n) (hn' : s.recursionDepth - c.depth ≤ n') :
    s.lightFieldFrom rng base n f r c = s.lightFieldFrom rng base' n' f r c := by
  induction n generalizing f r c n' with
  | zero =>
    have h : s.recursionDepth = c.depth := by omega
    rw [lightFieldFrom_limit _ _ _ _ _ h, lightFieldFrom_limit _ _ _ _ _ h]
  | succ n ih =>
    cases n' with
    | zero =>
      have h : s.recursionDepth = c.depth := by omega
      rw [lightFieldFrom_limit _ _ _ _ _ h, lightFieldFrom_limit _ _ _ _ _ h]
    | succ n' =>
      rw [Scene.lightFieldFrom, Scene.lightFieldFrom]
      split
      · rfl
      · rename_i hne
        dsimp only
        refine bind_congr_ok rfl fun ⟨front, r1⟩ _ => ?_
        dsimp only
        rw [shadeFront_congr (d := c.depth + 1) (lf' := s.lightFieldFrom rng base' n')
          (fun f r c1 h1 => ih n' f r c1 (by omega) (by omega) (by omega))
          (fun f r => lightFieldFrom_step n f r _ (.inr ⟨by omega, by omega⟩)) _ _ _ rfl]

end BR
