import Verif.Lemmas.GoM
import Verif.Model.Api
import Mathlib.Tactic.SplitIfs

/-! Two evaluations of the light field with different random sources, compared step by step. -/

namespace BR
set_option linter.unusedSectionVars false

variable {F S S' : Type} [Add F] [Sub F] [Mul F] [Div F] [Neg F] [GoFloat F]

/-- The deterministic part of a context. -/
structure Frame (F : Type) where
  depth : Int
  seq1 : HaltonSeq F
  seq2 : HaltonSeq F
  seqL : HaltonSeq F
  aa : HaltonSeq F

def Ctx.frame (c : Ctx F S) : Frame F := ⟨c.depth, c.seq1, c.seq2, c.seqL, c.aa⟩

/-- Two computations agree: the same panic, or the same value and contexts with the deterministic part `fr`. -/
inductive Agree (fr : Frame F) {α : Type} : GoM (α × Ctx F S) → GoM (α × Ctx F S') → Prop
  | error (e : Panic) : Agree fr (.error e) (.error e)
  | ok (a : α) (c : Ctx F S) (c' : Ctx F S') : c.frame = fr → c'.frame = fr → Agree fr (.ok (a, c)) (.ok (a, c'))

namespace Agree

variable {α β : Type} {fr fr2 : Frame F}

theorem bind {x : GoM (α × Ctx F S)} {y : GoM (α × Ctx F S')} {f : α × Ctx F S → GoM (β × Ctx F S)}
    {g : α × Ctx F S' → GoM (β × Ctx F S')} (h : Agree fr x y)
    (hf : ∀ a c c', c.frame = fr → c'.frame = fr → Agree fr2 (f (a, c)) (g (a, c'))) :
    Agree fr2 (x >>= f) (y >>= g) := by
  cases h with
  | error e => exact .error e
  | ok a c c' h h' => exact hf a c c' h h'

theorem bindPure {x : GoM α} {f : α → GoM (β × Ctx F S)} {g : α → GoM (β × Ctx F S')}
    (hf : ∀ a, Agree fr (f a) (g a)) : Agree fr (x >>= f) (x >>= g) := by
  cases x with
  | error e => exact .error e
  | ok a => exact hf a

end Agree

/-- Two context computations that agree from any contexts with deterministic part `fr`, and restore it. -/
def Same (fr : Frame F) {α : Type} (m : CtxM F S α) (m' : CtxM F S' α) : Prop :=
  ∀ c c', c.frame = fr → c'.frame = fr → Agree fr (m c) (m' c')

theorem frame_take {fr : Frame F} {c : Ctx F S} (h : c.frame = fr) : c.takeRay.2.frame = fr := h
theorem frame_put {fr : Frame F} {c : Ctx F S} (a : Nat) (h : c.frame = fr) : (c.putRay a).frame = fr := h

variable {fr : Frame F} {rng : Rng F S} {rng' : Rng F S'}

theorem generate2_same (hd : fr.depth = 1 ∨ fr.depth = 2) :
    Same fr (fun c => c.generate2 rng) (fun c => c.generate2 rng') := by
  intro c c' h h'
  subst h
  have hdep : c'.depth = c.depth := congrArg Frame.depth h'
  have hs1 : c'.seq1 = c.seq1 := congrArg Frame.seq1 h'
  have hs2 : c'.seq2 = c.seq2 := congrArg Frame.seq2 h'
  change c.depth = 1 ∨ c.depth = 2 at hd
  show Agree c.frame (c.generate2 rng) (c'.generate2 rng')
  unfold Ctx.generate2
  rw [hdep, hs1, hs2]
  rcases hd with hd | hd
  · rw [hd]
    exact Agree.bindPure fun uv => .ok uv c c' rfl h'
  · rw [hd]
    exact Agree.bindPure fun uv => .ok uv c c' rfl h'

theorem sample_same (hd : fr.depth = 1 ∨ fr.depth = 2) (l : Light F) (p : Vec F) :
    Same fr (l.sample rng p) (l.sample rng' p) := by
  induction l generalizing p with
  | point => intro c c' h h'; exact .ok _ c c' h h'
  | planar =>
    intro c c' h h'
    rw [Light.sample, Light.sample]
    exact (generate2_same hd c c' h h').bind fun uv c c' h h' => .ok _ c c' h h'
  | transformed f i o ob ih =>
    intro c c' h h'
    rw [Light.sample, Light.sample]
    exact (ih _ c c' h h').bind fun uv c c' h h' => .ok _ c c' h h'

theorem directLoop_same (hd : fr.depth = 1 ∨ fr.depth = 2)
    (occl : Ray F → F → Color F → GoM (Color F × Ray F)) (p n : Vec F) (ls : List (Light F)) (acc : Color F) :
    Same fr (directLoop rng occl p n ls acc) (directLoop rng' occl p n ls acc) := by
  induction ls generalizing acc with
  | nil => intro c c' h h'; exact .ok _ c c' h h'
  | cons l ls ih =>
    intro c c' h h'
    rw [directLoop, directLoop]
    refine (sample_same hd l p c c' h h').bind fun x c c' h h' => ?_
    dsimp only
    split_ifs
    · exact ih _ c c' h h'
    · exact ih _ c c' h h'
    · exact Agree.bindPure fun x => ih _ c c' h h'

theorem fogLoop_same (hd : fr.depth = 1 ∨ fr.depth = 2)
    (occl : Ray F → F → Color F → GoM (Color F × Ray F)) (p : Vec F) (w : F) (n : Int) (ls : List (Light F))
    (acc : Color F) : Same fr (fogLoop rng occl p w n ls acc) (fogLoop rng' occl p w n ls acc) := by
  induction ls generalizing acc n with
  | nil => intro c c' h h'; exact .ok _ c c' h h'
  | cons l ls ih =>
    intro c c' h h'
    rw [fogLoop, fogLoop]
    split_ifs
    · exact .ok _ c c' h h'
    refine (sample_same hd l p c c' h h').bind fun x c c' h h' => ?_
    dsimp only
    split_ifs
    · exact ih _ _ c c' h h'
    · exact Agree.bindPure fun x => ih _ _ c c' h h'

section
variable {s : Scene F} {lf : LF F S} {lf' : LF F S'}

theorem withRay_same (hlf : ∀ f r, Same fr (lf f r) (lf' f r)) (f : Field) (r : Ray F) :
    Same fr (withRay lf f r) (withRay lf' f r) := by
  intro c c' h h'
  unfold withRay
  exact (hlf f r _ _ (frame_take h) (frame_take h')).bind fun x c c' h h' => .ok _ _ _ h h'

theorem shadeMatte_same (hd : fr.depth = 1 ∨ fr.depth = 2) (hlf : ∀ f r, Same fr (lf f r) (lf' f r)) (tex : Tex F)
    (r : Ray F) (h : HitCoords F) : Same fr (shadeMatte rng s lf tex r h) (shadeMatte rng' s lf' tex r h) := by
  intro c c' e e'
  unfold shadeMatte
  refine (directLoop_same hd _ _ _ _ _ _ _ (frame_take e) (frame_take e')).bind fun x c c' e e' => ?_
  refine (generate2_same hd c c' e e').bind fun x c c' e e' => ?_
  refine (hlf _ _ c c' e e').bind fun x c c' e e' => ?_
  exact Agree.bindPure fun x => .ok _ _ _ (frame_put _ e) (frame_put _ e')

theorem shadeRefractive_same (hlf : ∀ f r, Same fr (lf f r) (lf' f r)) (n1 n2 : F)
    (r : Ray F) (h : HitCoords F) : Same fr (shadeRefractive lf n1 n2 r h) (shadeRefractive lf' n1 n2 r h) := by
  intro c c' e e'
  unfold shadeRefractive
  dsimp only
  split_ifs
  · exact withRay_same hlf _ _ c c' e e'
  · refine (hlf _ _ _ _ (frame_take e) (frame_take e')).bind fun x c c' e e' => ?_
    refine (hlf _ _ _ _ (frame_take e) (frame_take e')).bind fun x c c' e e' => ?_
    exact .ok _ _ _ (frame_put _ (frame_put _ e)) (frame_put _ (frame_put _ e'))

theorem whenPos_same (k : F) {m : CtxM F S (Color F)} {m' : CtxM F S' (Color F)} (hm : Same fr m m') :
    Same fr (whenPos k m) (whenPos k m') := by
  intro c c' e e'
  unfold whenPos
  split_ifs
  · exact hm c c' e e'
  · exact .ok _ c c' e e'

theorem Mat.shade_same (hd : fr.depth = 1 ∨ fr.depth = 2) (hlf : ∀ f r, Same fr (lf f r) (lf' f r)) (m : Mat F)
    (r : Ray F) (h : HitCoords F) : Same fr (m.shade rng s lf r h) (m.shade rng' s lf' r h) := by
  induction m with
  | black => intro c c' e e'; exact .ok _ c c' e e'
  | flat tex => intro c c' e e'; rw [shade, shade]; exact Agree.bindPure fun x => .ok _ c c' e e'
  | matte tex => intro c c' e e'; rw [shade, shade]; exact shadeMatte_same hd hlf _ _ _ c c' e e'
  | reflective col =>
    intro c c' e e'; rw [shade, shade]
    exact (withRay_same hlf _ _ c c' e e').bind fun x c c' e e' => .ok _ c c' e e'
  | reflectFresnel n u ih =>
    intro c c' e e'; rw [shade, shade]
    refine (ih _ _ (frame_take e) (frame_take e')).bind fun x c c' e e' => ?_
    exact (hlf _ _ c c' e e').bind fun x c c' e e' => .ok _ _ _ (frame_put _ e) (frame_put _ e')
  | refractive n1 n2 => intro c c' e e'; rw [shade, shade]; exact shadeRefractive_same hlf _ _ _ _ c c' e e'
  | transparent tex b =>
    intro c c' e e'; rw [shade, shade]
    refine (hlf _ _ _ _ (frame_take e) (frame_take e')).bind fun x c c' e e' => ?_
    exact Agree.bindPure fun x => .ok _ _ _ (frame_put _ e) (frame_put _ e')
  | twoSided f b ihf ihb =>
    intro c c' e e'; rw [shade, shade]
    split_ifs
    · exact ihf c c' e e'
    · exact ihb c c' e e'
  | blend a ma b mb iha ihb =>
    intro c c' e e'; rw [shade, shade]
    refine (iha c c' e e').bind fun x c c' e e' => ?_
    exact (ihb c c' e e').bind fun x c c' e e' => .ok _ _ _ e e'
  | blendMap tex ma mb iha ihb =>
    intro c c' e e'; rw [shade, shade]
    refine Agree.bindPure fun x => ?_
    refine (whenPos_same _ iha c c' e e').bind fun x c c' e e' => ?_
    exact (whenPos_same _ ihb c c' e e').bind fun x c c' e e' => .ok _ _ _ e e'
  | func f => intro c c' e e'; rw [shade, shade]; exact Agree.bindPure fun x => .ok _ c c' e e'

theorem filter_same (hd : fr.depth = 1 ∨ fr.depth = 2) (m : Medium F) (r : Ray F) (t : F) (col : Color F) :
    Same fr (m.filter rng s r t col) (m.filter rng' s r t col) := by
  intro c c' e e'
  have hi : c.isInitial = c'.isInitial := by
    have : c.depth = c'.depth := (congrArg Frame.depth e).trans (congrArg Frame.depth e').symm
    unfold Ctx.isInitial; rw [this]
  cases m with
  | expFog d am h =>
    rw [Medium.filter, Medium.filter, hi]
    refine Agree.bindPure fun b => ?_
    dsimp only
    split_ifs
    · exact .ok _ c c' e e'
    · exact .error _
    · exact .ok _ c c' e e'
  | fog d h n =>
    rw [Medium.filter, Medium.filter, hi]
    refine Agree.bindPure fun b => ?_
    dsimp only
    split_ifs
    · exact .ok _ c c' e e'
    · refine (generate2_same hd c c' e e').bind fun x c c' e e' => ?_
      refine (fogLoop_same hd _ _ _ _ _ _ _ _ (frame_take e) (frame_take e')).bind fun x c c' e e' => ?_
      exact .ok _ _ _ (frame_put _ e) (frame_put _ e')

theorem mediaLoop_same (hd : fr.depth = 1 ∨ fr.depth = 2) (r : Ray F) (t : F) (ms : List (Medium F)) (col : Color F) :
    Same fr (mediaLoop rng s r t ms col) (mediaLoop rng' s r t ms col) := by
  induction ms generalizing col with
  | nil => intro c c' e e'; exact .ok _ c c' e e'
  | cons m ms ih =>
    intro c c' e e'
    rw [mediaLoop, mediaLoop]
    exact (filter_same hd m r t col c c' e e').bind fun x c c' e e' => ih _ c c' e e'

theorem shadeFront_same (hd : fr.depth = 1 ∨ fr.depth = 2) (hlf : ∀ f r, Same fr (lf f r) (lf' f r))
    (front : HitRecord F (Mat F)) (r : Ray F) :
    Same fr (shadeFront rng s lf front r) (shadeFront rng' s lf' front r) := by
  intro c c' e e'
  unfold shadeFront
  split
  · exact .error _
  · exact Mat.shade_same hd hlf _ _ _ c c' e e'

end

/-- Up to recursion depth 2 the light field does not depend on the random source. -/
theorem lightField_same {s : Scene F} (hs : s.recursionDepth ≤ 2) (n : Nat) (f : Field) (r : Ray F) (fr : Frame F)
    (h0 : 0 ≤ fr.depth) (h1 : fr.depth ≤ s.recursionDepth) :
    Same fr (s.lightField rng n f r) (s.lightField rng' n f r) := by
  unfold Scene.lightField
  induction n generalizing f r fr with
  | zero =>
    intro c c' e e'
    have d : c.depth = fr.depth := congrArg Frame.depth e
    have d' : c'.depth = fr.depth := congrArg Frame.depth e'
    rw [Scene.lightFieldFrom, Scene.lightFieldFrom, d, d']
    split_ifs
    · exact .ok _ c c' e e'
    · exact .error _
  | succ n ih =>
    intro c c' e e'
    have d : c.depth = fr.depth := congrArg Frame.depth e
    have d' : c'.depth = fr.depth := congrArg Frame.depth e'
    rw [Scene.lightFieldFrom, Scene.lightFieldFrom, d, d']
    split_ifs with hlim
    · exact .ok _ c c' e e'
    dsimp only
    refine Agree.bindPure fun x => ?_
    have hd : ({ fr with depth := fr.depth + 1 } : Frame F).depth = 1 ∨
      ({ fr with depth := fr.depth + 1 } : Frame F).depth = 2 := by dsimp only; omega
    have hs : Same ({ fr with depth := fr.depth + 1 } : Frame F)
        (shadeFront rng s (s.lightFieldFrom rng (fun _ _ _ => .error .diverge) n) x.1 x.2)
        (shadeFront rng' s (s.lightFieldFrom rng' (fun _ _ _ => .error .diverge) n) x.1 x.2) :=
      shadeFront_same hd (fun f r => ih f r _ (by dsimp only; omega) (by dsimp only; omega)) _ _
    subst e
    refine (hs _ _ rfl ?_).bind fun y c1 c1' e e' => ?_
    · unfold Ctx.frame at e' ⊢
      simp only [Frame.mk.injEq] at e' ⊢
      exact ⟨trivial, e'.2⟩
    refine (mediaLoop_same hd _ _ _ _ _ _ e e').bind fun y c2 c2' e e' => ?_
    refine .ok _ _ _ ?_ ?_
    · unfold Ctx.frame at e ⊢
      simp only [Frame.mk.injEq] at e ⊢
      exact ⟨by omega, e.2⟩
    · unfold Ctx.frame at e' ⊢
      simp only [Frame.mk.injEq] at e' ⊢
      exact ⟨by omega, e'.2⟩

end BR
