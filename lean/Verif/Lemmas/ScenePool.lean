import Verif.Lemmas.GoM
import Verif.Model.Scene
import Mathlib.Data.List.Basic
import Mathlib.Data.List.Perm.Basic
import Mathlib.Data.List.Range

/-! Ownership of pool rays during light field evaluation. -/

namespace BR
set_option linter.unusedSectionVars false

variable {F S : Type} [Add F] [Sub F] [Mul F] [Div F] [Neg F] [GoFloat F]

/-- Every ray ever allocated is either held (once) or in the pool (once). -/
def Pool.Own (p : Pool) (held : List Nat) : Prop := (held ++ p.free).Perm (List.range p.next)

theorem Pool.Own.take {c : Ctx F S} {held : List Nat} (h : c.rays.Own held) :
    c.takeRay.2.rays.Own (c.takeRay.1 :: held) := by
  unfold Ctx.takeRay Pool.get Pool.Own at *
  cases hf : c.rays.free with
  | nil =>
    simp only [hf, List.append_nil] at h ⊢
    rw [List.range_succ]
    exact (List.Perm.cons _ h).trans (List.perm_append_singleton _ _).symm
  | cons a l =>
    simp only [hf] at h ⊢
    exact (List.perm_middle.symm).trans h

theorem Pool.Own.put {c : Ctx F S} {held : List Nat} {a : Nat} (h : c.rays.Own (a :: held)) :
    (c.putRay a).rays.Own held := by
  unfold Ctx.putRay Pool.put Pool.Own at *
  exact List.perm_middle.trans h

/-- The computation ends with the same rays held as it started with. -/
def KeepsRays {α : Type} (m : CtxM F S α) : Prop :=
  ∀ held c a c', m c = .ok (a, c') → c.rays.Own held → c'.rays.Own held

theorem gen2_rays {rng : Rng F S} {c c' : Ctx F S} {uv : F × F} (e : c.generate2 rng = .ok (uv, c')) :
    c'.rays = c.rays := by
  unfold Ctx.generate2 at e
  split at e
  · simp at e
  · split at e
    · obtain ⟨u, -, e⟩ := bind_eq_ok.1 e
      simp only [pure_ok, Except.ok.injEq, Prod.mk.injEq] at e
      rw [← e.2]
    · split at e
      · obtain ⟨u, -, e⟩ := bind_eq_ok.1 e
        simp only [pure_ok, Except.ok.injEq, Prod.mk.injEq] at e
        rw [← e.2]
      · simp only [Except.ok.injEq, Prod.mk.injEq] at e
        rw [← e.2]

theorem Light.sample_rays (rng : Rng F S) (l : Light F) (p : Vec F) (c : Ctx F S)
    (a : Vec F × Color F) (c' : Ctx F S) (e : l.sample rng p c = .ok (a, c')) : c'.rays = c.rays := by
  induction l generalizing p a c' with
  | point => simp only [sample, Except.ok.injEq, Prod.mk.injEq] at e; rw [← e.2]
  | planar =>
    rw [sample] at e
    obtain ⟨⟨uv, c1⟩, e1, e2⟩ := bind_eq_ok.1 e
    simp only [pure_ok, Except.ok.injEq, Prod.mk.injEq] at e2
    rw [← e2.2]; exact gen2_rays e1
  | transformed f i o ob ih =>
    rw [sample] at e
    obtain ⟨⟨⟨u, b⟩, c1⟩, e1, e2⟩ := bind_eq_ok.1 e
    simp only [pure_ok, Except.ok.injEq, Prod.mk.injEq] at e2
    rw [← e2.2]; exact ih _ _ _ e1

theorem directLoop_rays (rng : Rng F S) (occl : Ray F → F → Color F → GoM (Color F × Ray F))
    (p n : Vec F) (ls : List (Light F)) (acc : Color F) (c : Ctx F S) (a : Color F) (c' : Ctx F S)
    (e : directLoop rng occl p n ls acc c = .ok (a, c')) : c'.rays = c.rays := by
  induction ls generalizing acc c with
  | nil => simp only [directLoop, Except.ok.injEq, Prod.mk.injEq] at e; rw [← e.2]
  | cons l ls ih =>
    rw [directLoop] at e
    obtain ⟨⟨⟨lp, int⟩, c1⟩, e1, e2⟩ := bind_eq_ok.1 e
    have s1 := l.sample_rays rng p c _ _ e1
    dsimp only at e2
    split at e2
    · exact (ih _ _ e2).trans s1
    · split at e2
      · exact (ih _ _ e2).trans s1
      · obtain ⟨⟨i2, r2⟩, -, e3⟩ := bind_eq_ok.1 e2
        exact (ih _ _ e3).trans s1

theorem withRay_rays {lf : LF F S} (hlf : ∀ f r, KeepsRays (lf f r)) (f : Field) (r : Ray F) :
    KeepsRays (withRay lf f r) := by
  intro held c a c' e h
  unfold withRay at e
  dsimp only at e
  obtain ⟨⟨col, c1⟩, e1, e2⟩ := bind_eq_ok.1 e
  simp only [pure_ok, Except.ok.injEq, Prod.mk.injEq] at e2
  rw [← e2.2]
  exact (hlf _ _ _ _ _ _ e1 h.take).put

theorem shadeMatte_rays {rng : Rng F S} {s : Scene F} {lf : LF F S}
    (hlf : ∀ f r, KeepsRays (lf f r)) (tex : Tex F) (r : Ray F) (h : HitCoords F) :
    KeepsRays (shadeMatte rng s lf tex r h) := by
  intro held c a c' e hh
  unfold shadeMatte at e
  dsimp only at e
  obtain ⟨⟨acc, c1⟩, e1, e⟩ := bind_eq_ok.1 e
  obtain ⟨⟨uv, c2⟩, e2, e⟩ := bind_eq_ok.1 e
  obtain ⟨⟨col, c3⟩, e3, e⟩ := bind_eq_ok.1 e
  obtain ⟨refl, -, e⟩ := bind_eq_ok.1 e
  simp only [pure_ok, Except.ok.injEq, Prod.mk.injEq] at e
  rw [← e.2]
  have h1 := directLoop_rays _ _ _ _ _ _ _ _ _ e1
  have h2 := gen2_rays e2
  refine (hlf _ _ _ _ _ _ e3 ?_).put
  rw [h2, h1]; exact hh.take

theorem shadeRefractive_rays {lf : LF F S}
    (hlf : ∀ f r, KeepsRays (lf f r)) (n1 n2 : F) (r : Ray F) (h : HitCoords F) :
    KeepsRays (shadeRefractive lf n1 n2 r h) := by
  intro held c a c' e hh
  unfold shadeRefractive at e
  dsimp only at e
  split at e
  · exact withRay_rays hlf _ _ _ _ _ _ e hh
  · obtain ⟨⟨ct, c1⟩, e1, e⟩ := bind_eq_ok.1 e
    obtain ⟨⟨cr, c2⟩, e2, e⟩ := bind_eq_ok.1 e
    simp only [pure_ok, Except.ok.injEq, Prod.mk.injEq] at e
    rw [← e.2]
    exact (hlf _ _ _ _ _ _ e2 (hlf _ _ _ _ _ _ e1 hh.take).take).put.put

theorem whenPos_rays (k : F) {m : CtxM F S (Color F)} (hm : KeepsRays m) : KeepsRays (whenPos k m) := by
  intro held c a c' e hh
  unfold whenPos at e
  split at e
  · exact hm _ _ _ _ e hh
  · simp only [Except.ok.injEq, Prod.mk.injEq] at e; rw [← e.2]; exact hh

theorem Mat.shade_rays {rng : Rng F S} {s : Scene F} {lf : LF F S}
    (hlf : ∀ f r, KeepsRays (lf f r)) (m : Mat F) (r : Ray F) (h : HitCoords F) :
    KeepsRays (m.shade rng s lf r h) := by
  induction m with
  | black =>
    intro held c a c' e hh
    simp only [shade, Except.ok.injEq, Prod.mk.injEq] at e; rw [← e.2]; exact hh
  | flat tex =>
    intro held c a c' e hh
    rw [shade] at e
    obtain ⟨x, -, e⟩ := bind_eq_ok.1 e
    simp only [pure_ok, Except.ok.injEq, Prod.mk.injEq] at e; rw [← e.2]; exact hh
  | matte tex => intro held c a c' e hh; rw [shade] at e; exact shadeMatte_rays hlf _ _ _ _ _ _ _ e hh
  | reflective col =>
    intro held c a c' e hh
    rw [shade] at e
    obtain ⟨⟨x, c1⟩, e1, e⟩ := bind_eq_ok.1 e
    simp only [pure_ok, Except.ok.injEq, Prod.mk.injEq] at e; rw [← e.2]
    exact withRay_rays hlf _ _ _ _ _ _ e1 hh
  | reflectFresnel n u ih =>
    intro held c a c' e hh
    rw [shade] at e
    dsimp only at e
    obtain ⟨⟨x, c1⟩, e1, e⟩ := bind_eq_ok.1 e
    obtain ⟨⟨y, c2⟩, e2, e⟩ := bind_eq_ok.1 e
    simp only [pure_ok, Except.ok.injEq, Prod.mk.injEq] at e; rw [← e.2]
    exact (hlf _ _ _ _ _ _ e2 (ih _ _ _ _ e1 hh.take)).put
  | refractive n1 n2 => intro held c a c' e hh; rw [shade] at e; exact shadeRefractive_rays hlf _ _ _ _ _ _ _ _ e hh
  | transparent tex b =>
    intro held c a c' e hh
    rw [shade] at e
    dsimp only at e
    obtain ⟨⟨x, c1⟩, e1, e⟩ := bind_eq_ok.1 e
    obtain ⟨y, -, e⟩ := bind_eq_ok.1 e
    simp only [pure_ok, Except.ok.injEq, Prod.mk.injEq] at e; rw [← e.2]
    exact (hlf _ _ _ _ _ _ e1 hh.take).put
  | twoSided f b ihf ihb =>
    intro held c a c' e hh
    rw [shade] at e
    split at e
    · exact ihf _ _ _ _ e hh
    · exact ihb _ _ _ _ e hh
  | blend a ma b mb iha ihb =>
    intro held c a c' e hh
    rw [shade] at e
    obtain ⟨⟨x, c1⟩, e1, e⟩ := bind_eq_ok.1 e
    obtain ⟨⟨y, c2⟩, e2, e⟩ := bind_eq_ok.1 e
    simp only [pure_ok, Except.ok.injEq, Prod.mk.injEq] at e; rw [← e.2]
    exact ihb _ _ _ _ e2 (iha _ _ _ _ e1 hh)
  | blendMap tex ma mb iha ihb =>
    intro held c a c' e hh
    rw [shade] at e
    obtain ⟨k, -, e⟩ := bind_eq_ok.1 e
    dsimp only at e
    obtain ⟨⟨x, c1⟩, e1, e⟩ := bind_eq_ok.1 e
    obtain ⟨⟨y, c2⟩, e2, e⟩ := bind_eq_ok.1 e
    simp only [pure_ok, Except.ok.injEq, Prod.mk.injEq] at e; rw [← e.2]
    exact whenPos_rays _ ihb _ _ _ _ e2 (whenPos_rays _ iha _ _ _ _ e1 hh)
  | func f =>
    intro held c a c' e hh
    rw [shade] at e
    obtain ⟨x, -, e⟩ := bind_eq_ok.1 e
    simp only [pure_ok, Except.ok.injEq, Prod.mk.injEq] at e; rw [← e.2]; exact hh

theorem fogLoop_rays (rng : Rng F S) (occl : Ray F → F → Color F → GoM (Color F × Ray F))
    (p : Vec F) (w : F) (n : Int) (ls : List (Light F)) (acc : Color F) (c : Ctx F S) (a : Color F)
    (c' : Ctx F S) (e : fogLoop rng occl p w n ls acc c = .ok (a, c')) : c'.rays = c.rays := by
  induction ls generalizing acc c n with
  | nil => simp only [fogLoop, Except.ok.injEq, Prod.mk.injEq] at e; rw [← e.2]
  | cons l ls ih =>
    rw [fogLoop] at e
    split at e
    · simp only [Except.ok.injEq, Prod.mk.injEq] at e; rw [← e.2]
    · obtain ⟨⟨⟨lp, int⟩, c1⟩, e1, e2⟩ := bind_eq_ok.1 e
      have s1 := l.sample_rays rng p c _ _ e1
      dsimp only at e2
      split at e2
      · exact (ih _ _ _ e2).trans s1
      · obtain ⟨⟨i2, r2⟩, -, e3⟩ := bind_eq_ok.1 e2
        exact (ih _ _ _ e3).trans s1

theorem Medium.filter_rays {rng : Rng F S} {s : Scene F} (m : Medium F) (r : Ray F) (t : F)
    (col : Color F) : KeepsRays (m.filter rng s r t col) := by
  intro held c a c' e hh
  cases m with
  | expFog d am h =>
    rw [filter] at e
    obtain ⟨b, -, e⟩ := bind_eq_ok.1 e
    dsimp only at e
    split at e
    · simp only [pure_ok, Except.ok.injEq, Prod.mk.injEq] at e; rw [← e.2]; exact hh
    · split at e
      · simp [throw, throwThe, MonadExceptOf.throw] at e
      · simp only [pure_ok, Except.ok.injEq, Prod.mk.injEq] at e; rw [← e.2]; exact hh
  | fog d h n =>
    rw [filter] at e
    obtain ⟨b, -, e⟩ := bind_eq_ok.1 e
    dsimp only at e
    split at e
    · simp only [pure_ok, Except.ok.injEq, Prod.mk.injEq] at e; rw [← e.2]; exact hh
    · obtain ⟨⟨uv, c1⟩, e1, e⟩ := bind_eq_ok.1 e
      dsimp only at e
      obtain ⟨⟨acc, c2⟩, e2, e⟩ := bind_eq_ok.1 e
      simp only [pure_ok, Except.ok.injEq, Prod.mk.injEq] at e; rw [← e.2]
      have h1 : c1.rays.Own held := by rw [gen2_rays e1]; exact hh
      refine Pool.Own.put ?_
      rw [fogLoop_rays _ _ _ _ _ _ _ _ _ _ e2]
      exact h1.take

theorem mediaLoop_rays {rng : Rng F S} {s : Scene F} (r : Ray F) (t : F) (ms : List (Medium F))
    (col : Color F) : KeepsRays (mediaLoop rng s r t ms col) := by
  intro held c a c' e hh
  induction ms generalizing col c with
  | nil => simp only [mediaLoop, Except.ok.injEq, Prod.mk.injEq] at e; rw [← e.2]; exact hh
  | cons m ms ih =>
    rw [mediaLoop] at e
    obtain ⟨⟨c1, x1⟩, e1, e⟩ := bind_eq_ok.1 e
    exact ih _ _ e (m.filter_rays _ _ _ _ _ _ _ e1 hh)

theorem lightFieldFrom_rays {rng : Rng F S} {s : Scene F} {base : LF F S} (n : Nat) (f : Field)
    (r : Ray F) (hb : ∀ f r, KeepsRays (base f r)) :
    KeepsRays (s.lightFieldFrom rng base n f r) := by
  induction n generalizing f r with
  | zero =>
    intro held c a c' e hh
    rw [Scene.lightFieldFrom] at e
    split at e
    · simp only [Except.ok.injEq, Prod.mk.injEq] at e; rw [← e.2]; exact hh
    · exact hb _ _ _ _ _ _ e hh
  | succ n ih =>
    intro held c a c' e hh
    rw [Scene.lightFieldFrom] at e
    split at e
    · simp only [Except.ok.injEq, Prod.mk.injEq] at e; rw [← e.2]; exact hh
    · dsimp only at e
      obtain ⟨⟨front, r1⟩, -, e⟩ := bind_eq_ok.1 e
      obtain ⟨⟨c1, x1⟩, e1, e⟩ := bind_eq_ok.1 e
      obtain ⟨⟨c2, x2⟩, e2, e⟩ := bind_eq_ok.1 e
      simp only [pure_ok, Except.ok.injEq, Prod.mk.injEq] at e; rw [← e.2]
      change x2.rays.Own held
      refine mediaLoop_rays _ _ _ _ _ _ _ _ e2 ?_
      unfold shadeFront at e1
      split at e1
      · simp at e1
      · exact Mat.shade_rays (fun f r => ih f r) _ _ _ _ _ _ _ e1 hh

theorem lightField_rays {rng : Rng F S} {s : Scene F} (n : Nat) (f : Field) (r : Ray F) :
    KeepsRays (s.lightField rng n f r) :=
  lightFieldFrom_rays n f r fun _ _ _ _ _ _ e _ => by simp at e

end BR
