import Verif.Lemmas.Leaving
import Verif.Spec.Lamps

/-! Rays that are cast in scenes with lamps of any kind. -/

namespace BR

/-- All rays cast by a surface leave it, as in `casts_leaving`. -/
theorem casts_in_leaving {shadow : Ray ℝ → ℝ → Prop} {next : Field → Ray ℝ → Prop} {lamps : List Emitter} {R : Ray ℝ} {T : ℝ}
    {N : Vec ℝ} (hu : R.dir.dot R.dir = 1) (hN : N.dot N = 1)
    (hsh : ∀ l ∈ lamps, ∀ q ∈ unitSq, ∀ R' : Ray ℝ, Leaves (R.dir.dot N ≠ 0) (R.at T) N R' →
      shadow R' (length3 ((l q).pos.sub R'.start)))
    (hnx : ∀ fld, ∀ R' : Ray ℝ, Leaves (R.dir.dot N ≠ 0) (R.at T) N R' → next fld R')
    (hfar : ∀ l ∈ lamps, ∀ q ∈ unitSq, gap < length3 ((l q).pos.sub (R.at T))) (X : Surface) :
    CastsIn shadow next lamps R T N X := by
  have all : ∀ X, Casts (fun _ _ => True) (fun R' => ∀ fld, next fld R') [] R T N X :=
    fun X => casts_leaving hu hN (fun _ h => by cases h) (fun R' h fld => hnx fld R' h) (fun _ h => by cases h) X
  induction X with
  | glow => trivial
  | matte k =>
    refine ⟨fun l hl q hq => ?_, fun ω h1 h2 => ((all (.matte k)).2 ω h1 h2) _⟩
    have := casts_leaving (shadow := shadow) (next := fun _ => True) (lamps := [⟨(l q).pos, ⟨0, 0, 0⟩⟩]) hu hN
      (fun L hL R' hR' => by
        rw [List.mem_singleton] at hL
        subst hL
        exact hsh l hl q hq R' hR') (fun _ _ => trivial) (fun L hL => by
        rw [List.mem_singleton] at hL
        subst hL
        exact hfar l hl q hq) (.matte k)
    exact this.1 _ (List.mem_singleton_self _)
  | mirror k => exact fun w hw => (all (.mirror k)) w hw _
  | varnish n X ih => exact ⟨fun w hw => (all (.varnish n X)).1 w hw _, ih⟩
  | glass n1 n2 =>
    intro I hI
    obtain ⟨h1, h2⟩ := all (.glass n1 n2) I hI
    exact ⟨fun w hw => h1 w hw _, fun h t a b c => h2 h t a b c _⟩
  | clear k => exact (all (.clear k)) _
  | mix a X b Y ih1 ih2 => exact ⟨ih1, ih2⟩
  | sides X Y ih1 ih2 => exact ⟨fun _ => ih1, fun _ => ih2⟩

end BR
