import Verif.Lemmas.Cmp
import Verif.Lemmas.GoM
import Verif.Spec.Box

/-! C20: the bounding box of a point set. For every number type whose comparisons behave like
Go's (NaN unordered), in particular with infinite coordinates. -/

namespace BR

set_option linter.unusedSectionVars false

open CmpModel (key)

variable {F : Type} [GoFloat F] [CmpModel F]

/-- One coordinate: folding `lower` and `upper` over keyed numbers gives the least and greatest. -/
private theorem fold_coord (l : List F) (m : F) (x : EReal) (hm : key m = some x)
    (hl : ∀ a ∈ l, ∃ y, key a = some y) :
    (l.foldl BBox.lower m ∈ m :: l ∧ ∀ a ∈ m :: l, (l.foldl BBox.lower m <=. a) = true) ∧
    (l.foldl BBox.upper m ∈ m :: l ∧ ∀ a ∈ m :: l, (a <=. l.foldl BBox.upper m) = true) := by
  induction l generalizing m x with
  | nil => simp [le_key hm hm]
  | cons b l ih =>
    obtain ⟨y, hy⟩ := hl b (by simp)
    have hl' : ∀ a ∈ l, ∃ y, key a = some y := fun a ha => hl a (by simp [ha])
    obtain ⟨⟨h1, h2⟩, -⟩ := ih (BBox.lower m b) _ (key_lower hm hy) hl'
    obtain ⟨-, ⟨h3, h4⟩⟩ := ih (BBox.upper m b) _ (key_upper hm hy) hl'
    have hlow : BBox.lower m b = m ∨ BBox.lower m b = b := by
      unfold BBox.lower; split <;> simp
    have hupp : BBox.upper m b = m ∨ BBox.upper m b = b := by
      unfold BBox.upper; split <;> simp
    have key_of_mem : ∀ a ∈ m :: b :: l, ∃ y, key a = some y := by
      intro a ha
      rcases List.mem_cons.1 ha with rfl | ha
      · exact ⟨x, hm⟩
      · exact hl a ha
    rw [List.foldl_cons, List.foldl_cons]
    refine ⟨⟨?_, ?_⟩, ⟨?_, ?_⟩⟩
    · rcases List.mem_cons.1 h1 with h | h
      · rw [h]; rcases hlow with e | e <;> rw [e] <;> simp
      · simp [h]
    · intro a ha
      have hb := h2 _ List.mem_cons_self
      obtain ⟨u, v, hu, hv, huv⟩ := (CmpModel.le_iff _ _).1 hb
      rw [key_lower hm hy] at hv
      cases hv
      rcases List.mem_cons.1 ha with rfl | ha
      · rw [le_key hu hm]; simp only [decide_eq_true_eq]; exact huv.trans (min_le_left _ _)
      · rcases List.mem_cons.1 ha with rfl | ha
        · rw [le_key hu hy]; simp only [decide_eq_true_eq]; exact huv.trans (min_le_right _ _)
        · exact h2 a (by simp [ha])
    · rcases List.mem_cons.1 h3 with h | h
      · rw [h]; rcases hupp with e | e <;> rw [e] <;> simp
      · simp [h]
    · intro a ha
      have hb := h4 _ List.mem_cons_self
      obtain ⟨u, v, hu, hv, huv⟩ := (CmpModel.le_iff _ _).1 hb
      rw [key_upper hm hy] at hu
      cases hu
      rcases List.mem_cons.1 ha with rfl | ha
      · rw [le_key hm hv]; simp only [decide_eq_true_eq]; exact (le_max_left _ _).trans huv
      · rcases List.mem_cons.1 ha with rfl | ha
        · rw [le_key hy hv]; simp only [decide_eq_true_eq]; exact (le_max_right _ _).trans huv
        · exact h4 a (by simp [ha])

private theorem foldM_ok (l : List (Vec F)) (hl : ∀ v ∈ l, v.isNaN = false) (b : BBox F) :
    l.foldlM BBox.hullStep b = .ok
      ⟨⟨(l.map Vec.x).foldl BBox.lower b.min.x, (l.map Vec.y).foldl BBox.lower b.min.y,
        (l.map Vec.z).foldl BBox.lower b.min.z⟩,
       ⟨(l.map Vec.x).foldl BBox.upper b.max.x, (l.map Vec.y).foldl BBox.upper b.max.y,
        (l.map Vec.z).foldl BBox.upper b.max.z⟩⟩ := by
  induction l generalizing b with
  | nil => rfl
  | cons v l ih =>
    have hv := hl v (by simp)
    rw [Vec.isNaN] at hv
    rw [List.foldlM_cons, BBox.hullStep, checkNaNVec, hv]
    simp only [Bool.false_eq_true, if_false, ok_bind, pure_ok]
    rw [ih fun w hw => hl w (by simp [hw])]
    rfl

private theorem foldM_nan (l : List (Vec F)) (v : Vec F) (hv : v ∈ l) (hn : v.isNaN = true)
    (b b' : BBox F) : l.foldlM BBox.hullStep b ≠ .ok b' := by
  induction l generalizing b with
  | nil => simp at hv
  | cons w l ih =>
    rw [List.foldlM_cons]
    intro h
    obtain ⟨c, hc, h⟩ := bind_eq_ok.1 h
    rcases List.mem_cons.1 hv with rfl | hv
    · rw [Vec.isNaN] at hn
      rw [BBox.hullStep, checkNaNVec, hn] at hc
      simp only [if_true, error_bind] at hc
      cases hc
    · exact ih hv c h

private theorem key_of_notNaN {a : F} (h : GoFloat.isNaN a = false) : ∃ y, key a = some y := by
  rw [isNaN_key] at h
  cases hk : key a with
  | none => simp [hk] at h
  | some y => exact ⟨y, rfl⟩

/-- **C20.** For a non-empty list of points without NaN the bounding box exists, contains every
point, and lies within every box that contains every point. -/
theorem C20_hull (hull : List (Vec F)) (hne : hull ≠ []) (hn : ∀ v ∈ hull, v.isNaN = false) :
    ∃ b, BBox.fromHull hull = .ok b ∧ (∀ v ∈ hull, b.Contains v) ∧
      ∀ c : BBox F, (∀ v ∈ hull, c.Contains v) → b.Within c := by
  cases hull with
  | nil => exact absurd rfl hne
  | cons v0 l =>
    have comp : ∀ (g : Vec F → F), (∀ v : Vec F, v.isNaN = false → GoFloat.isNaN (g v) = false) →
        ∀ a ∈ ((v0 :: l).map g), ∃ y, key a = some y := by
      intro g hg a ha
      obtain ⟨v, hv, rfl⟩ := List.mem_map.1 ha
      exact key_of_notNaN (hg v (hn v hv))
    have hX : ∀ v : Vec F, v.isNaN = false → GoFloat.isNaN v.x = false := by
      intro v h; simp [Vec.isNaN] at h; exact h.1.1
    have hY : ∀ v : Vec F, v.isNaN = false → GoFloat.isNaN v.y = false := by
      intro v h; simp [Vec.isNaN] at h; exact h.1.2
    have hZ : ∀ v : Vec F, v.isNaN = false → GoFloat.isNaN v.z = false := by
      intro v h; simp [Vec.isNaN] at h; exact h.2
    obtain ⟨kx, hkx⟩ := comp Vec.x hX v0.x (by simp)
    obtain ⟨ky, hky⟩ := comp Vec.y hY v0.y (by simp)
    obtain ⟨kz, hkz⟩ := comp Vec.z hZ v0.z (by simp)
    obtain ⟨⟨mx, lx⟩, ⟨nx, ux⟩⟩ := fold_coord _ _ _ hkx (comp Vec.x hX)
    obtain ⟨⟨my, ly⟩, ⟨ny, uy⟩⟩ := fold_coord _ _ _ hky (comp Vec.y hY)
    obtain ⟨⟨mz, lz⟩, ⟨nz, uz⟩⟩ := fold_coord _ _ _ hkz (comp Vec.z hZ)
    have mem : ∀ (g : Vec F → F) (a : F), a ∈ g v0 :: (v0 :: l).map g → ∃ v ∈ v0 :: l, g v = a := by
      intro g a ha
      rcases List.mem_cons.1 ha with rfl | ha
      · exact ⟨v0, by simp, rfl⟩
      · obtain ⟨v, hv, rfl⟩ := List.mem_map.1 ha
        exact ⟨v, hv, rfl⟩
    have noNaN : ∀ (g : Vec F → F), (∀ v : Vec F, v.isNaN = false → GoFloat.isNaN (g v) = false) →
        ∀ a, a ∈ g v0 :: (v0 :: l).map g → GoFloat.isNaN a = false := by
      intro g hg a ha
      obtain ⟨v, hv, rfl⟩ := mem g a ha
      exact hg v (hn v hv)
    refine ⟨⟨⟨((v0 :: l).map Vec.x).foldl BBox.lower v0.x, ((v0 :: l).map Vec.y).foldl BBox.lower v0.y,
        ((v0 :: l).map Vec.z).foldl BBox.lower v0.z⟩,
       ⟨((v0 :: l).map Vec.x).foldl BBox.upper v0.x, ((v0 :: l).map Vec.y).foldl BBox.upper v0.y,
        ((v0 :: l).map Vec.z).foldl BBox.upper v0.z⟩⟩, ?_, ?_, ?_⟩
    · rw [BBox.fromHull, foldM_ok _ hn]
      simp only [ok_bind, checkNaNVec, noNaN Vec.x hX _ mx, noNaN Vec.y hY _ my, noNaN Vec.z hZ _ mz,
        noNaN Vec.x hX _ nx, noNaN Vec.y hY _ ny, noNaN Vec.z hZ _ nz, Bool.or_self,
        Bool.false_eq_true, if_false]
      exact rfl
    · intro v hv
      exact ⟨lx _ (by simp only [List.mem_cons, List.mem_map]; exact .inr ⟨v, by simpa using hv, rfl⟩),
        ux _ (by simp only [List.mem_cons, List.mem_map]; exact .inr ⟨v, by simpa using hv, rfl⟩),
        ly _ (by simp only [List.mem_cons, List.mem_map]; exact .inr ⟨v, by simpa using hv, rfl⟩),
        uy _ (by simp only [List.mem_cons, List.mem_map]; exact .inr ⟨v, by simpa using hv, rfl⟩),
        lz _ (by simp only [List.mem_cons, List.mem_map]; exact .inr ⟨v, by simpa using hv, rfl⟩),
        uz _ (by simp only [List.mem_cons, List.mem_map]; exact .inr ⟨v, by simpa using hv, rfl⟩)⟩
    · intro c hc
      obtain ⟨v1, h1, e1⟩ := mem Vec.x _ mx
      obtain ⟨v2, h2, e2⟩ := mem Vec.x _ nx
      obtain ⟨v3, h3, e3⟩ := mem Vec.y _ my
      obtain ⟨v4, h4, e4⟩ := mem Vec.y _ ny
      obtain ⟨v5, h5, e5⟩ := mem Vec.z _ mz
      obtain ⟨v6, h6, e6⟩ := mem Vec.z _ nz
      refine ⟨?_, ?_, ?_, ?_, ?_, ?_⟩
      · exact e1 ▸ (hc v1 h1).1
      · exact e2 ▸ (hc v2 h2).2.1
      · exact e3 ▸ (hc v3 h3).2.2.1
      · exact e4 ▸ (hc v4 h4).2.2.2.1
      · exact e5 ▸ (hc v5 h5).2.2.2.2.1
      · exact e6 ▸ (hc v6 h6).2.2.2.2.2

/-- An empty point set is rejected (panic). -/
theorem C20_empty : ∃ e, BBox.fromHull ([] : List (Vec F)) = .error e := ⟨_, rfl⟩

/-- A point with a NaN coordinate is rejected (panic), wherever it is in the list. -/
theorem C20_nan (hull : List (Vec F)) (v : Vec F) (hv : v ∈ hull) (hn : v.isNaN = true) :
    ∃ e, BBox.fromHull hull = .error e := by
  cases h : BBox.fromHull hull with
  | error e => exact ⟨e, rfl⟩
  | ok b =>
    cases hull with
    | nil => simp at hv
    | cons v0 l =>
      rw [BBox.fromHull] at h
      obtain ⟨b', hb', -⟩ := bind_eq_ok.1 h
      exact absurd hb' (foldM_nan _ v hv hn _ _)

/-- Two points, one of them at infinity, over the extended numbers. -/
example : ∀ v ∈ ([⟨lit 1, GoFloat.inf, lit 2⟩, ⟨lit 0, lit 5, lit 7⟩] : List (Vec Ext)),
    v.isNaN = false := by
  simp [Vec.isNaN]

/-- A list with a NaN coordinate. -/
example : (⟨lit 1, .nan, lit 2⟩ : Vec Ext) ∈ ([⟨lit 1, .nan, lit 2⟩] : List (Vec Ext)) ∧
    (⟨lit 1, .nan, lit 2⟩ : Vec Ext).isNaN = true := by
  simp [Vec.isNaN]

end BR
