import Verif.Spec.Tree
import Verif.Spec.Box
import Verif.Lemmas.GoM
import Verif.Lemmas.Cmp
import Verif.Lemmas.Object
import Verif.Props.C20_HullBox

/-! Trees: the induction over `buildTree`, boxes of member lists. -/

namespace BR

set_option linter.unusedSectionVars false

variable {F M : Type} [Add F] [Sub F] [Mul F] [Div F] [Neg F] [GoFloat F]

/-- Induction over the construction of a tree. -/
theorem buildTree_ind (S : Sorter (Obj F M)) (P : List (Obj F M) → Node F M → List (Obj F M) → Prop)
    (hleaf : ∀ ch bb, ch.length ≤ 7 → makeBoundingBox ch = .ok bb → P ch (.leaf bb.toF ch) ch)
    (hinner : ∀ ch bb d l r chl chr, 7 < ch.length → makeBoundingBox ch = .ok bb →
      P ((S.sort d ch).take (ch.length / 2)) l chl → P ((S.sort d ch).drop (ch.length / 2)) r chr →
      P ch (.inner bb.toF l r) (chl ++ chr))
    (ch : List (Obj F M)) (n : Node F M) (l : List (Obj F M)) (h : buildTree S ch = .ok (n, l)) : P ch n l := by
  induction ch using buildTree.induct S generalizing n l with
  | case1 ch hlen =>
    rw [buildTree, if_pos hlen] at h
    obtain ⟨bb, hbb, h⟩ := bind_eq_ok.1 h
    cases h
    exact hleaf ch bb hlen hbb
  | case2 ch hlen ih1 ih2 =>
    rw [buildTree, if_neg hlen] at h
    obtain ⟨bb, hbb, h⟩ := bind_eq_ok.1 h
    obtain ⟨⟨a, chl⟩, ha, h⟩ := bind_eq_ok.1 h
    dsimp only at h
    obtain ⟨⟨b, chr⟩, hb, h⟩ := bind_eq_ok.1 h
    cases h
    exact hinner ch bb _ a b chl chr (by simpa [maxFacePerLeaf] using hlen) hbb
      (ih1 bb _ _ ha) (ih2 bb _ _ hb)

theorem mapM_spec {α β : Type} (g : α → GoM β) (l : List α) (r : List β) (h : l.mapM g = .ok r) :
    List.Forall₂ (fun a b => g a = .ok b) l r := by
  induction l generalizing r with
  | nil => cases h; exact .nil
  | cons a l ih =>
    rw [List.mapM_cons] at h
    obtain ⟨b, hb, h⟩ := bind_eq_ok.1 h
    obtain ⟨bs, hbs, h⟩ := bind_eq_ok.1 h
    cases h
    exact .cons hb (ih bs hbs)

theorem mapM_of_forall {α β : Type} (g : α → GoM β) (l : List α) (h : ∀ a ∈ l, ∃ b, g a = .ok b) :
    ∃ r, l.mapM g = .ok r := by
  induction l with
  | nil => exact ⟨[], rfl⟩
  | cons a l ih =>
    obtain ⟨b, hb⟩ := h a (by simp)
    obtain ⟨bs, hbs⟩ := ih fun a ha => h a (by simp [ha])
    exact ⟨b :: bs, by rw [List.mapM_cons, hb, ok_bind, hbs, ok_bind]; rfl⟩

theorem forall₂_left {α β : Type} {R : α → β → Prop} {l : List α} {r : List β} (h : List.Forall₂ R l r) :
    ∀ a ∈ l, ∃ b ∈ r, R a b := by
  induction h with
  | nil => intro a ha; cases ha
  | cons hab _ ih =>
    intro x hx
    rcases List.mem_cons.1 hx with rfl | hx
    · exact ⟨_, by simp, hab⟩
    · obtain ⟨b, hb, h⟩ := ih x hx
      exact ⟨b, by simp [hb], h⟩

theorem forall₂_right {α β : Type} {R : α → β → Prop} {l : List α} {r : List β} (h : List.Forall₂ R l r) :
    ∀ b ∈ r, ∃ a ∈ l, R a b := by
  induction h with
  | nil => intro a ha; cases ha
  | cons hab _ ih =>
    intro x hx
    rcases List.mem_cons.1 hx with rfl | hx
    · exact ⟨_, by simp, hab⟩
    · obtain ⟨b, hb, h⟩ := ih x hx
      exact ⟨b, by simp [hb], h⟩

section cmp
variable [CmpModel F]

/-- When the common box exists, there are members, their bounds exist and have no NaN, and the box
contains their corners and is within every box that does. -/
theorem makeBoundingBox_spec (ch : List (Obj F M)) (bb : BBox F) (h : makeBoundingBox ch = .ok bb) :
    ch ≠ [] ∧ (∀ o ∈ ch, ∃ b, o.bounds = .ok b ∧ b.min.isNaN = false ∧ b.max.isNaN = false ∧
      bb.Contains b.min ∧ bb.Contains b.max) ∧
    ∀ c : BBox F, (∀ o ∈ ch, ∀ b, o.bounds = .ok b → c.Contains b.min ∧ c.Contains b.max) → bb.Within c := by
  obtain ⟨bs, hbs, h⟩ := bind_eq_ok.1 h
  have h2 := mapM_spec _ _ _ hbs
  have hn : ∀ v ∈ bs.flatMap fun b => [b.min, b.max], v.isNaN = false := by
    intro v hv
    by_contra hc
    obtain ⟨e, he⟩ := C20_nan _ v hv (by simpa using hc)
    rw [he] at h; cases h
  have hne : (bs.flatMap fun b => [b.min, b.max]) ≠ [] := by
    intro hc
    rw [hc] at h; cases h
  obtain ⟨b', hb', hc, hw⟩ := C20_hull _ hne hn
  rw [hb'] at h
  cases h
  refine ⟨?_, ?_, ?_⟩
  · rintro rfl
    cases h2
    exact hne rfl
  · intro o ho
    obtain ⟨b, hb, hob⟩ := forall₂_left h2 o ho
    have m1 : b.min ∈ bs.flatMap fun b => [b.min, b.max] := List.mem_flatMap.2 ⟨b, hb, by simp⟩
    have m2 : b.max ∈ bs.flatMap fun b => [b.min, b.max] := List.mem_flatMap.2 ⟨b, hb, by simp⟩
    exact ⟨b, hob, hn _ m1, hn _ m2, hc _ m1, hc _ m2⟩
  · intro c hcc
    refine hw c fun v hv => ?_
    obtain ⟨b, hb, hv⟩ := List.mem_flatMap.1 hv
    obtain ⟨o, ho, hob⟩ := forall₂_right h2 b hb
    have := hcc o ho b hob
    simp only [List.mem_cons, List.not_mem_nil, or_false] at hv
    rcases hv with rfl | rfl
    · exact this.1
    · exact this.2

theorem makeBoundingBox_ok (ch : List (Obj F M)) (hne : ch ≠ [])
    (h : ∀ o ∈ ch, ∃ b, o.bounds = .ok b ∧ b.min.isNaN = false ∧ b.max.isNaN = false) :
    ∃ bb, makeBoundingBox ch = .ok bb := by
  obtain ⟨bs, hbs⟩ := mapM_of_forall Obj.bounds ch fun o ho => (h o ho).imp fun _ hb => hb.1
  have h2 := mapM_spec _ _ _ hbs
  obtain ⟨b, hb, -⟩ := C20_hull (bs.flatMap fun b => [b.min, b.max]) (by
      cases h2 with
      | nil => exact absurd rfl hne
      | cons _ _ => simp) (by
      intro v hv
      obtain ⟨b, hb, hv⟩ := List.mem_flatMap.1 hv
      obtain ⟨o, ho, hob⟩ := forall₂_right h2 b hb
      obtain ⟨b', hb', h1, h2⟩ := h o ho
      rw [hob] at hb'; cases hb'
      simp only [List.mem_cons, List.not_mem_nil, or_false] at hv
      rcases hv with rfl | rfl <;> assumption)
  exact ⟨b, by rw [makeBoundingBox, hbs, ok_bind]; exact hb⟩

end cmp

/-- Every box in a built tree is the single-precision common box of the members below it, and those
are among the members of the tree. -/
theorem buildTree_boxes (S : Sorter (Obj F M)) (ch : List (Obj F M)) (n : Node F M) (l : List (Obj F M))
    (h : buildTree S ch = .ok (n, l)) :
    n.members.Perm ch ∧ (∃ bb, makeBoundingBox ch = .ok bb ∧ n.bb = bb.toF) ∧
    ∀ x ∈ n.boxes, ∃ ch' bb, makeBoundingBox ch' = .ok bb ∧ x.1 = bb.toF ∧ x.2.Perm ch' ∧ ∀ o ∈ x.2, o ∈ ch := by
  refine buildTree_ind S (fun ch n _ => n.members.Perm ch ∧ (∃ bb, makeBoundingBox ch = .ok bb ∧ n.bb = bb.toF) ∧
    ∀ x ∈ n.boxes, ∃ ch' bb, makeBoundingBox ch' = .ok bb ∧ x.1 = bb.toF ∧ x.2.Perm ch' ∧ ∀ o ∈ x.2, o ∈ ch) ?_ ?_ ch n l h
  · intro ch bb _ hbb
    refine ⟨.refl _, ⟨bb, hbb, rfl⟩, ?_⟩
    intro x hx
    rw [Node.boxes, List.mem_singleton] at hx
    subst hx
    exact ⟨ch, bb, hbb, rfl, .refl _, fun _ h => h⟩
  · rintro ch bb d l r - - - hbb ⟨m1, ⟨bl, hbl, el⟩, b1⟩ ⟨m2, ⟨br, hbr, er⟩, b2⟩
    have hperm : (Node.inner bb.toF l r).members.Perm ch := by
      rw [Node.members]
      refine (m1.append m2).trans ?_
      rw [List.take_append_drop]
      exact S.perm d ch
    refine ⟨hperm, ⟨bb, hbb, rfl⟩, ?_⟩
    intro x hx
    rw [Node.boxes, List.mem_cons, List.mem_append] at hx
    rcases hx with rfl | hx | hx
    · exact ⟨ch, bb, hbb, rfl, hperm, fun o ho => hperm.mem_iff.1 ho⟩
    · obtain ⟨ch', bb', h1, h2, h3, h4⟩ := b1 x hx
      exact ⟨ch', bb', h1, h2, h3, fun o ho => (S.perm d ch).mem_iff.1 (List.mem_of_mem_take (h4 o ho))⟩
    · obtain ⟨ch', bb', h1, h2, h3, h4⟩ := b2 x hx
      exact ⟨ch', bb', h1, h2, h3, fun o ho => (S.perm d ch).mem_iff.1 (List.mem_of_mem_drop (h4 o ho))⟩

end BR
