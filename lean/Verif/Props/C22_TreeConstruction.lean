import Verif.Lemmas.Tree
import Verif.Lemmas.ExtBox
import Mathlib.Data.List.Sort
import Mathlib.Order.Defs.LinearOrder

/-! C22: construction of a bounding volume hierarchy. -/

namespace BR

set_option linter.unusedSectionVars false

variable {F M : Type} [Add F] [Sub F] [Mul F] [Div F] [Neg F] [GoFloat F]

/-- Any arithmetic, any sorting routine: every member is in exactly one leaf position, no leaf has more
than 7 members, and the depth is logarithmic. -/
theorem C22_members (S : Sorter (Obj F M)) (ch : List (Obj F M)) (n : Node F M) (l : List (Obj F M))
    (h : buildTree S ch = .ok (n, l)) :
    n.members.Perm ch ∧ n.members = n.leafLists.flatten ∧ (∀ leaf ∈ n.leafLists, leaf.length ≤ 7) ∧
    (1 ≤ n.depth → 7 * 2 ^ (n.depth - 1) < ch.length) := by
  have hm : ∀ n : Node F M, n.members = n.leafLists.flatten := by
    have : ∀ k (n : Node F M), n.depth ≤ k → n.members = n.leafLists.flatten := by
      intro k
      induction k with
      | zero => intro n hn; cases n with
        | leaf bb ls => simp [Node.members, Node.leafLists]
        | inner bb a b => simp [Node.depth] at hn
      | succ k ih => intro n hn; cases n with
        | leaf bb ls => simp [Node.members, Node.leafLists]
        | inner bb a b =>
          simp only [Node.depth, Nat.add_le_add_iff_right] at hn
          rw [Node.members, Node.leafLists, List.flatten_append,
            ih a (le_trans (Nat.le_max_left ..) hn), ih b (le_trans (Nat.le_max_right ..) hn)]
    exact fun n => this n.depth n le_rfl
  refine ⟨(buildTree_boxes S ch n l h).1, hm n, ?_⟩
  refine buildTree_ind S (fun ch n _ => (∀ leaf ∈ n.leafLists, leaf.length ≤ 7) ∧
    (1 ≤ n.depth → 7 * 2 ^ (n.depth - 1) < ch.length)) ?_ ?_ ch n l h
  · intro ch bb hlen _
    refine ⟨?_, fun h => by simp [Node.depth] at h⟩
    intro leaf hleaf
    rw [Node.leafLists, List.mem_singleton] at hleaf
    rwa [hleaf]
  · rintro ch bb d l r - - hlen - ⟨l1, l2⟩ ⟨r1, r2⟩
    refine ⟨?_, fun _ => ?_⟩
    · intro leaf hleaf
      rw [Node.leafLists, List.mem_append] at hleaf
      exact hleaf.elim (l1 leaf) (r1 leaf)
    · have hp := (S.perm d ch).length_eq
      simp only [List.length_take, List.length_drop, hp] at l2 r2
      have step : ∀ k m, (1 ≤ k → 7 * 2 ^ (k - 1) < m) → 2 * m ≤ ch.length + 1 → 7 * 2 ^ k < ch.length := by
        intro k m hk hm
        cases k with
        | zero => simpa using hlen
        | succ k =>
          have := hk (by omega)
          simp only [Nat.add_sub_cancel] at this
          rw [pow_succ]
          omega
      simp only [Node.depth, Nat.add_sub_cancel]
      rcases le_total l.depth r.depth with hd | hd
      · rw [show Nat.max l.depth r.depth = r.depth from Nat.max_eq_right hd]
        exact step _ _ r2 (by omega)
      · rw [show Nat.max l.depth r.depth = l.depth from Nat.max_eq_left hd]
        exact step _ _ l2 (by omega)

/-- Construction succeeds for every non-empty list of members with bounds without NaN. (It always
terminates: the model function is total.) -/
theorem C22_builds [CmpModel F] (S : Sorter (Obj F M)) (ch : List (Obj F M)) (hne : ch ≠ [])
    (hb : ∀ o ∈ ch, ∃ b, o.bounds = .ok b ∧ b.min.isNaN = false ∧ b.max.isNaN = false) :
    ∃ n l, buildTree S ch = .ok (n, l) := by
  induction ch using buildTree.induct S with
  | case1 ch hlen =>
    obtain ⟨bb, hbb⟩ := makeBoundingBox_ok ch hne hb
    exact ⟨_, _, by rw [buildTree, if_pos hlen, hbb, ok_bind]; rfl⟩
  | case2 ch hlen ih1 ih2 =>
    obtain ⟨bb, hbb⟩ := makeBoundingBox_ok ch hne hb
    have hp := S.perm (argMax (bb.max.sub bb.min)) ch
    have hl := hp.length_eq
    have h7 : 7 < ch.length := by simpa [maxFacePerLeaf] using hlen
    obtain ⟨n1, l1, e1⟩ := ih1 bb (by
        intro hc
        have := congrArg List.length hc
        simp only [List.length_take, List.length_nil] at this
        omega) (fun o ho => hb o (hp.mem_iff.1 (List.mem_of_mem_take ho)))
    obtain ⟨n2, l2, e2⟩ := ih2 bb (by
        intro hc
        have := congrArg List.length hc
        simp only [List.length_drop, List.length_nil] at this
        omega) (fun o ho => hb o (hp.mem_iff.1 (List.mem_of_mem_drop ho)))
    exact ⟨_, _, by rw [buildTree, if_neg hlen, hbb, ok_bind]; simp only [e1, ok_bind, e2]; rfl⟩

/-- A tree without members, or with a member whose bounds have a NaN coordinate, is rejected (panic). -/
theorem C22_rejects [CmpModel F] (S : Sorter (Obj F M)) (ch : List (Obj F M))
    (h : ch = [] ∨ ∃ o ∈ ch, ∃ b, o.bounds = .ok b ∧ (b.min.isNaN = true ∨ b.max.isNaN = true)) :
    ∃ e, buildTree S ch = .error e := by
  cases hb : buildTree S ch with
  | error e => exact ⟨e, rfl⟩
  | ok x =>
    obtain ⟨-, ⟨bb, hbb, -⟩, -⟩ := buildTree_boxes S ch x.1 x.2 hb
    obtain ⟨h1, h2, -⟩ := makeBoundingBox_spec ch bb hbb
    rcases h with h | ⟨o, ho, b, hob, hn⟩
    · exact absurd h h1
    · obtain ⟨b', hb', n1, n2, -⟩ := h2 o ho
      rw [hob] at hb'; cases hb'
      rw [n1, n2] at hn
      simp at hn

/-- The value `sort.Slice` compares (tree.go:46-48). -/
def centreKey (d : Fin 3) (b : BBox F) : F := b.min.get d + b.max.get d

/-- The sorting routine does what `sort.Slice` documents: afterwards no element is smaller than one
before it. -/
def Sorter.Sorts (S : Sorter (Obj F M)) : Prop :=
  ∀ d l, (S.sort d l).Pairwise fun a b => ∀ ba bb, a.bounds = .ok ba → b.bounds = .ok bb →
    (centreKey d bb <. centreKey d ba) = false

/-- **C22, violated part.** The caller's list is reordered: with any correct sorting routine, for any
list of more than 7 objects whose last member lies below the first in every direction, the list is
different after the tree is built. -/
theorem C22_violated_reorders (S : Sorter (Obj F M)) (hS : S.Sorts) (a b : Obj F M) (mid : List (Obj F M))
    (hlen : 6 ≤ mid.length) (ba bb : BBox F) (ha : a.bounds = .ok ba) (hb : b.bounds = .ok bb)
    (hlt : ∀ d, (centreKey d bb <. centreKey d ba) = true) (t : Obj F M) (l : List (Obj F M))
    (h : mkTree S (a :: mid ++ [b]) = .ok (t, l)) : l ≠ a :: mid ++ [b] := by
  have h' : ∃ n, buildTree S (a :: mid ++ [b]) = .ok (n, l) := by
    rw [mkTree] at h
    obtain ⟨⟨n, l'⟩, hn, h⟩ := bind_eq_ok.1 h
    cases h
    exact ⟨n, hn⟩
  obtain ⟨n, h⟩ := h'
  have hm : ∀ ch n l, buildTree S ch = .ok (n, l) → l.Perm ch ∧
      (7 < ch.length → ∃ d, ∃ c1 c2, l = c1 ++ c2 ∧ c1.Perm ((S.sort d ch).take (ch.length / 2)) ∧
        c2.Perm ((S.sort d ch).drop (ch.length / 2))) := by
    refine buildTree_ind S _ ?_ ?_
    · intro ch bb hl _
      exact ⟨.refl _, fun h => absurd h (by omega)⟩
    · rintro ch bb d - - c1 c2 hl - ⟨p1, -⟩ ⟨p2, -⟩
      refine ⟨(p1.append p2).trans ?_, fun _ => ⟨d, c1, c2, rfl, p1, p2⟩⟩
      rw [List.take_append_drop]
      exact S.perm d ch
  obtain ⟨-, h2⟩ := hm _ _ _ h
  obtain ⟨d, c1, c2, e, p1, p2⟩ := h2 (by simp; omega)
  rintro rfl
  have hp := (S.perm d (a :: mid ++ [b])).length_eq
  have l1 := p1.length_eq
  have l2 := p2.length_eq
  simp only [List.length_take, List.length_drop, hp, List.length_append, List.length_cons, List.length_nil] at l1 l2
  have ha1 : a ∈ c1 := by
    cases c1 with
    | nil => simp only [List.length_nil] at l1; omega
    | cons x c1 =>
      simp only [List.cons_append, List.cons.injEq] at e
      simp [e.1]
  have hb2 : b ∈ c2 := by
    have hne : c2 ≠ [] := by
      rintro rfl
      simp only [List.length_nil] at l2; omega
    have : (c1 ++ c2).getLast (by simp [hne]) = c2.getLast hne := List.getLast_append_of_ne_nil _ _
    have h3 : c2.getLast hne = b := by
      rw [← this]
      simp only [← e]
      simp
    rw [← h3]
    exact List.getLast_mem hne
  have hs := hS d (a :: mid ++ [b])
  rw [← List.take_append_drop ((a :: mid ++ [b]).length / 2) (S.sort d (a :: mid ++ [b])),
    List.pairwise_append] at hs
  have := hs.2.2 a (p1.mem_iff.1 ha1) b (p2.mem_iff.1 hb2) ba bb ha hb
  rw [hlt d] at this
  cases this

/-- A correct sorting routine exists. -/
noncomputable def sorterExt : Sorter (Obj Ext M) where
  sort d l := l.mergeSort fun a b =>
    @decide ((match a.bounds with | .ok b => (CmpModel.key (centreKey d b)).getD 0 | _ => 0 : EReal) ≤
      (match b.bounds with | .ok b => (CmpModel.key (centreKey d b)).getD 0 | _ => 0)) (Classical.dec _)
  perm _d _l := List.mergeSort_perm _ _

theorem sorterExt_sorts : (sorterExt (M := M)).Sorts := by
  intro d l
  have := List.pairwise_mergeSort (le := fun (a b : Obj Ext M) =>
    @decide ((match a.bounds with | .ok b => (CmpModel.key (centreKey d b)).getD 0 | _ => 0 : EReal) ≤
      (match b.bounds with | .ok b => (CmpModel.key (centreKey d b)).getD 0 | _ => 0)) (Classical.dec _))
    (by intro a b c h1 h2; simp only [decide_eq_true_eq] at *; exact h1.trans h2)
    (by intro a b; simp only [Bool.or_eq_true, decide_eq_true_eq]; exact le_total _ _) l
  refine this.imp ?_
  intro a b hab ba bb ha hb
  rw [ha, hb] at hab
  simp only [decide_eq_true_eq] at hab
  by_contra hc
  rw [Bool.not_eq_false] at hc
  obtain ⟨x, y, hx, hy, hxy⟩ := (CmpModel.lt_iff _ _).1 hc
  rw [hx, hy] at hab
  simp only [Option.getD_some] at hab
  exact absurd hab (not_le.2 hxy)

/-- The unit box with its low corner at `(x, x, x)`. -/
noncomputable def cubeAt (x : ℝ) : Obj Ext Unit := .box ⟨⟨.fin x, .fin x, .fin x⟩, ⟨.fin (x + 1), .fin (x + 1), .fin (x + 1)⟩⟩ none

/-- Eight cubes listed from high to low satisfy the hypotheses of the violation. -/
example : ∃ t l, mkTree sorterExt (cubeAt 9 :: [cubeAt 8, cubeAt 7, cubeAt 6, cubeAt 5, cubeAt 4, cubeAt 3] ++ [cubeAt 2])
      = .ok (t, l) ∧
    l ≠ cubeAt 9 :: [cubeAt 8, cubeAt 7, cubeAt 6, cubeAt 5, cubeAt 4, cubeAt 3] ++ [cubeAt 2] := by
  obtain ⟨n, l, h⟩ := C22_builds (sorterExt (M := Unit))
    (cubeAt 9 :: [cubeAt 8, cubeAt 7, cubeAt 6, cubeAt 5, cubeAt 4, cubeAt 3] ++ [cubeAt 2]) (by simp) (by
      intro o ho
      simp only [List.cons_append, List.nil_append, List.mem_cons, List.not_mem_nil, or_false] at ho
      rcases ho with rfl | rfl | rfl | rfl | rfl | rfl | rfl | rfl <;> exact ⟨_, rfl, rfl, rfl⟩)
  have h' : mkTree (sorterExt (M := Unit))
    (cubeAt 9 :: [cubeAt 8, cubeAt 7, cubeAt 6, cubeAt 5, cubeAt 4, cubeAt 3] ++ [cubeAt 2]) = .ok (.tree n, l) := by
    rw [mkTree, h]; rfl
  refine ⟨_, l, h', C22_violated_reorders _ sorterExt_sorts _ _ _ (by simp) _ _ rfl rfl ?_ _ _ h'⟩
  intro d
  have : d = 0 ∨ d = 1 ∨ d = 2 := by omega
  rcases this with rfl | rfl | rfl <;>
    (simp only [centreKey, Vec.get, Ext.fin, Ext.num_add_num, Ext.lt_num]; norm_num)

end BR
