import Verif.Lemmas.Moved
import Verif.Lemmas.Tree
import Verif.Lemmas.Mesh
import Mathlib.Tactic.FinCases

/-! Building trees and meshes from displaced parts. -/

namespace BR
set_option linter.unusedSectionVars false

variable {d : Vec Ext} (hd : d.Finite) {M : Type}

include hd

theorem lower_moved {e : Ext} (he : e.Finite) (a b : Ext) : BBox.lower (a + e) (b + e) = BBox.lower a b + e := by
  unfold BBox.lower
  rw [Ext.add_lt_add he]
  split <;> rfl

theorem upper_moved {e : Ext} (he : e.Finite) (a b : Ext) : BBox.upper (a + e) (b + e) = BBox.upper a b + e := by
  unfold BBox.upper
  rw [Ext.add_lt_add he]
  split <;> rfl

theorem fmin_moved {e : Ext} (he : e.Finite) (a b : Ext) : fmin (a + e) (b + e) = fmin a b + e := by
  unfold fmin
  rw [Ext.add_lt_add he]
  split <;> rfl

theorem fmax_moved {e : Ext} (he : e.Finite) (a b : Ext) : fmax (a + e) (b + e) = fmax a b + e := by
  unfold fmax
  rw [Ext.add_lt_add he]
  split <;> rfl

theorem checkNaNVec_moved (v : Vec Ext) : checkNaNVec (v.add d) = checkNaNVec v := by
  simp only [checkNaNVec, Vec.add, Ext.isNaN_add hd.1, Ext.isNaN_add hd.2.1, Ext.isNaN_add hd.2.2]

theorem hullStep_moved (b : BBox Ext) (v : Vec Ext) :
    BBox.hullStep (b.translated d) (v.add d) = (BBox.hullStep b v).map (BBox.translated · d) := by
  unfold BBox.hullStep
  rw [checkNaNVec_moved hd, map_bind']
  refine bind_congr_ok rfl ?_
  intro _ _
  simp only [pure_ok, map_ok', BBox.translated, Vec.add, lower_moved hd hd.1, lower_moved hd hd.2.1,
    lower_moved hd hd.2.2, upper_moved hd hd.1, upper_moved hd hd.2.1, upper_moved hd hd.2.2]

theorem hullFold_moved (l : List (Vec Ext)) (b : BBox Ext) :
    (l.map (Vec.add · d)).foldlM BBox.hullStep (b.translated d) =
      (l.foldlM BBox.hullStep b).map (BBox.translated · d) := by
  induction l generalizing b with
  | nil => rfl
  | cons v l ih =>
    rw [List.map_cons, List.foldlM_cons, List.foldlM_cons]
    exact map_bind_congr (hullStep_moved hd b v) (fun b' _ => ih b')

theorem fromHull_moved (l : List (Vec Ext)) :
    BBox.fromHull (l.map (Vec.add · d)) = (BBox.fromHull l).map (BBox.translated · d) := by
  cases l with
  | nil => rfl
  | cons v l =>
    have e := hullFold_moved hd (v :: l) ⟨v, v⟩
    rw [List.map_cons] at e ⊢
    unfold BBox.fromHull
    dsimp only
    refine map_bind_congr e ?_
    intro b _
    have e1 : checkNaNVec (b.translated d).min = checkNaNVec b.min := checkNaNVec_moved hd _
    have e2 : checkNaNVec (b.translated d).max = checkNaNVec b.max := checkNaNVec_moved hd _
    rw [e1, e2, map_bind']
    refine bind_congr_ok rfl ?_
    intro _ _
    rw [map_bind']
    rfl

omit hd

theorem hull_ok (l : List (Vec Ext)) (hl : ∀ v ∈ l, v.NotNegZero) (b : BBox Ext) (h : BBox.fromHull l = .ok b) :
    b.NotNegZero := by
  have lo : ∀ a c : Ext, a.NotNegZero → c.NotNegZero → (BBox.lower a c).NotNegZero := by
    intro a c h1 h2; unfold BBox.lower; split <;> assumption
  have up : ∀ a c : Ext, a.NotNegZero → c.NotNegZero → (BBox.upper a c).NotNegZero := by
    intro a c h1 h2; unfold BBox.upper; split <;> assumption
  have key : ∀ (l : List (Vec Ext)) (b b' : BBox Ext), (∀ v ∈ l, v.NotNegZero) → b.NotNegZero →
      l.foldlM BBox.hullStep b = .ok b' → b'.NotNegZero := by
    intro l
    induction l with
    | nil => intro b b' _ hb e; cases e; exact hb
    | cons v l ih =>
      intro b b' hv hb e
      rw [List.foldlM_cons] at e
      obtain ⟨c, hc, e⟩ := bind_eq_ok.1 e
      refine ih c b' (fun w hw => hv w (by simp [hw])) ?_ e
      obtain ⟨_, -, hc⟩ := bind_eq_ok.1 hc
      cases hc
      have hv := hv v (by simp)
      exact ⟨⟨lo _ _ hb.1.1 hv.1, lo _ _ hb.1.2.1 hv.2.1, lo _ _ hb.1.2.2 hv.2.2⟩,
        ⟨up _ _ hb.2.1 hv.1, up _ _ hb.2.2.1 hv.2.1, up _ _ hb.2.2.2 hv.2.2⟩⟩
  cases l with
  | nil => cases h
  | cons v l =>
    unfold BBox.fromHull at h
    dsimp only at h
    obtain ⟨c, hc, h⟩ := bind_eq_ok.1 h
    obtain ⟨_, -, h⟩ := bind_eq_ok.1 h
    obtain ⟨_, -, h⟩ := bind_eq_ok.1 h
    cases h
    have := hl v (by simp)
    exact key _ _ _ hl ⟨this, this⟩ hc

theorem inter_ok {a b : BBox Ext} (ha : a.NotNegZero) (hb : b.NotNegZero) : (a.inter b).NotNegZero := by
  have up : ∀ a c : Ext, a.NotNegZero → c.NotNegZero → (fmax a c).NotNegZero := by
    intro a c h1 h2; unfold fmax; split <;> assumption
  have lo : ∀ a c : Ext, a.NotNegZero → c.NotNegZero → (fmin a c).NotNegZero := by
    intro a c h1 h2; unfold fmin; split <;> assumption
  exact ⟨⟨up _ _ ha.1.1 hb.1.1, up _ _ ha.1.2.1 hb.1.2.1, up _ _ ha.1.2.2 hb.1.2.2⟩,
    ⟨lo _ _ ha.2.1 hb.2.1, lo _ _ ha.2.2.1 hb.2.2.1, lo _ _ ha.2.2.2 hb.2.2.2⟩⟩

theorem union_ok {a b : BBox Ext} (ha : a.NotNegZero) (hb : b.NotNegZero) : (a.union b).NotNegZero := by
  have up : ∀ a c : Ext, a.NotNegZero → c.NotNegZero → (fmax a c).NotNegZero := by
    intro a c h1 h2; unfold fmax; split <;> assumption
  have lo : ∀ a c : Ext, a.NotNegZero → c.NotNegZero → (fmin a c).NotNegZero := by
    intro a c h1 h2; unfold fmin; split <;> assumption
  exact ⟨⟨lo _ _ ha.1.1 hb.1.1, lo _ _ ha.1.2.1 hb.1.2.1, lo _ _ ha.1.2.2 hb.1.2.2⟩,
    ⟨up _ _ ha.2.1 hb.2.1, up _ _ ha.2.2.1 hb.2.2.1, up _ _ ha.2.2.2 hb.2.2.2⟩⟩

theorem infBox_ok : (BBox.infBox : BBox Ext).NotNegZero := ⟨⟨trivial, trivial, trivial⟩, ⟨trivial, trivial, trivial⟩⟩

theorem translated_ok {c : Vec Ext} (hc : c.NotNegZero) (b : BBox Ext) : (b.translated c).NotNegZero :=
  ⟨hc.add' _, hc.add' _⟩

theorem withMargin_ok {b : BBox Ext} (hb : b.NotNegZero) (t : Ext) : (b.withMargin t).NotNegZero :=
  ⟨hb.1.add _, hb.2.add _⟩

theorem translated_translated (b : BBox Ext) (c e : Vec Ext) : (b.translated c).translated e = b.translated (c.add e) := by
  simp only [BBox.translated, Vec.add_assoc]

theorem withMargin_translated (b : BBox Ext) (c : Vec Ext) (t : Ext) :
    (b.translated c).withMargin t = (b.withMargin t).translated c := by
  unfold BBox.withMargin BBox.translated
  dsimp only
  rw [Vec.add_right_comm b.min, Vec.add_right_comm b.max]

/-- The bounds of an object that can be displaced contain no negative zero. -/
theorem Obj.Movable.bounds_ok {o : Obj Ext M} (ho : o.Movable) {b : BBox Ext} (e : o.bounds = .ok b) : b.NotNegZero := by
  induction o using Obj.bounds.induct generalizing b <;> simp only [Obj.Movable] at ho <;> simp only [Obj.bounds] at e
  case case1 => cases e; exact infBox_ok
  case case2 => cases e; exact ho.1
  case case3 => cases e; exact ho
  case case4 => cases e; exact ho
  case case6 =>
    refine hull_ok _ ?_ b e
    intro v hv
    simp only [List.mem_cons, List.not_mem_nil, or_false] at hv
    rcases hv with rfl | rfl | rfl
    exacts [ho.1, ho.2.1, ho.2.2]
  case case7 => cases e; exact ho.bb
  case case8 ih => exact ih ho e
  case case9 => cases e; exact ho.1
  case case10 iha ihb =>
    obtain ⟨x, hx, e⟩ := bind_eq_ok.1 e
    obtain ⟨y, hy, e⟩ := bind_eq_ok.1 e
    cases e
    exact inter_ok (iha ho.1 hx) (ihb ho.2 hy)
  case case11 iha ihb =>
    obtain ⟨x, hx, e⟩ := bind_eq_ok.1 e
    obtain ⟨y, hy, e⟩ := bind_eq_ok.1 e
    cases e
    exact union_ok (iha ho.1 hx) (ihb ho.2 hy)
  case case12 iha ihb =>
    obtain ⟨x, hx, e⟩ := bind_eq_ok.1 e
    obtain ⟨y, hy, e⟩ := bind_eq_ok.1 e
    cases e
    exact inter_ok (iha ho.1 hx) (ihb ho.2 hy)
  case case13 => cases e; exact infBox_ok
  case case14 ih => exact ih ho e
  case case16 => cases e; exact infBox_ok

include hd

theorem infBox_moved : (BBox.infBox : BBox Ext).translated d = BBox.infBox := by
  obtain ⟨h1, h2, h3⟩ := hd
  rcases d with ⟨x, y, z⟩
  dsimp only at h1 h2 h3
  cases x with
  | nan => exact h1.elim
  | inf => exact h1.elim
  | num x s =>
    cases y with
    | nan => exact h2.elim
    | inf => exact h2.elim
    | num y t =>
      cases z with
      | nan => exact h3.elim
      | inf => exact h3.elim
      | num z u => simp [BBox.infBox, BBox.translated, Vec.add]

/-- The bounds of the displaced object. -/
theorem Obj.bounds_moved (o : Obj Ext M) (ho : o.Movable) : (o.moved d).bounds = o.bounds.map (BBox.translated · d) := by
  induction o using Obj.bounds.induct <;> simp only [Obj.Movable] at ho <;> simp only [Obj.moved, Obj.bounds, map_ok']
  case case1 => rw [infBox_moved hd]
  case case6 v0 v1 v2 => exact fromHull_moved hd [v0.pos, v1.pos, v2.pos]
  case case7 => rw [Node.bb_moved]
  case case8 ih => exact ih ho
  case case10 iha ihb =>
    refine map_bind_congr (iha ho.1) fun a _ => map_bind_congr (ihb ho.2) fun b _ => ?_
    simp only [pure_ok, map_ok', BBox.inter, BBox.translated, Vec.add, fmin_moved hd hd.1, fmin_moved hd hd.2.1,
      fmin_moved hd hd.2.2, fmax_moved hd hd.1, fmax_moved hd hd.2.1, fmax_moved hd hd.2.2]
  case case11 iha ihb =>
    refine map_bind_congr (iha ho.1) fun a _ => map_bind_congr (ihb ho.2) fun b _ => ?_
    simp only [pure_ok, map_ok', BBox.union, BBox.translated, Vec.add, fmin_moved hd hd.1, fmin_moved hd hd.2.1,
      fmin_moved hd hd.2.2, fmax_moved hd hd.1, fmax_moved hd hd.2.1, fmax_moved hd hd.2.2]
  case case12 iha ihb =>
    refine map_bind_congr (iha ho.1) fun a _ => map_bind_congr (ihb ho.2) fun b _ => ?_
    simp only [pure_ok, map_ok', BBox.inter, BBox.translated, Vec.add, fmin_moved hd hd.1, fmin_moved hd hd.2.1,
      fmin_moved hd hd.2.2, fmax_moved hd hd.1, fmax_moved hd hd.2.1, fmax_moved hd hd.2.2]
  case case13 => rw [infBox_moved hd]
  case case14 ih => exact ih ho
  case case16 => rw [infBox_moved hd]

/-! Trees -/

omit hd
theorem movedList_eq (os : List (Obj Ext M)) : Obj.movedList d os = os.map (Obj.moved d) := by
  induction os with
  | nil => rw [Obj.movedList]; rfl
  | cons o os ih => rw [Obj.movedList, ih]; rfl

theorem movableList_iff (os : List (Obj Ext M)) : Obj.MovableList os ↔ ∀ o ∈ os, o.Movable := by
  induction os with
  | nil => simp [Obj.MovableList]
  | cons o os ih => simp [Obj.MovableList, ih]

theorem toF_ext (b : BBox Ext) : b.toF = b := rfl

theorem mapM_moved {α β : Type} {f : α → α} {h : β → β} {g : α → GoM β} (l : List α) (hg : ∀ a ∈ l, g (f a) = (g a).map h) :
    (l.map f).mapM g = (l.mapM g).map (List.map h) := by
  induction l with
  | nil => rfl
  | cons a l ih =>
    rw [List.map_cons, List.mapM_cons, List.mapM_cons]
    refine map_bind_congr (hg a (by simp)) fun b _ => ?_
    refine map_bind_congr (ih fun x hx => hg x (by simp [hx])) fun bs _ => ?_
    rfl

theorem flatMap_moved (bs : List (BBox Ext)) : ((bs.map (BBox.translated · d)).flatMap fun b => [b.min, b.max]) =
    (bs.flatMap fun b => [b.min, b.max]).map (Vec.add · d) := by
  induction bs with
  | nil => rfl
  | cons b bs ih => rw [List.map_cons, List.flatMap_cons, List.flatMap_cons, ih, List.map_append]; rfl
include hd

theorem makeBoundingBox_moved (ch : List (Obj Ext M)) (hch : ∀ o ∈ ch, o.Movable) :
    makeBoundingBox (ch.map (Obj.moved d)) = (makeBoundingBox ch).map (BBox.translated · d) := by
  unfold makeBoundingBox
  refine map_bind_congr (mapM_moved ch fun o ho => Obj.bounds_moved hd o (hch o ho)) fun bs _ => ?_
  rw [flatMap_moved, fromHull_moved hd]

omit hd
theorem makeBoundingBox_nnz (ch : List (Obj Ext M)) (hch : ∀ o ∈ ch, o.Movable) (bb : BBox Ext)
    (e : makeBoundingBox ch = .ok bb) : bb.NotNegZero := by
  unfold makeBoundingBox at e
  obtain ⟨bs, hbs, e⟩ := bind_eq_ok.1 e
  refine hull_ok _ ?_ bb e
  intro v hv
  obtain ⟨b, hb, hv⟩ := List.mem_flatMap.1 hv
  obtain ⟨o, ho, ob⟩ := forall₂_right (mapM_spec _ _ _ hbs) b hb
  have := (hch o ho).bounds_ok ob
  simp only [List.mem_cons, List.not_mem_nil, or_false] at hv
  rcases hv with rfl | rfl
  exacts [this.1, this.2]

theorem SortAlike.sub {S S' : Sorter (Obj Ext M)} {ch ch' : List (Obj Ext M)} (h : SortAlike d S S' ch)
    (hs : ∀ o ∈ ch', o ∈ ch) : SortAlike d S S' ch' := fun dir l hl => h dir l fun o ho => hs o (hl o ho)
include hd

theorem treeLess_moved (dir : Fin 3) (a b : Obj Ext M) (ha : a.Movable) (hb : b.Movable) :
    treeLess dir (a.moved d) (b.moved d) = treeLess dir a b := by
  unfold treeLess
  rw [Obj.bounds_moved hd a ha, Obj.bounds_moved hd b hb, bind_map']
  refine bind_congr_ok rfl fun x _ => ?_
  rw [bind_map']
  refine bind_congr_ok rfl fun y _ => ?_
  rw [pure_ok, pure_ok]
  refine congrArg Except.ok ?_
  have key : ∀ p q r s e : Ext, e.Finite → ((p + e) + (q + e) <. (r + e) + (s + e)) = (p + q <. r + s) := by
    intro p q r s e he
    have h : ∀ p q : Ext, (p + e) + (q + e) = (p + q) + e + e := by
      intro p q
      rw [Ext.add_assoc p, Ext.add_comm e, Ext.add_assoc q, ← Ext.add_assoc p, Ext.add_assoc (p + q)]
    rw [h, h, Ext.add_lt_add he, Ext.add_lt_add he]
  fin_cases dir
  · exact key _ _ _ _ _ hd.1
  · exact key _ _ _ _ _ hd.2.1
  · exact key _ _ _ _ _ hd.2.2

theorem sortAlike_comparison (S : Sorter (Obj Ext M)) (hS : S.ByComparison) (ch : List (Obj Ext M))
    (hch : ∀ o ∈ ch, o.Movable) : SortAlike d S S ch := by
  obtain ⟨order, h⟩ := hS
  intro dir l hl
  rw [h, h]
  have e : ((l.map (Obj.moved d)).map fun a => (l.map (Obj.moved d)).map fun b => treeLess dir a b) =
      l.map fun a => l.map fun b => treeLess dir a b := by
    rw [List.map_map]
    refine List.map_congr_left fun a ha => ?_
    rw [Function.comp, List.map_map]
    refine List.map_congr_left fun b hb => ?_
    exact treeLess_moved hd dir a b (hch a (hl a ha)) (hch b (hl b hb))
  rw [e, List.map_filterMap]
  refine congrArg (fun f => List.filterMap f _) (funext fun i => ?_)
  rw [List.getElem?_map]

theorem buildTree_moved (S S' : Sorter (Obj Ext M)) (ch : List (Obj Ext M))
    (hS : maxFacePerLeaf < ch.length → SortAlike d S S' ch) (hch : ∀ o ∈ ch, o.Movable) :
    buildTree S' (ch.map (Obj.moved d)) = (buildTree S ch).map fun a => (a.1.moved d, a.2.map (Obj.moved d)) := by
  induction ch using buildTree.induct S with
  | case1 ch hlen =>
    rw [buildTree, buildTree, if_pos hlen, if_pos (by rwa [List.length_map])]
    refine map_bind_congr (makeBoundingBox_moved hd ch hch) fun bb _ => ?_
    simp only [pure_ok, map_ok', Node.moved, movedList_eq, toF_ext]
  | case2 ch hlen ih1 ih2 =>
    rw [buildTree, buildTree, if_neg hlen, if_neg (by rwa [List.length_map])]
    have hS := hS (not_le.1 hlen)
    refine map_bind_congr (makeBoundingBox_moved hd ch hch) fun bb hbb => ?_
    have hnn := makeBoundingBox_nnz ch hch bb hbb
    have e : (bb.translated d).max.sub (bb.translated d).min = bb.max.sub bb.min := Vec.add_sub_add hd hnn.2 _
    dsimp only
    rw [e, hS _ ch fun _ h => h, List.length_map, ← List.map_take, ← List.map_drop]
    have m1 : ∀ o ∈ (S.sort (argMax (bb.max.sub bb.min)) ch).take (ch.length / 2), o ∈ ch := fun o ho =>
      (S.perm _ _).mem_iff.1 (List.mem_of_mem_take ho)
    have m2 : ∀ o ∈ (S.sort (argMax (bb.max.sub bb.min)) ch).drop (ch.length / 2), o ∈ ch := fun o ho =>
      (S.perm _ _).mem_iff.1 (List.mem_of_mem_drop ho)
    refine map_bind_congr (ih1 bb (fun _ => hS.sub m1) fun o ho => hch o (m1 o ho)) fun a _ => ?_
    dsimp only
    refine map_bind_congr (ih2 bb (fun _ => hS.sub m2) fun o ho => hch o (m2 o ho)) fun b _ => ?_
    simp only [pure_ok, map_ok', Node.moved, List.map_append, toF_ext]

omit hd

theorem buildTree_movable (S : Sorter (Obj Ext M)) (ch : List (Obj Ext M)) (hch : ∀ o ∈ ch, o.Movable) (n : Node Ext M)
    (l : List (Obj Ext M)) (e : buildTree S ch = .ok (n, l)) : n.Movable := by
  refine buildTree_ind S (fun ch n _ => (∀ o ∈ ch, o.Movable) → n.Movable) ?_ ?_ ch n l e hch
  · intro ch bb _ hbb h
    simp only [Node.Movable]
    exact ⟨makeBoundingBox_nnz ch h bb hbb, (movableList_iff ch).2 h⟩
  · intro ch bb d l r chl chr _ hbb hl hr h
    simp only [Node.Movable]
    exact ⟨makeBoundingBox_nnz ch h bb hbb, hl fun o ho => h o ((S.perm _ _).mem_iff.1 (List.mem_of_mem_take ho)),
      hr fun o ho => h o ((S.perm _ _).mem_iff.1 (List.mem_of_mem_drop ho))⟩

/-! Meshes -/

theorem modify_moved (vs : List (Vertex Ext)) (i : Nat) (f : Vertex Ext → Vertex Ext)
    (hf : ∀ v, f (v.moved d) = (f v).moved d) :
    (vs.map (Vertex.moved d)).modify i f = (vs.modify i f).map (Vertex.moved d) := by
  induction vs generalizing i with
  | nil => simp
  | cons v vs ih =>
    cases i with
    | zero => simp [hf]
    | succ i => simp [ih]

theorem foldl_modify_moved {α : Type} (g : List (Vertex Ext) → α → List (Vertex Ext)) (as : List α)
    (P : List (Vertex Ext) → Prop) (hP : ∀ vs a, P vs → P (g vs a))
    (hg : ∀ vs a, P vs → g (vs.map (Vertex.moved d)) a = (g vs a).map (Vertex.moved d)) (vs : List (Vertex Ext)) (h : P vs) :
    as.foldl g (vs.map (Vertex.moved d)) = (as.foldl g vs).map (Vertex.moved d) := by
  induction as generalizing vs with
  | nil => rfl
  | cons a as ih => rw [List.foldl_cons, List.foldl_cons, hg _ _ h]; exact ih _ (hP _ _ h)

/-- No vertex position has a coordinate that is the negative zero. -/
def VerticesOk (vs : List (Vertex Ext)) : Prop := ∀ v ∈ vs, v.pos.NotNegZero

theorem verticesOk_strip {vs vs' : List (Vertex Ext)} (e : vs'.map Vertex.strip = vs.map Vertex.strip) (h : VerticesOk vs) :
    VerticesOk vs' := by
  intro v hv
  have : v.strip ∈ vs.map Vertex.strip := by rw [← e]; exact List.mem_map_of_mem hv
  obtain ⟨w, hw, ew⟩ := List.mem_map.1 this
  have : w.pos = v.pos := congrArg Prod.fst ew
  rw [← this]; exact h w hw

include hd

theorem accumNormal_moved (vs : List (Vertex Ext)) (h : VerticesOk vs) (f : Tri) :
    accumNormal (vs.map (Vertex.moved d)) f = (accumNormal vs f).map (Vertex.moved d) := by
  unfold accumNormal
  simp only [List.getElem?_map]
  cases ha : vs[f.1]? with
  | none => rfl
  | some a =>
    cases hb : vs[f.2.1]? with
    | none => rfl
    | some b =>
      cases hc : vs[f.2.2]? with
      | none => rfl
      | some c =>
        have e : triangleNormal (a.moved d).pos (b.moved d).pos (c.moved d).pos = triangleNormal a.pos b.pos c.pos := by
          unfold triangleNormal
          have e1 : (b.moved d).pos.sub (a.moved d).pos = b.pos.sub a.pos :=
            Vec.add_sub_add hd (h b (List.mem_of_getElem? hb)) _
          have e2 : (c.moved d).pos.sub (a.moved d).pos = c.pos.sub a.pos :=
            Vec.add_sub_add hd (h c (List.mem_of_getElem? hc)) _
          rw [e1, e2]
        simp only [Option.map_some, e]
        split
        · rfl
        · exact foldl_modify_moved _ _ (fun _ => True) (fun _ _ _ => trivial)
            (fun vs i _ => by unfold addNormal; exact modify_moved vs i _ fun v => rfl) _ trivial

theorem calcNormals_moved (vs : List (Vertex Ext)) (h : VerticesOk vs) (faces : List Tri) :
    calcNormals (vs.map (Vertex.moved d)) faces = (calcNormals vs faces).map (Vertex.moved d) := by
  unfold calcNormals
  dsimp only
  rw [foldl_modify_moved accumNormal faces VerticesOk (fun vs f h => verticesOk_strip (accumNormal_strip vs f) h)
    (fun vs f h => accumNormal_moved hd vs h f) vs h]
  refine foldl_modify_moved _ _ (fun _ => True) (fun _ _ _ => trivial) (fun vs f _ => ?_) _ trivial
  exact foldl_modify_moved _ _ (fun _ => True) (fun _ _ _ => trivial)
    (fun vs i _ => by unfold normalizeAt; exact modify_moved vs i _ fun v => rfl) _ trivial

omit hd
theorem faceObj_moved (vs : List (Vertex Ext)) (f : Tri) :
    (faceObj (vs.map (Vertex.moved d)) f : GoM (Obj Ext M)) = (faceObj vs f).map (Obj.moved d) := by
  unfold faceObj
  simp only [List.getElem?_map]
  cases vs[f.1]? with
  | none => rfl
  | some a =>
    cases vs[f.2.1]? with
    | none => rfl
    | some b =>
      cases vs[f.2.2]? with
      | none => rfl
      | some c => simp only [Option.map_some, map_ok', Obj.moved]

theorem faceObj_movable (vs : List (Vertex Ext)) (h : VerticesOk vs) (f : Tri) (o : Obj Ext M) (e : faceObj vs f = .ok o) :
    o.Movable := by
  unfold faceObj at e
  split at e
  next a b c ha hb hc =>
    cases e
    simp only [Obj.Movable]
    exact ⟨h _ (List.mem_of_getElem? ha), h _ (List.mem_of_getElem? hb), h _ (List.mem_of_getElem? hc)⟩
  · cases e

theorem mapM_map' {α β : Type} {h : β → β} {g g' : α → GoM β} (l : List α) (hg : ∀ a, g' a = (g a).map h) :
    l.mapM g' = (l.mapM g).map (List.map h) := by
  induction l with
  | nil => rfl
  | cons a l ih =>
    rw [List.mapM_cons, List.mapM_cons]
    refine map_bind_congr (hg a) fun b _ => ?_
    refine map_bind_congr ih fun bs _ => ?_
    rfl

include hd

theorem meshObj_moved (S S' : Sorter (Obj Ext M)) (m : Option M) (vs : List (Vertex Ext)) (h : VerticesOk vs)
    (faces : List Tri)
    (hS : maxFacePerLeaf < faces.length → S = S' ∧ S.ByComparison) :
    meshObj S' m (vs.map (Vertex.moved d)) faces = (meshObj S m vs faces).map (Obj.moved d) := by
  unfold meshObj
  dsimp only
  rw [calcNormals_moved hd vs h]
  refine map_bind_congr (mapM_map' faces fun f => faceObj_moved _ f) fun fs efs => ?_
  have hm : ∀ o ∈ fs, o.Movable := by
    intro o ho
    obtain ⟨f, _, hf⟩ := forall₂_right (mapM_spec _ _ _ efs) o ho
    exact faceObj_movable _ (verticesOk_strip (calcNormals_strip vs faces) h) f o hf
  unfold mkTree
  rw [bind_assoc, bind_assoc]
  refine map_bind_congr (buildTree_moved hd S S' fs (fun hl => by
      obtain ⟨rfl, h⟩ := hS (by rwa [(mapM_spec _ _ _ efs).length_eq])
      exact sortAlike_comparison hd S h fs hm) hm) fun a _ => ?_
  simp only [pure_ok, ok_bind, map_ok', Obj.moved]

omit hd

theorem meshObj_movable (S : Sorter (Obj Ext M)) (m : Option M) (vs : List (Vertex Ext)) (h : VerticesOk vs)
    (faces : List Tri) (o : Obj Ext M) (e : meshObj S m vs faces = .ok o) : o.Movable := by
  unfold meshObj at e
  obtain ⟨fs, efs, e⟩ := bind_eq_ok.1 e
  have hm : ∀ o ∈ fs, o.Movable := by
    intro o ho
    obtain ⟨f, _, hf⟩ := forall₂_right (mapM_spec _ _ _ efs) o ho
    exact faceObj_movable _ (verticesOk_strip (calcNormals_strip vs faces) h) f o hf
  obtain ⟨⟨t, l⟩, et, e⟩ := bind_eq_ok.1 e
  obtain ⟨⟨n, l'⟩, en, et⟩ := bind_eq_ok.1 et
  cases et
  cases e
  simp only [Obj.Movable]
  exact buildTree_movable S fs hm n _ en

theorem mkVertices_moved (ps : List (Vec Ext)) (uv : Option (List (Ext × Ext))) :
    mkVertices (ps.map (Vec.add · d)) uv = (mkVertices ps uv).map (List.map (Vertex.moved d)) := by
  cases uv with
  | none => simp only [mkVertices, map_ok', List.map_map]; rfl
  | some uv =>
    simp only [mkVertices, List.zipIdx_map]
    generalize ps.zipIdx = l
    induction l with
    | nil => rfl
    | cons a l ih =>
      rw [List.map_cons, List.mapM_cons, List.mapM_cons]
      refine map_bind_congr (f := Vertex.moved d) ?_ fun b _ => map_bind_congr ih fun bs _ => rfl
      dsimp only [Prod.map]
      split <;> rename_i e
      · simp only [id] at e; rw [e]; rfl
      · simp only [id] at e; rw [e]; rfl

theorem mkVertices_ok (ps : List (Vec Ext)) (hp : ∀ p ∈ ps, p.NotNegZero) (uv : Option (List (Ext × Ext)))
    (vs : List (Vertex Ext)) (e : mkVertices ps uv = .ok vs) : VerticesOk vs := by
  cases uv with
  | none =>
    cases e
    intro v hv
    obtain ⟨p, h, rfl⟩ := List.mem_map.1 hv
    exact hp p h
  | some uv =>
    intro v hv
    obtain ⟨⟨p, i⟩, h, hf⟩ := forall₂_right (mapM_spec _ _ _ e) v hv
    dsimp only at hf
    have hpm : p ∈ ps := by
      have := List.mem_zipIdx' h
      rw [this.2]; exact List.getElem_mem _
    split at hf
    · cases hf; exact hp p hpm
    · cases hf

include hd

theorem meshWithUV_moved (S S' : Sorter (Obj Ext M)) (m : Option M) (ps : List (Vec Ext)) (hp : ∀ p ∈ ps, p.NotNegZero)
    (idx : List (Int × Int × Int)) (uv : Option (List (Ext × Ext)))
    (hS : maxFacePerLeaf < idx.length → S = S' ∧ S.ByComparison) :
    meshWithUV S' m (ps.map (Vec.add · d)) idx uv = (meshWithUV S m ps idx uv).map (Obj.moved d) := by
  unfold meshWithUV
  refine map_bind_congr (mkVertices_moved ps uv) fun vs evs => ?_
  rw [List.length_map, map_bind']
  refine bind_congr_ok rfl fun faces ef => ?_
  refine meshObj_moved hd S S' m vs (mkVertices_ok ps hp uv vs evs) faces ?_
  intro hl
  exact hS (by rwa [(mapM_spec _ _ _ ef).length_eq])

end BR
