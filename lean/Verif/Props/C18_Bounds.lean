import Verif.Spec.Built
import Verif.Props.C23_TreeBoxes
import Verif.Props.C29_Transformed
import Verif.Props.C27_Affine

/-! C18: every point inside an object lies in its bounding box. -/

namespace BR

set_option linter.unusedSectionVars false

open CmpModel (key)

variable {F M : Type} [Add F] [Sub F] [Mul F] [Div F] [Neg F] [GoFloat F]

/-- What C18 says of one object: its bounding box can be computed, has no NaN, and contains every
point (among those satisfying `Pt`) that is inside. -/
def Obj.BoundsHold (Pt : Vec F → Prop) (o : Obj F M) : Prop :=
  ∃ b, o.bounds = .ok b ∧ b.NoNaN ∧ ∀ p, Pt p → o.inside p = .ok true → b.Contains p

section cmp
variable [CmpModel F]

private theorem key_of {a : F} (h : GoFloat.isNaN a = false) : ∃ y, key a = some y := by
  rw [isNaN_key] at h
  cases hk : key a with
  | none => simp [hk] at h
  | some y => exact ⟨y, rfl⟩

private theorem notNaN_of {a : F} {y : EReal} (h : key a = some y) : GoFloat.isNaN a = false := by
  rw [isNaN_key, h]; rfl

private theorem vec_keys {v : Vec F} (h : v.isNaN = false) :
    (∃ x, key v.x = some x) ∧ (∃ x, key v.y = some x) ∧ ∃ x, key v.z = some x := by
  simp only [Vec.isNaN, Bool.or_eq_false_iff] at h
  exact ⟨key_of h.1.1, key_of h.1.2, key_of h.2⟩

private theorem vec_notNaN {v : Vec F} {x y z : EReal} (hx : key v.x = some x) (hy : key v.y = some y)
    (hz : key v.z = some z) : v.isNaN = false := by
  simp [Vec.isNaN, notNaN_of hx, notNaN_of hy, notNaN_of hz]

private theorem lt_le {a b : F} (h : (a <. b) = true) : (a <=. b) = true := by
  obtain ⟨x, y, hx, hy, h⟩ := (CmpModel.lt_iff _ _).1 h
  exact (CmpModel.le_iff _ _).2 ⟨x, y, hx, hy, h.le⟩

private theorem le_trans₃ {a b c : F} (h : (a <=. b) = true) (h2 : (b <=. c) = true) : (a <=. c) = true := by
  obtain ⟨x, y, hx, hy, hxy⟩ := (CmpModel.le_iff _ _).1 h
  obtain ⟨u, v, hu, hv, huv⟩ := (CmpModel.le_iff _ _).1 h2
  rw [hy] at hu; cases hu
  exact (CmpModel.le_iff _ _).2 ⟨x, v, hx, hv, hxy.trans huv⟩

private theorem inside_contains {b : BBox F} {p : Vec F} (h : b.inside p = true) : b.Contains p := by
  simp only [BBox.inside, Bool.and_eq_true] at h
  obtain ⟨⟨⟨⟨⟨h1, h2⟩, h3⟩, h4⟩, h5⟩, h6⟩ := h
  exact ⟨lt_le h1, lt_le h2, lt_le h3, lt_le h4, lt_le h5, lt_le h6⟩

/-- Within one axis: the larger lower bound and the smaller upper bound still enclose `p`. -/
private theorem fmax_le {a b p : F} (h1 : (a <=. p) = true) (h2 : (b <=. p) = true) : (fmax a b <=. p) = true := by
  unfold fmax; split <;> assumption
private theorem le_fmin {a b p : F} (h1 : (p <=. a) = true) (h2 : (p <=. b) = true) : (p <=. fmin a b) = true := by
  unfold fmin; split <;> assumption

private theorem fmin_le {a b p : F} (ha : ∃ x, key a = some x) (hb : ∃ x, key b = some x)
    (h : (a <=. p) = true ∨ (b <=. p) = true) : (fmin a b <=. p) = true := by
  obtain ⟨x, hx⟩ := ha
  obtain ⟨y, hy⟩ := hb
  rcases h with h | h
  · obtain ⟨u, v, hu, hv, huv⟩ := (CmpModel.le_iff _ _).1 h
    rw [hx] at hu; cases hu
    rw [le_key (key_fmin hx hy) hv]; simp [huv]
  · obtain ⟨u, v, hu, hv, huv⟩ := (CmpModel.le_iff _ _).1 h
    rw [hy] at hu; cases hu
    rw [le_key (key_fmin hx hy) hv]; simp [huv]

private theorem le_fmax {a b p : F} (ha : ∃ x, key a = some x) (hb : ∃ x, key b = some x)
    (h : (p <=. a) = true ∨ (p <=. b) = true) : (p <=. fmax a b) = true := by
  obtain ⟨x, hx⟩ := ha
  obtain ⟨y, hy⟩ := hb
  rcases h with h | h
  · obtain ⟨u, v, hu, hv, huv⟩ := (CmpModel.le_iff _ _).1 h
    rw [hx] at hv; cases hv
    rw [le_key hu (key_fmax hx hy)]; simp [huv]
  · obtain ⟨u, v, hu, hv, huv⟩ := (CmpModel.le_iff _ _).1 h
    rw [hy] at hv; cases hv
    rw [le_key hu (key_fmax hx hy)]; simp [huv]

private theorem nn_fmax {a b : F} (ha : GoFloat.isNaN a = false) (hb : GoFloat.isNaN b = false) :
    GoFloat.isNaN (fmax a b) = false := by unfold fmax; split <;> assumption
private theorem nn_fmin {a b : F} (ha : GoFloat.isNaN a = false) (hb : GoFloat.isNaN b = false) :
    GoFloat.isNaN (fmin a b) = false := by unfold fmin; split <;> assumption

private theorem nn_iff {v : Vec F} : v.isNaN = false ↔
    GoFloat.isNaN v.x = false ∧ GoFloat.isNaN v.y = false ∧ GoFloat.isNaN v.z = false := by
  simp [Vec.isNaN, and_assoc]

private theorem inter_spec {a b : BBox F} (ha : a.NoNaN) (hb : b.NoNaN) :
    (a.inter b).NoNaN ∧ ∀ p, a.Contains p → b.Contains p → (a.inter b).Contains p := by
  obtain ⟨a1, a2⟩ := ha
  obtain ⟨b1, b2⟩ := hb
  rw [nn_iff] at a1 a2 b1 b2
  refine ⟨⟨nn_iff.2 ⟨nn_fmax a1.1 b1.1, nn_fmax a1.2.1 b1.2.1, nn_fmax a1.2.2 b1.2.2⟩,
    nn_iff.2 ⟨nn_fmin a2.1 b2.1, nn_fmin a2.2.1 b2.2.1, nn_fmin a2.2.2 b2.2.2⟩⟩, ?_⟩
  rintro p ⟨p1, p2, p3, p4, p5, p6⟩ ⟨q1, q2, q3, q4, q5, q6⟩
  exact ⟨fmax_le p1 q1, le_fmin p2 q2, fmax_le p3 q3, le_fmin p4 q4, fmax_le p5 q5, le_fmin p6 q6⟩

private theorem union_spec {a b : BBox F} (ha : a.NoNaN) (hb : b.NoNaN) :
    (a.union b).NoNaN ∧ ∀ p, (a.Contains p ∨ b.Contains p) → (a.union b).Contains p := by
  obtain ⟨a1, a2⟩ := ha
  obtain ⟨b1, b2⟩ := hb
  have ka1 := vec_keys a1
  have ka2 := vec_keys a2
  have kb1 := vec_keys b1
  have kb2 := vec_keys b2
  rw [nn_iff] at a1 a2 b1 b2
  refine ⟨⟨nn_iff.2 ⟨nn_fmin a1.1 b1.1, nn_fmin a1.2.1 b1.2.1, nn_fmin a1.2.2 b1.2.2⟩,
    nn_iff.2 ⟨nn_fmax a2.1 b2.1, nn_fmax a2.2.1 b2.2.1, nn_fmax a2.2.2 b2.2.2⟩⟩, ?_⟩
  intro p h
  refine ⟨fmin_le ka1.1 kb1.1 (h.imp (·.1) (·.1)), le_fmax ka2.1 kb2.1 (h.imp (·.2.1) (·.2.1)),
    fmin_le ka1.2.1 kb1.2.1 (h.imp (·.2.2.1) (·.2.2.1)), le_fmax ka2.2.1 kb2.2.1 (h.imp (·.2.2.2.1) (·.2.2.2.1)),
    fmin_le ka1.2.2 kb1.2.2 (h.imp (·.2.2.2.2.1) (·.2.2.2.2.1)),
    le_fmax ka2.2.2 kb2.2.2 (h.imp (·.2.2.2.2.2) (·.2.2.2.2.2))⟩

private theorem infBox_spec [InfModel F] :
    (BBox.infBox : BBox F).NoNaN ∧ ∀ p : Vec F, p.isNaN = false → (BBox.infBox : BBox F).Contains p := by
  have hi : GoFloat.isNaN (GoFloat.inf : F) = false := notNaN_of InfModel.key_inf
  have hj : GoFloat.isNaN (-GoFloat.inf : F) = false := notNaN_of InfModel.key_neg_inf
  refine ⟨⟨nn_iff.2 ⟨hj, hj, hj⟩, nn_iff.2 ⟨hi, hi, hi⟩⟩, fun p hp => ?_⟩
  obtain ⟨⟨x, hx⟩, ⟨y, hy⟩, z, hz⟩ := vec_keys hp
  refine ⟨?_, ?_, ?_, ?_, ?_, ?_⟩
  · exact (CmpModel.le_iff _ _).2 ⟨_, _, InfModel.key_neg_inf, hx, bot_le⟩
  · exact (CmpModel.le_iff _ _).2 ⟨_, _, hx, InfModel.key_inf, le_top⟩
  · exact (CmpModel.le_iff _ _).2 ⟨_, _, InfModel.key_neg_inf, hy, bot_le⟩
  · exact (CmpModel.le_iff _ _).2 ⟨_, _, hy, InfModel.key_inf, le_top⟩
  · exact (CmpModel.le_iff _ _).2 ⟨_, _, InfModel.key_neg_inf, hz, bot_le⟩
  · exact (CmpModel.le_iff _ _).2 ⟨_, _, hz, InfModel.key_inf, le_top⟩

private theorem and_true {a b : GoM Bool} (h : (do if ← a then b else return false) = .ok true) :
    a = .ok true ∧ b = .ok true := by
  obtain ⟨x, hx, h⟩ := bind_eq_ok.1 h
  cases x
  · cases h
  · exact ⟨hx, h⟩

private theorem or_true' {a b : GoM Bool} (h : (do if ← a then return true else b) = .ok true) :
    a = .ok true ∨ b = .ok true := by
  obtain ⟨x, hx, h⟩ := bind_eq_ok.1 h
  cases x
  · exact .inr h
  · exact .inl hx

mutual
private theorem node_inside_mem (n : Node F M) (p : Vec F) (h : n.inside p = .ok true) :
    ∃ o ∈ n.members, o.inside p = .ok true :=
  match n with
  | .leaf bb ls => by
    rw [Node.inside] at h
    rw [Node.members]
    exact any_inside_mem ls p h
  | .inner bb a b => by
    rw [Node.inside] at h
    rw [Node.members]
    rcases or_true' h with h | h
    · obtain ⟨o, ho, e⟩ := node_inside_mem a p h
      exact ⟨o, by simp [ho], e⟩
    · obtain ⟨o, ho, e⟩ := node_inside_mem b p h
      exact ⟨o, by simp [ho], e⟩
termination_by structural n

private theorem any_inside_mem (ls : List (Obj F M)) (p : Vec F) (h : Obj.anyInside ls p = .ok true) :
    ∃ o ∈ ls, o.inside p = .ok true :=
  match ls with
  | [] => by rw [Obj.anyInside] at h; cases h
  | o :: ls => by
    rw [Obj.anyInside] at h
    rcases or_true' h with h | h
    · exact ⟨o, by simp, h⟩
    · obtain ⟨o', ho, e⟩ := any_inside_mem ls p h
      exact ⟨o', by simp [ho], e⟩
termination_by structural ls
end

private theorem transform_noNaN {t : Affine F} {bb b : BBox F} (h : bb.transform t = .ok b) : b.NoNaN := by
  rw [BBox.transform] at h
  cases hl : bb.hull.map t.point with
  | nil => simp [BBox.hull] at hl
  | cons v0 l =>
    rw [hl, BBox.fromHull] at h
    obtain ⟨b', -, h⟩ := bind_eq_ok.1 h
    obtain ⟨_, h1, h⟩ := bind_eq_ok.1 h
    obtain ⟨_, h2, h⟩ := bind_eq_ok.1 h
    cases h
    rw [checkNaNVec] at h1 h2
    split at h1
    · cases h1
    · split at h2
      · cases h2
      · rename_i h3 h4
        exact ⟨by simpa [Vec.isNaN] using h3, by simpa [Vec.isNaN] using h4⟩

/-- The core argument, for any arithmetic in which the transforms satisfying `E` map boxes soundly for
the points satisfying `Pt`. -/
private theorem built_holds [InfModel F]
    (hmono : ∀ a b : F, (a <=. b) = true → (GoFloat.toF32 a <=. GoFloat.toF32 b) = true)
    (S : Sorter (Obj F M)) (E : Affine F → Prop) (Pt : Vec F → Prop)
    (hPt : ∀ p, Pt p → p.isNaN = false)
    (hbef : ∀ t s : Affine F, E t → E s → E (t.before s))
    (hpt : ∀ (t : Affine F) (p : Vec F), E t → Pt p → Pt (t.inverse.point p))
    (hsound : ∀ (t : Affine F) (bb b : BBox F) (p : Vec F), E t → Pt p → bb.NoNaN → bb.transform t = .ok b →
      bb.Contains (t.inverse.point p) → b.Contains p)
    (o : Obj F M) (h : Built S E o) :
    o.BoundsHold Pt ∧ ∀ b f i u, o = .transformed b f i u → u.Plain ∧ u.BoundsHold Pt ∧ E f := by
  induction h with
  | backdrop mat =>
    refine ⟨⟨_, by rw [Obj.bounds], infBox_spec.1, fun p _ h => ?_⟩, fun _ _ _ _ h => by cases h⟩
    rw [Obj.inside] at h; cases h
  | allSpace =>
    exact ⟨⟨_, by rw [Obj.bounds], infBox_spec.1, fun p hp _ => infBox_spec.2 p (hPt p hp)⟩, fun _ _ _ _ h => by cases h⟩
  | box bounds mat hn =>
    refine ⟨⟨_, by rw [Obj.bounds], hn, fun p _ h => ?_⟩, fun _ _ _ _ h => by cases h⟩
    rw [Obj.inside] at h
    exact inside_contains (Except.ok.inj h)
  | quadric q hn =>
    refine ⟨⟨_, by rw [Obj.bounds], hn, fun p _ h => ?_⟩, fun _ _ _ _ h => by cases h⟩
    rw [Obj.inside, Quadric.inside] at h
    have h := Except.ok.inj h
    split at h
    · cases h
    · rename_i hc
      exact inside_contains (by simpa using hc)
  | iso s hn =>
    refine ⟨⟨_, by rw [Obj.bounds], hn, fun p _ h => ?_⟩, fun _ _ _ _ h => by cases h⟩
    rw [Obj.inside, Iso.inside] at h
    split at h
    · rename_i hc; exact inside_contains hc
    · cases h
  | face v0 v1 v2 h0 h1 h2 =>
    obtain ⟨b, hb, hc, -⟩ := C20_hull [v0.pos, v1.pos, v2.pos] (by simp) (by
      intro v hv
      simp only [List.mem_cons, List.not_mem_nil, or_false] at hv
      rcases hv with rfl | rfl | rfl <;> assumption)
    refine ⟨⟨b, by rw [Obj.bounds, Face.bounds, hb], ?_, fun p _ h => ?_⟩, fun _ _ _ _ h => by cases h⟩
    · obtain ⟨c1, c2, c3, c4, c5, c6⟩ := hc v0.pos (by simp)
      have L : ∀ {a b : F}, (a <=. b) = true → GoFloat.isNaN a = false ∧ GoFloat.isNaN b = false := by
        intro a b h
        obtain ⟨x, y, hx, hy, -⟩ := (CmpModel.le_iff _ _).1 h
        exact ⟨notNaN_of hx, notNaN_of hy⟩
      exact ⟨nn_iff.2 ⟨(L c1).1, (L c3).1, (L c5).1⟩, nn_iff.2 ⟨(L c2).2, (L c4).2, (L c6).2⟩⟩
    · rw [Obj.inside] at h; cases h
  | bounded o o' ho h ih =>
    obtain ⟨b, hb, h'⟩ := bind_eq_ok.1 h
    cases h'
    obtain ⟨⟨b', hb', hn, -⟩, -⟩ := ih
    rw [hb] at hb'; cases hb'
    refine ⟨⟨b, by rw [Obj.bounds], hn, fun p _ h => ?_⟩, fun _ _ _ _ h => by cases h⟩
    rw [Obj.inside] at h
    split at h
    · cases h
    · rename_i hc; exact inside_contains (by simpa using hc)
  | tree ch t l hc hr h ih =>
    obtain ⟨⟨n, l'⟩, hn, h'⟩ := bind_eq_ok.1 h
    cases h'
    obtain ⟨hp, ⟨bb, hbb, e⟩, -⟩ := buildTree_boxes S ch n l hn
    have hroot : (n.bb, n.members) ∈ n.boxes := by cases n <;> simp [Node.boxes, Node.bb, Node.members]
    have hcon := C23_contains_partial hmono S ch n l hn _ hroot
    obtain ⟨hne, h2, -⟩ := makeBoundingBox_spec ch bb hbb
    have hmem : ∀ o ∈ ch, ∃ b, o.bounds = .ok b ∧ n.bb.Contains b.min ∧ n.bb.Contains b.max ∧
        ∀ p, Pt p → o.inside p = .ok true → b.Contains p := by
      intro o ho
      obtain ⟨⟨b, hb, -, hin⟩, -⟩ := ih o ho
      obtain ⟨c1, c2⟩ := hcon o (hp.mem_iff.2 ho) b hb (hr o ho b hb)
      exact ⟨b, hb, c1, c2, hin⟩
    have hnn : n.bb.NoNaN := by
      obtain ⟨o, ho⟩ := List.exists_mem_of_ne_nil ch hne
      obtain ⟨b, -, ⟨c1, c2, c3, c4, c5, c6⟩, -⟩ := hmem o ho
      have L : ∀ {a b : F}, (a <=. b) = true → GoFloat.isNaN a = false ∧ GoFloat.isNaN b = false := by
        intro a b h
        obtain ⟨x, y, hx, hy, -⟩ := (CmpModel.le_iff _ _).1 h
        exact ⟨notNaN_of hx, notNaN_of hy⟩
      exact ⟨nn_iff.2 ⟨(L c1).1, (L c3).1, (L c5).1⟩, nn_iff.2 ⟨(L c2).2, (L c4).2, (L c6).2⟩⟩
    refine ⟨⟨n.bb, by rw [Obj.bounds], hnn, fun p hPtp h => ?_⟩, fun _ _ _ _ h => by cases h⟩
    rw [Obj.inside] at h
    obtain ⟨o, ho, e⟩ := node_inside_mem n p h
    obtain ⟨b, -, ⟨c1, c2, c3, c4, c5, c6⟩, ⟨d1, d2, d3, d4, d5, d6⟩, hin⟩ := hmem o (hp.mem_iff.1 ho)
    obtain ⟨p1, p2, p3, p4, p5, p6⟩ := hin p hPtp e
    exact ⟨le_trans₃ c1 p1, le_trans₃ p2 d2, le_trans₃ c3 p3, le_trans₃ p4 d4, le_trans₃ c5 p5, le_trans₃ p6 d6⟩
  | withMaterial mat o ho ih =>
    obtain ⟨⟨b, hb, hn, hin⟩, -⟩ := ih
    exact ⟨⟨b, by rw [Obj.bounds, hb], hn, fun p hp h => hin p hp (by rwa [Obj.inside] at h)⟩, fun _ _ _ _ h => by cases h⟩
  | transformed o o' t ho ht h ih =>
    have main : ∀ (u : Obj F M) (s : Affine F), u.Plain → u.BoundsHold Pt → E s → u.mkTransformed s = .ok o' →
        o'.BoundsHold Pt ∧ ∀ b f i u, o' = .transformed b f i u → u.Plain ∧ u.BoundsHold Pt ∧ E f := by
      intro u s hu hub hs e
      obtain ⟨bb, b, h1, h2, rfl⟩ := u.mkTransformed_ok o' hu s e
      obtain ⟨bb', h1', hn, hin⟩ := hub
      rw [h1] at h1'; cases h1'
      refine ⟨⟨b, by rw [Obj.bounds], transform_noNaN h2, fun p hp hip => ?_⟩, fun b' f i u' e => ?_⟩
      · rw [Obj.inside] at hip
        exact hsound s bb b p hs hp hn h2 (hin _ (hpt s p hs hp) hip)
      · cases e
        exact ⟨hu, ⟨bb, h1, hn, hin⟩, hs⟩
    by_cases hpl : o.Plain
    · exact main o t hpl ih.1 ht h
    · simp only [Obj.Plain, ne_eq, not_forall, not_not] at hpl
      obtain ⟨b, f, i, u, rfl⟩ := hpl
      obtain ⟨hu, hub, hf⟩ := ih.2 _ _ _ _ rfl
      rw [Obj.mkTransformed] at h
      exact main u _ hu hub (hbef _ _ hf ht) h
  | and a b ha hb iha ihb =>
    obtain ⟨⟨ba, ea, na, ia⟩, -⟩ := iha
    obtain ⟨⟨bb, eb, nb, ib⟩, -⟩ := ihb
    refine ⟨⟨ba.inter bb, by rw [Obj.bounds, ea, eb]; rfl, (inter_spec na nb).1, fun p hp h => ?_⟩, fun _ _ _ _ h => by cases h⟩
    rw [Obj.inside] at h
    obtain ⟨h1, h2⟩ := and_true h
    exact (inter_spec na nb).2 p (ia p hp h1) (ib p hp h2)
  | or a b ha hb iha ihb =>
    obtain ⟨⟨ba, ea, na, ia⟩, -⟩ := iha
    obtain ⟨⟨bb, eb, nb, ib⟩, -⟩ := ihb
    refine ⟨⟨ba.union bb, by rw [Obj.bounds, ea, eb]; rfl, (union_spec na nb).1, fun p hp h => ?_⟩, fun _ _ _ _ h => by cases h⟩
    rw [Obj.inside] at h
    exact (union_spec na nb).2 p ((or_true' h).imp (ia p hp) (ib p hp))
  | restrict a b ha hb iha ihb =>
    obtain ⟨⟨ba, ea, na, ia⟩, -⟩ := iha
    obtain ⟨⟨bb, eb, nb, ib⟩, -⟩ := ihb
    refine ⟨⟨ba.inter bb, by rw [Obj.bounds, ea, eb]; rfl, (inter_spec na nb).1, fun p hp h => ?_⟩, fun _ _ _ _ h => by cases h⟩
    rw [Obj.inside] at h
    obtain ⟨h1, h2⟩ := and_true h
    exact (inter_spec na nb).2 p (ia p hp h1) (ib p hp h2)
  | not o ho ih =>
    exact ⟨⟨_, by rw [Obj.bounds], infBox_spec.1, fun p hp _ => infBox_spec.2 p (hPt p hp)⟩, fun _ _ _ _ h => by cases h⟩
  | hollow o ho ih =>
    obtain ⟨⟨b, hb, hn, hin⟩, -⟩ := ih
    refine ⟨⟨b, by rw [Obj.bounds, hb], hn, fun p hp h => ?_⟩, fun _ _ _ _ h => by cases h⟩
    rw [Obj.inside] at h; cases h
  | remapped o remap ho ih =>
    obtain ⟨⟨b, hb, hn, hin⟩, -⟩ := ih
    exact ⟨⟨b, by rw [Obj.bounds, hb], hn, fun p hp h => hin p hp (by rwa [Obj.inside] at h)⟩, fun _ _ _ _ h => by cases h⟩
  | prim isect inside bounds hn h =>
    refine ⟨⟨_, by rw [Obj.bounds], hn, fun p _ hp => ?_⟩, fun _ _ _ _ h => by cases h⟩
    rw [Obj.inside] at hp
    exact inside_contains (h p hp)

/-- **C18 in floating point.** In every arithmetic whose comparisons behave like Go's and whose
conversion to single precision is monotone: for every composition of constructors without
transformations, with tree members that have bounds representable in single precision, the bounding box
contains every point inside. -/
theorem C18_float_partial [InfModel F]
    (hmono : ∀ a b : F, (a <=. b) = true → (GoFloat.toF32 a <=. GoFloat.toF32 b) = true)
    (S : Sorter (Obj F M)) (o : Obj F M) (h : Built S (fun _ => False) o) :
    ∃ b, o.bounds = .ok b ∧ ∀ p : Vec F, p.isNaN = false → o.inside p = .ok true → b.Contains p := by
  obtain ⟨⟨b, hb, -, hin⟩, -⟩ := built_holds hmono S (fun _ => False) (fun p => p.isNaN = false) (fun _ h => h)
    (fun _ _ h => h.elim) (fun _ _ h => h.elim) (fun _ _ _ _ h => h.elim) o h
  exact ⟨b, hb, hin⟩

end cmp

/-! ## Exact arithmetic, with transformations -/

namespace Ext

private theorem mul_le_up {a q h : Ext} {α β : ℝ} (ha : a.Is α) (hα : 0 ≤ α) (hq : q.Is β)
    (hle : (q <=. h) = true) (hn : GoFloat.isNaN (a * h) = false) : (a * q <=. a * h) = true := by
  obtain ⟨s, rfl⟩ := ha
  obtain ⟨s', rfl⟩ := hq
  cases h with
  | nan => simp at hle
  | inf t =>
    simp only [num_le_inf, Bool.not_eq_true'] at hle
    subst hle
    rw [num_mul_inf] at hn ⊢
    split at hn
    · simp at hn
    · rename_i h0
      rw [num_mul_num, if_neg h0]
      have : 0 < α := lt_of_le_of_ne hα (Ne.symm h0)
      simp [sgn, h0, this.le]
  | num y t =>
    simp only [le_num, decide_eq_true_eq] at hle
    simp only [num_mul_num, le_num, decide_eq_true_eq]
    exact mul_le_mul_of_nonneg_left hle hα

private theorem mul_le_down {a q h : Ext} {α β : ℝ} (ha : a.Is α) (hα : α ≤ 0) (hq : q.Is β)
    (hle : (h <=. q) = true) (hn : GoFloat.isNaN (a * h) = false) : (a * q <=. a * h) = true := by
  obtain ⟨s, rfl⟩ := ha
  obtain ⟨s', rfl⟩ := hq
  cases h with
  | nan => simp at hle
  | inf t =>
    simp only [inf_le_num] at hle
    subst hle
    rw [num_mul_inf] at hn ⊢
    split at hn
    · simp at hn
    · rename_i h0
      rw [num_mul_num, if_neg h0]
      have : α < 0 := lt_of_le_of_ne hα h0
      simp [sgn, h0, this]
  | num y t =>
    simp only [le_num, decide_eq_true_eq] at hle
    simp only [num_mul_num, le_num, decide_eq_true_eq]
    exact mul_le_mul_of_nonpos_left hle hα

private theorem mul_ge_up {a q h : Ext} {α β : ℝ} (ha : a.Is α) (hα : 0 ≤ α) (hq : q.Is β)
    (hle : (h <=. q) = true) (hn : GoFloat.isNaN (a * h) = false) : (a * h <=. a * q) = true := by
  obtain ⟨s, rfl⟩ := ha
  obtain ⟨s', rfl⟩ := hq
  cases h with
  | nan => simp at hle
  | inf t =>
    simp only [inf_le_num] at hle
    subst hle
    rw [num_mul_inf] at hn ⊢
    split at hn
    · simp at hn
    · rename_i h0
      rw [num_mul_num, if_neg h0]
      have : 0 < α := lt_of_le_of_ne hα (Ne.symm h0)
      simp [sgn, h0, this.le]
  | num y t =>
    simp only [le_num, decide_eq_true_eq] at hle
    simp only [num_mul_num, le_num, decide_eq_true_eq]
    exact mul_le_mul_of_nonneg_left hle hα

private theorem mul_ge_down {a q h : Ext} {α β : ℝ} (ha : a.Is α) (hα : α ≤ 0) (hq : q.Is β)
    (hle : (q <=. h) = true) (hn : GoFloat.isNaN (a * h) = false) : (a * h <=. a * q) = true := by
  obtain ⟨s, rfl⟩ := ha
  obtain ⟨s', rfl⟩ := hq
  cases h with
  | nan => simp at hle
  | inf t =>
    simp only [num_le_inf, Bool.not_eq_true'] at hle
    subst hle
    rw [num_mul_inf] at hn ⊢
    split at hn
    · simp at hn
    · rename_i h0
      rw [num_mul_num, if_neg h0]
      have : α < 0 := lt_of_le_of_ne hα h0
      simp [sgn, h0, this]
  | num y t =>
    simp only [le_num, decide_eq_true_eq] at hle
    simp only [num_mul_num, le_num, decide_eq_true_eq]
    exact mul_le_mul_of_nonpos_left hle hα

private theorem add_notNaN {a b : Ext} (h : GoFloat.isNaN (a + b) = false) :
    GoFloat.isNaN a = false ∧ GoFloat.isNaN b = false := by
  cases a <;> cases b <;> simp_all

private theorem add_le {u v u' v' : Ext} {α β : ℝ} (hu : u.Is α) (hv : v.Is β) (h1 : (u <=. u') = true)
    (h2 : (v <=. v') = true) (hn : GoFloat.isNaN (u' + v') = false) : (u + v <=. u' + v') = true := by
  obtain ⟨s, rfl⟩ := hu
  obtain ⟨s', rfl⟩ := hv
  cases u' with
  | nan => simp at h1
  | inf t =>
    simp at h1; subst h1
    cases v' with
    | nan => simp at h2
    | inf t' => simp at h2; subst h2; simp [num_add_num]
    | num y t' => simp [num_add_num]
  | num x t =>
    cases v' with
    | nan => simp at h2
    | inf t' => simp at h2; subst h2; simp [num_add_num]
    | num y t' =>
      simp at h1 h2
      simp only [num_add_num, le_num, decide_eq_true_eq]
      linarith

private theorem le_add {u v u' v' : Ext} {α β : ℝ} (hu : u.Is α) (hv : v.Is β) (h1 : (u' <=. u) = true)
    (h2 : (v' <=. v) = true) (hn : GoFloat.isNaN (u' + v') = false) : (u' + v' <=. u + v) = true := by
  obtain ⟨s, rfl⟩ := hu
  obtain ⟨s', rfl⟩ := hv
  cases u' with
  | nan => simp at h1
  | inf t =>
    simp at h1; subst h1
    cases v' with
    | nan => simp at h2
    | inf t' => simp at h2; subst h2; simp [num_add_num]
    | num y t' => simp [num_add_num]
  | num x t =>
    cases v' with
    | nan => simp at h2
    | inf t' => simp at h2; subst h2; simp [num_add_num]
    | num y t' =>
      simp at h1 h2
      simp only [num_add_num, le_num, decide_eq_true_eq]
      linarith

/-- One coordinate of an affine map. -/
private noncomputable def row (a b c d x y z : Ext) : Ext := a * x + b * y + c * z + d

private theorem row_le {a b c d x y z : Ext} {α β γ δ X Y Z : ℝ} (ha : a.Is α) (hb : b.Is β) (hc : c.Is γ)
    (hd : d.Is δ) (hx : x.Is X) (hy : y.Is Y) (hz : z.Is Z) {x0 x1 y0 y1 z0 z1 m : Ext}
    (x0x : (x0 <=. x) = true) (xx1 : (x <=. x1) = true) (y0y : (y0 <=. y) = true) (yy1 : (y <=. y1) = true)
    (z0z : (z0 <=. z) = true) (zz1 : (z <=. z1) = true)
    (h : ∀ u ∈ [x0, x1], ∀ v ∈ [y0, y1], ∀ w ∈ [z0, z1], (row a b c d u v w <=. m) = true) :
    (row a b c d x y z <=. m) = true := by
  have pick : ∀ {e q q0 q1 : Ext} {ε κ : ℝ}, e.Is ε → q.Is κ → (q0 <=. q) = true → (q <=. q1) = true →
      ∃ u ∈ [q0, q1], GoFloat.isNaN (e * u) = false → (e * q <=. e * u) = true := by
    intro e q q0 q1 ε κ he hq h0 h1
    rcases le_total 0 ε with h | h
    · exact ⟨q1, by simp, mul_le_up he h hq h1⟩
    · exact ⟨q0, by simp, mul_le_down he h hq h0⟩
  obtain ⟨u, hu, lu⟩ := pick ha hx x0x xx1
  obtain ⟨v, hv, lv⟩ := pick hb hy y0y yy1
  obtain ⟨w, hw, lw⟩ := pick hc hz z0z zz1
  have hm := h u hu v hv w hw
  have hnn : GoFloat.isNaN (row a b c d u v w) = false := by
    generalize row a b c d u v w = k at hm
    cases k <;> simp_all
  unfold row at hnn hm
  obtain ⟨n1, -⟩ := add_notNaN hnn
  obtain ⟨n2, n3⟩ := add_notNaN n1
  obtain ⟨n4, n5⟩ := add_notNaN n2
  have e1 := add_le (ha.mul hx) (hb.mul hy) (lu n4) (lv n5) n2
  have e2 := add_le ((ha.mul hx).add (hb.mul hy)) (hc.mul hz) e1 (lw n3) n1
  have dd : (d <=. d) = true := by obtain ⟨s, rfl⟩ := hd; simp
  have e3 := add_le (((ha.mul hx).add (hb.mul hy)).add (hc.mul hz)) hd e2 dd hnn
  obtain ⟨i, j, k1, k2, l1⟩ := (CmpModel.le_iff _ _).1 e3
  obtain ⟨i', j', k1', k2', l2⟩ := (CmpModel.le_iff _ _).1 hm
  rw [k2] at k1'; cases k1'
  exact (CmpModel.le_iff _ _).2 ⟨i, j', k1, k2', l1.trans l2⟩

private theorem le_row {a b c d x y z : Ext} {α β γ δ X Y Z : ℝ} (ha : a.Is α) (hb : b.Is β) (hc : c.Is γ)
    (hd : d.Is δ) (hx : x.Is X) (hy : y.Is Y) (hz : z.Is Z) {x0 x1 y0 y1 z0 z1 m : Ext}
    (x0x : (x0 <=. x) = true) (xx1 : (x <=. x1) = true) (y0y : (y0 <=. y) = true) (yy1 : (y <=. y1) = true)
    (z0z : (z0 <=. z) = true) (zz1 : (z <=. z1) = true)
    (h : ∀ u ∈ [x0, x1], ∀ v ∈ [y0, y1], ∀ w ∈ [z0, z1], (m <=. row a b c d u v w) = true) :
    (m <=. row a b c d x y z) = true := by
  have pick : ∀ {e q q0 q1 : Ext} {ε κ : ℝ}, e.Is ε → q.Is κ → (q0 <=. q) = true → (q <=. q1) = true →
      ∃ u ∈ [q0, q1], GoFloat.isNaN (e * u) = false → (e * u <=. e * q) = true := by
    intro e q q0 q1 ε κ he hq h0 h1
    rcases le_total 0 ε with h | h
    · exact ⟨q0, by simp, mul_ge_up he h hq h0⟩
    · exact ⟨q1, by simp, mul_ge_down he h hq h1⟩
  obtain ⟨u, hu, lu⟩ := pick ha hx x0x xx1
  obtain ⟨v, hv, lv⟩ := pick hb hy y0y yy1
  obtain ⟨w, hw, lw⟩ := pick hc hz z0z zz1
  have hm := h u hu v hv w hw
  have hnn : GoFloat.isNaN (row a b c d u v w) = false := by
    generalize row a b c d u v w = k at hm
    cases k <;> simp_all
  unfold row at hnn hm
  obtain ⟨n1, -⟩ := add_notNaN hnn
  obtain ⟨n2, n3⟩ := add_notNaN n1
  obtain ⟨n4, n5⟩ := add_notNaN n2
  have e1 := le_add (ha.mul hx) (hb.mul hy) (lu n4) (lv n5) n2
  have e2 := le_add ((ha.mul hx).add (hb.mul hy)) (hc.mul hz) e1 (lw n3) n1
  have dd : (d <=. d) = true := by obtain ⟨s, rfl⟩ := hd; simp
  have e3 := le_add (((ha.mul hx).add (hb.mul hy)).add (hc.mul hz)) hd e2 dd hnn
  obtain ⟨i, j, k1, k2, l1⟩ := (CmpModel.le_iff _ _).1 e3
  obtain ⟨i', j', k1', k2', l2⟩ := (CmpModel.le_iff _ _).1 hm
  rw [k2'] at k1; cases k1
  exact (CmpModel.le_iff _ _).2 ⟨i', j, k1', k2, l2.trans l1⟩

end Ext

/-- A box image contains the image of every finite point of the box, also when the box is unbounded
(and the image can be computed). -/
private theorem transform_contains {bb b : BBox Ext} {t : Affine Ext} {T : Affine ℝ} (ht : t.Is T)
    (h : bb.transform t = .ok b) {q : Vec Ext} {Q : Vec ℝ} (hq : q.Is Q) (hc : bb.Contains q) :
    b.Contains (t.point q) := by
  have hn : ∀ v ∈ bb.hull.map t.point, v.isNaN = false := by
    intro v hv
    by_contra hcn
    obtain ⟨e, he⟩ := C20_nan _ v hv (by simpa using hcn)
    rw [BBox.transform, he] at h; cases h
  obtain ⟨b', hb', hcon, -⟩ := C20_hull (bb.hull.map t.point) (by simp [BBox.hull]) hn
  rw [BBox.transform, hb'] at h; cases h
  have corner : ∀ u ∈ [bb.min.x, bb.max.x], ∀ v ∈ [bb.min.y, bb.max.y], ∀ w ∈ [bb.min.z, bb.max.z],
      b.Contains (t.point ⟨u, v, w⟩) := by
    intro u hu v hv w hw
    apply hcon
    apply List.mem_map_of_mem
    simp only [List.mem_cons, List.not_mem_nil, or_false] at hu hv hw
    rcases hu with rfl | rfl <;> rcases hv with rfl | rfl <;> rcases hw with rfl | rfl <;> simp [BBox.hull]
  obtain ⟨⟨⟨a1, a2, a3⟩, ⟨b1, b2, b3⟩, c1, c2, c3⟩, d1, d2, d3⟩ := ht
  obtain ⟨p1, p2, p3, p4, p5, p6⟩ := hc
  obtain ⟨q1, q2, q3⟩ := hq
  refine ⟨?_, ?_, ?_, ?_, ?_, ?_⟩
  · exact Ext.le_row a1 b1 c1 d1 q1 q2 q3 p1 p2 p3 p4 p5 p6 fun u hu v hv w hw => (corner u hu v hv w hw).1
  · exact Ext.row_le a1 b1 c1 d1 q1 q2 q3 p1 p2 p3 p4 p5 p6 fun u hu v hv w hw => (corner u hu v hv w hw).2.1
  · exact Ext.le_row a2 b2 c2 d2 q1 q2 q3 p1 p2 p3 p4 p5 p6 fun u hu v hv w hw => (corner u hu v hv w hw).2.2.1
  · exact Ext.row_le a2 b2 c2 d2 q1 q2 q3 p1 p2 p3 p4 p5 p6 fun u hu v hv w hw => (corner u hu v hv w hw).2.2.2.1
  · exact Ext.le_row a3 b3 c3 d3 q1 q2 q3 p1 p2 p3 p4 p5 p6 fun u hu v hv w hw => (corner u hu v hv w hw).2.2.2.2.1
  · exact Ext.row_le a3 b3 c3 d3 q1 q2 q3 p1 p2 p3 p4 p5 p6 fun u hu v hv w hw => (corner u hu v hv w hw).2.2.2.2.2

/-- **C18 in exact arithmetic.** For every composition of constructors, with invertible transforms, the
bounding box contains every (finite) point inside. What is missing from the full property is rounding:
see `C18_float_partial` and `C18_violated_float32`. -/
theorem C18_exact_partial {M : Type} (S : Sorter (Obj Ext M)) (o : Obj Ext M)
    (h : Built S (fun t => ∃ T : Affine ℝ, t.Is T ∧ T.A.det ≠ 0) o) :
    ∃ b, o.bounds = .ok b ∧ ∀ (p : Vec Ext) (P : Vec ℝ), p.Is P → o.inside p = .ok true → b.Contains p := by
  obtain ⟨⟨b, hb, -, hin⟩, -⟩ := built_holds (F := Ext) (fun _ _ h => h) S (fun t => ∃ T : Affine ℝ, t.Is T ∧ T.A.det ≠ 0)
    (fun p => ∃ P, p.Is P) (fun p ⟨P, h1, h2, h3⟩ => by
      obtain ⟨s1, e1⟩ := h1
      obtain ⟨s2, e2⟩ := h2
      obtain ⟨s3, e3⟩ := h3
      simp [Vec.isNaN, e1, e2, e3])
    (fun t s ⟨T, hT, hd⟩ ⟨T', hT', hd'⟩ => ⟨_, hT.before hT', by
      rw [Affine.before, Matrix.det_mul]; exact mul_ne_zero hd' hd⟩)
    (fun t p ⟨T, hT, hd⟩ ⟨P, hP⟩ => ⟨_, (hT.inverse hd).point hP⟩)
    (fun t bb b p ⟨T, hT, hd⟩ ⟨P, hP⟩ _ htr hc => by
      have hq := (hT.inverse hd).point hP
      have h1 := transform_contains hT htr hq hc
      have h2 := hT.point hq
      rw [(C27_inverse_point T hd P).2] at h2
      have tr : ∀ {a c : Ext} {x : ℝ}, a.Is x → c.Is x → ∀ m : Ext, ((m <=. a) = (m <=. c)) ∧ ((a <=. m) = (c <=. m)) := by
        rintro a c x ⟨s, rfl⟩ ⟨s', rfl⟩ m
        cases m <;> simp
      obtain ⟨c1, c2, c3, c4, c5, c6⟩ := h1
      obtain ⟨x1, x2, x3⟩ := h2
      obtain ⟨y1, y2, y3⟩ := hP
      refine ⟨?_, ?_, ?_, ?_, ?_, ?_⟩
      · rw [← (tr x1 y1 _).1]; exact c1
      · rw [← (tr x1 y1 _).2]; exact c2
      · rw [← (tr x2 y2 _).1]; exact c3
      · rw [← (tr x2 y2 _).2]; exact c4
      · rw [← (tr x3 y3 _).1]; exact c5
      · rw [← (tr x3 y3 _).2]; exact c6) o h
  exact ⟨b, hb, fun p P hP => hin p ⟨P, hP⟩⟩

/-! ## Non-vacuity -/

open Ext in
/-- A cube, shifted, with a sphere cut out, in a tree, with a material: built by constructors. -/
example (S : Sorter (Obj Ext Unit)) : ∃ o t l,
    (Obj.boxWithBounds none ⟨fin 0, fin 0, fin 0⟩ ⟨fin 1, fin 1, fin 1⟩ : Obj Ext Unit).translate ⟨fin 5, fin 0, fin 0⟩ = .ok o ∧
    mkTree S [.and o (.not (.sphere none (fin 1) ⟨fin 0, fin 0, fin 0⟩))] = .ok (t, l) ∧
    Built S (fun t => ∃ T : Affine ℝ, t.Is T ∧ T.A.det ≠ 0) (.withMaterial (some ()) t) := by
  have hplain : (Obj.boxWithBounds none ⟨fin 0, fin 0, fin 0⟩ ⟨fin 1, fin 1, fin 1⟩ : Obj Ext Unit).Plain :=
    fun _ _ _ _ h => by cases h
  have hbI : (⟨⟨fin 0, fin 0, fin 0⟩, ⟨fin 1, fin 1, fin 1⟩⟩ : BBox Ext).Is ⟨⟨0, 0, 0⟩, ⟨1, 1, 1⟩⟩ :=
    ⟨⟨⟨_, rfl⟩, ⟨_, rfl⟩, ⟨_, rfl⟩⟩, ⟨_, rfl⟩, ⟨_, rfl⟩, ⟨_, rfl⟩⟩
  have hvI : (⟨fin 5, fin 0, fin 0⟩ : Vec Ext).Is ⟨5, 0, 0⟩ := ⟨⟨_, rfl⟩, ⟨_, rfl⟩, ⟨_, rfl⟩⟩
  have hT := Affine.Is.translate hvI
  obtain ⟨b1, B1, e1, -, hb1⟩ := BBox.transform_is hbI hT
  obtain ⟨o, ho⟩ : ∃ o, (Obj.boxWithBounds none ⟨fin 0, fin 0, fin 0⟩ ⟨fin 1, fin 1, fin 1⟩ : Obj Ext Unit).translate
      ⟨fin 5, fin 0, fin 0⟩ = .ok o := by
    refine ⟨.transformed b1 (Affine.translate ⟨fin 5, fin 0, fin 0⟩) (Affine.translate ⟨fin 5, fin 0, fin 0⟩).inverse
      (Obj.boxWithBounds none ⟨fin 0, fin 0, fin 0⟩ ⟨fin 1, fin 1, fin 1⟩), ?_⟩
    rw [Obj.translate, Obj.mkTransformed_plain _ hplain]
    change (BBox.transform _ _ >>= _) = _
    rw [e1, ok_bind]; rfl
  have hE : ∃ T : Affine ℝ, (Affine.translate (⟨fin 5, fin 0, fin 0⟩ : Vec Ext)).Is T ∧ T.A.det ≠ 0 :=
    ⟨_, hT, by norm_num [Affine.translate, Matrix.det]⟩
  have hbox : Built S (fun t => ∃ T : Affine ℝ, t.Is T ∧ T.A.det ≠ 0)
      (Obj.boxWithBounds none ⟨fin 0, fin 0, fin 0⟩ ⟨fin 1, fin 1, fin 1⟩ : Obj Ext Unit) :=
    .box _ _ (by simp [BBox.NoNaN, Vec.isNaN, fin])
  have hsph : Built S (fun t => ∃ T : Affine ℝ, t.Is T ∧ T.A.det ≠ 0)
      (.sphere none (fin 1) ⟨fin 0, fin 0, fin 0⟩ : Obj Ext Unit) := by
    refine .quadric _ ?_
    norm_num [BBox.NoNaN, Vec.isNaN, fin, Obj.sphereQ, BBox.withMargin, BBox.translated, Vec.add, tiny, num_div_num,
      neg_num, num_add_num]
  have hm := Built.and _ _ (.transformed _ _ _ hbox hE ho) (.not _ hsph)
  obtain ⟨⟨b, hb, hn, -⟩, -⟩ := built_holds (F := Ext) (fun _ _ h => h) S (fun t => ∃ T : Affine ℝ, t.Is T ∧ T.A.det ≠ 0)
    (fun _ => False) (fun _ h => h.elim)
    (fun t s ⟨T, hT, hd⟩ ⟨T', hT', hd'⟩ => ⟨_, hT.before hT', by
      rw [Affine.before, Matrix.det_mul]; exact mul_ne_zero hd' hd⟩) (fun _ _ _ h => h) (fun _ _ _ _ _ h => h.elim) _ hm
  obtain ⟨bb, hbb⟩ := makeBoundingBox_ok [o.and (.not (.sphere none (fin 1) ⟨fin 0, fin 0, fin 0⟩))] (by simp) (by
    intro o ho
    rw [List.mem_singleton] at ho
    subst ho
    exact ⟨b, hb, hn⟩)
  have ht : mkTree S [o.and (.not (.sphere none (fin 1) ⟨fin 0, fin 0, fin 0⟩))] = .ok
      (.tree (.leaf bb.toF [o.and (.not (.sphere none (fin 1) ⟨fin 0, fin 0, fin 0⟩))]),
       [o.and (.not (.sphere none (fin 1) ⟨fin 0, fin 0, fin 0⟩))]) := by
    rw [mkTree, buildTree, if_pos (by simp [maxFacePerLeaf]), hbb]; rfl
  refine ⟨_, _, _, ho, ht, .withMaterial _ _ ?_⟩
  refine .tree _ _ _ (fun o ho => ?_) (fun _ _ _ _ => rfl) ht
  rw [List.mem_singleton] at ho
  subst ho
  exact hm

/-! ## Violation -/

open Flo in
/-- **C18, violated by single precision.** A point inside an object, hence inside the tree that contains
only this object, but outside the bounding box of the tree. -/
theorem C18_violated_float32 (S : Sorter (Obj Flo Unit)) :
    ∃ (o t : Obj Flo Unit) (l : List (Obj Flo Unit)) (b : BBox Flo) (p : Vec Flo),
      mkTree S [o] = .ok (t, l) ∧ o.inside p = .ok true ∧ t.inside p = .ok true ∧ t.bounds = .ok b ∧ ¬ b.Contains p := by
  have hp : edgeBox.inside ⟨⟨.num (1 + 1 / 2 ^ 26) false⟩, ⟨.num (1 / 2) false⟩, ⟨.num (1 / 2) false⟩⟩ = true := by
    norm_num [BBox.inside, edgeBox, show ∀ a b : Ext, ((⟨a⟩ : Flo) <. ⟨b⟩) = (a <. b) from fun _ _ => rfl]
  have ho : (Obj.box edgeBox none : Obj Flo Unit).inside
      ⟨⟨.num (1 + 1 / 2 ^ 26) false⟩, ⟨.num (1 / 2) false⟩, ⟨.num (1 / 2) false⟩⟩ = .ok true := by
    rw [Obj.inside, hp]
  refine ⟨.box edgeBox none, .tree (.leaf edgeBox.toF [.box edgeBox none]), [.box edgeBox none], edgeBox.toF, _,
    ?_, ho, ?_, by rw [Obj.bounds]; rfl, ?_⟩
  · rw [mkTree, buildTree, if_pos (by simp [maxFacePerLeaf]), edge_bounds]; rfl
  · rw [Obj.inside, Node.inside, Obj.anyInside, ho]; rfl
  · rintro ⟨-, h, -⟩
    change ((⟨.num (1 + 1 / 2 ^ 26) false⟩ : Flo) <=. GoFloat.toF32 (⟨.num (1 + 1 / 2 ^ 25) false⟩ : Flo)) = true at h
    rw [f32_edge] at h
    change (Ext.num _ _ <=. Ext.num _ _) = true at h
    norm_num at h

end BR
