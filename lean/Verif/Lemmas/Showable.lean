import Verif.Lemmas.Sturdy
import Verif.Model.Construct
import Verif.Model.Texture

/-! The constructors of the library make objects and lamps that can be shown. -/

namespace BR
set_option linter.unusedSectionVars false

variable {F S M : Type} [Add F] [Sub F] [Mul F] [Div F] [Neg F] [GoFloat F]

theorem allSturdy_iff (os : List (Obj F M)) : Obj.AllSturdy os ↔ ∀ o ∈ os, o.Sturdy := by
  induction os with
  | nil => simp [Obj.AllSturdy]
  | cons o os ih => rw [Obj.AllSturdy, ih]; simp

theorem allDecide_iff (os : List (Obj F M)) : Obj.AllDecide os ↔ ∀ o ∈ os, o.Decides := by
  induction os with
  | nil => simp [Obj.AllDecide]
  | cons o os ih => rw [Obj.AllDecide, ih]; simp

theorem allWear_iff (P : M → Prop) (os : List (Obj F M)) : Obj.AllWear P os ↔ ∀ o ∈ os, o.Wears P := by
  induction os with
  | nil => simp [Obj.AllWear]
  | cons o os ih => rw [Obj.AllWear, ih]; simp

/-- A property of nodes that holds of leafs with good members and inner nodes with good children holds of the tree. -/
theorem buildTree_prop {Q : Obj F M → Prop} {N : Node F M → Prop} (hleaf : ∀ bb os, (∀ o ∈ os, Q o) → N (.leaf bb os))
    (hinner : ∀ bb a b, N a → N b → N (.inner bb a b)) (Srt : Sorter (Obj F M)) (n : Nat) (ch : List (Obj F M))
    (hn : ch.length ≤ n) (hch : ∀ o ∈ ch, Q o) (root : Node F M) (l : List (Obj F M))
    (e : buildTree Srt ch = .ok (root, l)) : N root := by
  induction n generalizing ch root l with
  | zero =>
    rw [buildTree, if_pos (show ch.length ≤ maxFacePerLeaf by unfold maxFacePerLeaf; omega)] at e
    obtain ⟨bb, -, e⟩ := bind_eq_ok.1 e
    cases e
    exact hleaf _ _ hch
  | succ n ih =>
    rw [buildTree] at e
    split at e
    · obtain ⟨bb, -, e⟩ := bind_eq_ok.1 e
      cases e
      exact hleaf _ _ hch
    next hlen =>
      obtain ⟨bb, -, e⟩ := bind_eq_ok.1 e
      dsimp only at e
      obtain ⟨⟨a, la⟩, ea, e⟩ := bind_eq_ok.1 e
      obtain ⟨⟨b, lb⟩, eb, e⟩ := bind_eq_ok.1 e
      cases e
      have hp := Srt.perm (argMax (bb.max.sub bb.min)) ch
      unfold maxFacePerLeaf at hlen
      have hl := hp.length_eq
      refine hinner _ _ _ (ih _ ?_ ?_ _ _ ea) (ih _ ?_ ?_ _ _ eb)
      · rw [List.length_take]; omega
      · exact fun o ho => hch o (hp.mem_iff.1 (List.mem_of_mem_take ho))
      · rw [List.length_drop]; omega
      · exact fun o ho => hch o (hp.mem_iff.1 (List.mem_of_mem_drop ho))

theorem buildTree_sturdy (Srt : Sorter (Obj F M)) (ch : List (Obj F M)) (hch : ∀ o ∈ ch, o.Sturdy) (root : Node F M)
    (l : List (Obj F M)) (e : buildTree Srt ch = .ok (root, l)) : root.Sturdy :=
  buildTree_prop (fun bb os h => by rw [Node.Sturdy]; exact (allSturdy_iff os).2 h)
    (fun bb a b ha hb => by rw [Node.Sturdy]; exact ⟨ha, hb⟩) Srt _ ch le_rfl hch root l e

theorem buildTree_decides (Srt : Sorter (Obj F M)) (ch : List (Obj F M)) (hch : ∀ o ∈ ch, o.Decides) (root : Node F M)
    (l : List (Obj F M)) (e : buildTree Srt ch = .ok (root, l)) : root.Decides :=
  buildTree_prop (fun bb os h => by rw [Node.Decides]; exact (allDecide_iff os).2 h)
    (fun bb a b ha hb => by rw [Node.Decides]; exact ⟨ha, hb⟩) Srt _ ch le_rfl hch root l e

theorem buildTree_wears (P : M → Prop) (Srt : Sorter (Obj F M)) (ch : List (Obj F M)) (hch : ∀ o ∈ ch, o.Wears P)
    (root : Node F M) (l : List (Obj F M)) (e : buildTree Srt ch = .ok (root, l)) : root.Wears P :=
  buildTree_prop (fun bb os h => by rw [Node.Wears]; exact (allWear_iff P os).2 h)
    (fun bb a b ha hb => by rw [Node.Wears]; exact ⟨ha, hb⟩) Srt _ ch le_rfl hch root l e

theorem faces_mapM (vs : List (Vertex F)) (faces : List Tri) (fs : List (Obj F M)) (e : faces.mapM (faceObj vs) = .ok fs) :
    ∀ o ∈ fs, ∃ a b c, o = (.face a b c : Obj F M) := by
  induction faces generalizing fs with
  | nil => simp only [List.mapM_nil, pure_ok, Except.ok.injEq] at e; subst e; simp
  | cons f faces ih =>
    rw [List.mapM_cons] at e
    obtain ⟨x, ex, e⟩ := bind_eq_ok.1 e
    obtain ⟨ys, ey, e⟩ := bind_eq_ok.1 e
    simp only [pure_ok, Except.ok.injEq] at e
    subst e
    intro o ho
    rcases List.mem_cons.1 ho with rfl | ho
    · unfold faceObj at ex
      split at ex
      · cases ex; exact ⟨_, _, _, rfl⟩
      · cases ex
    · exact ih ys ey o ho

variable {m : Mat F} (hm : m.Total) (Srt : Sorter (Obj F (Mat F)))
include hm

theorem quadric_good (q : Quadric F (Mat F)) (hq : q.mat = some m) : (Obj.quadric q).Good :=
  ⟨⟨by rw [Obj.Sturdy]; trivial, by rw [Obj.Wears]; exact ⟨m, hq, hm⟩⟩, by rw [Obj.Decides]; trivial⟩

theorem meshObj_good (vs : List (Vertex F)) (faces : List Tri) (o : Obj F (Mat F))
    (e : meshObj Srt (some m) vs faces = .ok o) : o.Good := by
  unfold meshObj at e
  dsimp only at e
  obtain ⟨fs, efs, e⟩ := bind_eq_ok.1 e
  obtain ⟨⟨t, l⟩, et, e⟩ := bind_eq_ok.1 e
  simp only [pure_ok, Except.ok.injEq] at e
  subst e
  unfold mkTree at et
  obtain ⟨⟨root, l'⟩, eb, et⟩ := bind_eq_ok.1 et
  simp only [pure_ok, Except.ok.injEq, Prod.mk.injEq] at et
  have hf := faces_mapM _ faces fs efs
  rw [← et.1]
  refine ⟨⟨?_, ?_⟩, ?_⟩
  · rw [Obj.Sturdy, Obj.Sturdy]
    refine buildTree_sturdy Srt fs (fun o ho => ?_) _ _ eb
    obtain ⟨a, b, c, rfl⟩ := hf o ho
    rw [Obj.Sturdy]; trivial
  · rw [Obj.Wears]; exact ⟨m, rfl, hm⟩
  · rw [Obj.Decides, Obj.Decides]
    refine buildTree_decides Srt fs (fun o ho => ?_) _ _ eb
    obtain ⟨a, b, c, rfl⟩ := hf o ho
    rw [Obj.Decides]; trivial

theorem meshWithUV_good (vertices : List (Vec F)) (faceIdx : List (Int × Int × Int)) (UV : Option (List (F × F)))
    (o : Obj F (Mat F)) (e : meshWithUV Srt (some m) vertices faceIdx UV = .ok o) : o.Good := by
  unfold meshWithUV at e
  obtain ⟨vs, -, e⟩ := bind_eq_ok.1 e
  obtain ⟨faces, -, e⟩ := bind_eq_ok.1 e
  exact meshObj_good hm Srt _ _ _ e

theorem rectangle_good (width depth : F) (center : Vec F) (o : Obj F (Mat F))
    (e : rectangle Srt (some m) width depth center = .ok o) : o.Good := meshWithUV_good hm Srt _ _ _ _ e

theorem disk_good (diam : F) (center : Vec F) (o : Obj F (Mat F)) (e : disk Srt (some m) diam center = .ok o) : o.Good := by
  unfold disk at e
  obtain ⟨r, er, e⟩ := bind_eq_ok.1 e
  simp only [pure_ok, Except.ok.injEq] at e
  subst e
  obtain ⟨⟨h1, h2⟩, h3⟩ := rectangle_good hm Srt _ _ _ _ er
  have hc : (Obj.cylinder (none : Option (Mat F)) diam (lit 8 * tiny) center).Decides := by
    unfold Obj.cylinder; rw [Obj.Decides]; trivial
  exact ⟨⟨by rw [Obj.Sturdy]; exact ⟨h1, hc⟩, by rw [Obj.Wears]; exact h2⟩, by rw [Obj.Decides]; exact ⟨h3, hc⟩⟩

theorem plyObj_good (v : List (Vec F)) (f : List (List Int)) (o : Obj F (Mat F)) (e : plyObj Srt (some m) v f = .ok o) :
    o.Good := by
  unfold plyObj at e
  obtain ⟨f2, -, e⟩ := bind_eq_ok.1 e
  exact meshWithUV_good hm Srt _ _ _ _ e

theorem parametric_good (numU numV : Nat) (f : F → F → Vec F) (o : Obj F (Mat F))
    (e : parametric Srt (some m) numU numV f = .ok o) : o.Good := by
  unfold parametric at e
  split at e
  · cases e
  · obtain ⟨_, -, e⟩ := bind_eq_ok.1 e
    obtain ⟨_, -, e⟩ := bind_eq_ok.1 e
    obtain ⟨_, -, e⟩ := bind_eq_ok.1 e
    obtain ⟨_, -, e⟩ := bind_eq_ok.1 e
    exact meshObj_good hm Srt _ _ _ e

omit hm

theorem transformed_good (t : Affine F) (o o' : Obj F (Mat F)) (ho : o.Good) (e : o.mkTransformed t = .ok o') : o'.Good := by
  have base : ∀ (o o' : Obj F (Mat F)) (t : Affine F), o.Good → (do
      let bb ← o.bounds
      let bounds ← bb.transform t
      return .transformed bounds t t.inverse o : GoM (Obj F (Mat F))) = .ok o' → o'.Good := by
    intro o o' t ho e
    obtain ⟨bb, -, e⟩ := bind_eq_ok.1 e
    obtain ⟨bounds, -, e⟩ := bind_eq_ok.1 e
    simp only [pure_ok, Except.ok.injEq] at e
    subst e
    exact ⟨⟨by rw [Obj.Sturdy]; exact ho.1.1, by rw [Obj.Wears]; exact ho.1.2⟩, by rw [Obj.Decides]; exact ho.2⟩
  revert t
  cases o with
  | transformed b f i o =>
    intro t e
    have ho' : o.Good := by
      obtain ⟨⟨h1, h2⟩, h3⟩ := ho
      rw [Obj.Sturdy] at h1
      rw [Obj.Wears] at h2
      rw [Obj.Decides] at h3
      exact ⟨⟨h1, h2⟩, h3⟩
    rw [Obj.mkTransformed] at e
    exact transformed_good (f.before t) o o' ho' e
  | _ => intro t e; exact base _ _ t ho e

/-! ## Lamps -/

theorem mkPlanar_good (brightness : Color F) (w h : F) (center : Vec F) (relSurf : F) (rst : Option (Obj F (Mat F)))
    (hr : ∀ o, rst = some o → o.Decides) (ts : F → F → F × F) (l : Light F)
    (e : Light.mkPlanar Srt brightness w h center relSurf rst ts = .ok l) : l.object.Good := by
  unfold Light.mkPlanar at e
  dsimp only at e
  obtain ⟨rect, er, e⟩ := bind_eq_ok.1 e
  simp only [pure_ok, Except.ok.injEq] at e
  subst e
  have hmat : (Mat.twoSided (.flat brightness.tex) (.flat (⟨lit 0, lit 0, lit 0⟩ : Color F).tex)).Total := by
    simp only [Mat.Total]
    exact ⟨fun p => ⟨_, rfl⟩, fun p => ⟨_, rfl⟩⟩
  obtain ⟨⟨h1, h2⟩, h3⟩ := rectangle_good hmat Srt _ _ _ _ er
  have hd : (rst.getD .allSpace).Decides := by
    cases rst with
    | none => rw [Option.getD, Obj.Decides]; trivial
    | some o => exact hr o rfl
  exact ⟨⟨by rw [Light.object, Obj.Sturdy]; exact ⟨h1, hd⟩, by rw [Light.object, Obj.Wears]; exact h2⟩,
    by rw [Light.object, Obj.Decides]; exact ⟨h3, hd⟩⟩

theorem rectangleLight_good (brightness : Color F) (w h : F) (center : Vec F) (l : Light F)
    (e : Light.rectangleLight Srt brightness w h center = .ok l) : l.object.Good :=
  mkPlanar_good Srt _ _ _ _ _ _ (fun o h => by cases h) _ _ e

theorem diskLight_good (brightness : Color F) (diam : F) (center : Vec F) (l : Light F)
    (e : Light.diskLight Srt brightness diam center = .ok l) : l.object.Good :=
  mkPlanar_good Srt _ _ _ _ _ _ (fun o h => by
    cases h; unfold Obj.cylinder; rw [Obj.Decides]; trivial) _ _ e

theorem lightTransformed_good (t : Affine F) (l l' : Light F) (hl : l.object.Good) (e : l.mkTransformed t = .ok l') :
    l'.object.Good := by
  cases l with
  | point p q => cases e
  | _ =>
    unfold Light.mkTransformed at e
    dsimp only at e
    obtain ⟨o, eo, e⟩ := bind_eq_ok.1 e
    simp only [pure_ok, Except.ok.injEq] at e
    subst e
    exact transformed_good t _ o hl eo

variable [CmpModel F]

theorem point_good (pos : Vec F) (power : Color F) : (Light.point pos power).object.Good := by
  refine ⟨⟨?_, ?_⟩, ?_⟩
  · rw [Light.object, Obj.Sturdy]; exact fun r => ⟨_, rfl⟩
  · rw [Light.object, Obj.Wears]
    intro r h e hp
    cases e
    exact miss_dressed hp
  · rw [Light.object, Obj.Decides]; exact fun p => ⟨_, rfl⟩

end BR
