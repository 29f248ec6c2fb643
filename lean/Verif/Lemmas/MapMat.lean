import Verif.Spec.MapMat
import Verif.Lemmas.Sim
import Verif.Lemmas.Object
import Verif.Lemmas.Tree

/-! Replacing materials changes the material of the reported records and nothing else. -/

namespace BR
set_option linter.unusedSectionVars false

variable {F M N : Type} [Add F] [Sub F] [Mul F] [Div F] [Neg F] [GoFloat F] (g : Option M → Option N)

theorem HitRecord.mapOpt_miss (hg : g none = none) : (HitRecord.miss : HitRecord F M).mapOpt g = HitRecord.miss := by
  simp only [HitRecord.mapOpt, HitRecord.miss, hg]

theorem noHit_mapOpt (hg : g none = none) : (noHit : HitRecord F M).mapOpt g = noHit := by
  simp only [HitRecord.mapOpt, noHit, hg]

theorem mapOptList_eq (os : List (Obj F M)) : Obj.mapOptList g os = os.map (Obj.mapOpt g) := by
  induction os with
  | nil => rw [Obj.mapOptList]; rfl
  | cons o os ih => rw [Obj.mapOptList, ih]; rfl

theorem Node.bb_mapOpt (n : Node F M) : (n.mapOpt g).bb = n.bb := by
  cases n <;> simp only [Node.mapOpt, Node.bb]

theorem Obj.bounds_mapOpt (o : Obj F M) : (o.mapOpt g).bounds = o.bounds := by
  induction o using Obj.bounds.induct <;> simp_all [Obj.mapOpt, Obj.bounds, Node.bb_mapOpt]

mutual

theorem Obj.inside_mapOpt (o : Obj F M) (p : Vec F) : (o.mapOpt g).inside p = o.inside p := by
  cases o with
  | bounded b o => simp only [Obj.mapOpt, Obj.inside, Obj.inside_mapOpt o]
  | tree root => simp only [Obj.mapOpt, Obj.inside, Node.inside_mapOpt root]
  | withMaterial m o => simp only [Obj.mapOpt, Obj.inside, Obj.inside_mapOpt o]
  | transformed b f i o => simp only [Obj.mapOpt, Obj.inside, Obj.inside_mapOpt o]
  | and a b => simp only [Obj.mapOpt, Obj.inside, Obj.inside_mapOpt a, Obj.inside_mapOpt b]
  | or a b => simp only [Obj.mapOpt, Obj.inside, Obj.inside_mapOpt a, Obj.inside_mapOpt b]
  | restrict a b => simp only [Obj.mapOpt, Obj.inside, Obj.inside_mapOpt a, Obj.inside_mapOpt b]
  | not o => simp only [Obj.mapOpt, Obj.inside, Obj.inside_mapOpt o]
  | remapped o f => simp only [Obj.mapOpt, Obj.inside, Obj.inside_mapOpt o]
  | _ => simp only [Obj.mapOpt, Obj.inside] <;> rfl

theorem Node.inside_mapOpt (n : Node F M) (p : Vec F) : (n.mapOpt g).inside p = n.inside p := by
  cases n with
  | leaf bb os => simp only [Node.mapOpt, Node.inside, Obj.anyInside_mapOpt os]
  | inner bb a b => simp only [Node.mapOpt, Node.inside, Node.inside_mapOpt a, Node.inside_mapOpt b]

theorem Obj.anyInside_mapOpt (os : List (Obj F M)) (p : Vec F) :
    Obj.anyInside (Obj.mapOptList g os) p = Obj.anyInside os p := by
  cases os with
  | nil => simp only [Obj.mapOptList, Obj.anyInside]
  | cons o os => simp only [Obj.mapOptList, Obj.anyInside, Obj.inside_mapOpt o, Obj.anyInside_mapOpt os]

end

/-- The second function reports the same as the first, with other materials. -/
def SameHits (isect : Ray F → GoM (HitRecord F M × Ray F)) (isect' : Ray F → GoM (HitRecord F N × Ray F)) : Prop :=
  ∀ r, isect' r = (isect r).map fun a => (a.1.mapOpt g, a.2)

variable {g} (hg : g none = none)

include hg in
theorem marchLoop_mapOpt {isect : Ray F → GoM (HitRecord F M × Ray F)} {isect' : Ray F → GoM (HitRecord F N × Ray F)}
    (hi : SameHits g isect isect') (inside : Vec F → GoM Bool) (want : Bool) (maxT : F) (start : Vec F) (ttl : Nat)
    (tOff : F) (h : HitRecord F M) (r : Ray F) :
    marchLoop isect' inside want maxT start ttl tOff (h.mapOpt g) r =
      (marchLoop isect inside want maxT start ttl tOff h r).map fun a => (a.1.mapOpt g, a.2) := by
  induction ttl generalizing tOff h r with
  | zero =>
    rw [marchLoop, marchLoop]
    have e : (h.mapOpt g).t = h.t := rfl
    rw [e]
    split <;> (rw [map_ok', HitRecord.mapOpt_miss g hg])
  | succ n ih =>
    rw [marchLoop, marchLoop]
    have e : (h.mapOpt g).t = h.t := rfl
    rw [e]
    split
    · dsimp only
      rw [map_bind']
      refine bind_congr_ok rfl ?_
      intro i _
      split
      · rfl
      · refine map_bind_congr (hi _) ?_
        rintro ⟨h1, r1⟩ -
        exact ih _ _ _
    · rw [map_ok', HitRecord.mapOpt_miss g hg]

include hg in
theorem march_mapOpt {isect : Ray F → GoM (HitRecord F M × Ray F)} {isect' : Ray F → GoM (HitRecord F N × Ray F)}
    (hi : SameHits g isect isect') (inside : Vec F → GoM Bool) (want : Bool) (r : Ray F) (maxT : F) :
    march isect' inside want r maxT = (march isect inside want r maxT).map fun a => (a.1.mapOpt g, a.2) := by
  unfold march
  refine map_bind_congr (hi _) ?_
  rintro ⟨h1, r1⟩ -
  exact marchLoop_mapOpt hg hi _ _ _ _ _ _ _ _

include hg in
theorem frontmost_mapOpt (a b : HitRecord F M) :
    HitRecord.frontmost (a.mapOpt g) (b.mapOpt g) = (HitRecord.frontmost a b).mapOpt g := by
  unfold HitRecord.frontmost
  have ea : (a.mapOpt g).t = a.t := rfl
  have eb : (b.mapOpt g).t = b.t := rfl
  rw [ea, eb]
  split
  next a' b' e =>
    split at e
    · next h =>
      rw [if_pos h]
      cases e
      dsimp only
      rw [ea, eb]
      split_ifs <;> first | rfl | exact (HitRecord.mapOpt_miss g hg).symm
    · next h =>
      rw [if_neg h]
      cases e
      dsimp only
      rw [ea, eb]
      split_ifs <;> first | rfl | exact (HitRecord.mapOpt_miss g hg).symm

include hg in
theorem marchBoth_mapOpt {isectA isectB : Ray F → GoM (HitRecord F M × Ray F)}
    {isectA' isectB' : Ray F → GoM (HitRecord F N × Ray F)} (ha : SameHits g isectA isectA')
    (hb : SameHits g isectB isectB') (insideA insideB : Vec F → GoM Bool) (want : Bool) (r : Ray F) :
    marchBoth isectA' insideA isectB' insideB want r =
      (marchBoth isectA insideA isectB insideB want r).map fun a => (a.1.mapOpt g, a.2) := by
  unfold marchBoth
  refine map_bind_congr (march_mapOpt hg ha _ _ _ _) ?_
  rintro ⟨a, r1⟩ -
  dsimp only
  have ea : (a.mapOpt g).t = a.t := rfl
  rw [ea]
  refine map_bind_congr (march_mapOpt hg hb _ _ _ _) ?_
  rintro ⟨b, r2⟩ -
  dsimp only
  rw [frontmost_mapOpt hg]; rfl

theorem visitChild_mapOpt {isect : Ray F → GoM (HitRecord F M × Ray F)} {isect' : Ray F → GoM (HitRecord F N × Ray F)}
    (hi : SameHits g isect isect') (boxHit : Bool) (better : HitRecord F M → HitRecord F M → Bool)
    (better' : HitRecord F N → HitRecord F N → Bool) (hb : ∀ a b, better' (a.mapOpt g) (b.mapOpt g) = better a b)
    (front : HitRecord F M) (r : Ray F) :
    visitChild boxHit isect' better' (front.mapOpt g) r =
      (visitChild boxHit isect better front r).map fun a => (a.1.mapOpt g, a.2) := by
  unfold visitChild
  split
  · refine map_bind_congr (hi _) ?_
    rintro ⟨h, r1⟩ -
    dsimp only
    rw [hb]
    have e : (h.mapOpt g).t = h.t := rfl
    rw [e]
    split <;> rfl
  · rfl

include hg in
theorem BBox.hit_mapOpt (b : BBox F) (m : Option M) (r : Ray F) :
    b.hit (g m) r = (b.hit m r).map (HitRecord.mapOpt g) := by
  unfold BBox.hit
  dsimp only
  split
  · rw [map_ok', HitRecord.mapOpt_miss g hg]
  · rw [map_bind']; rfl

include hg in
theorem Quadric.hit_mapOpt (q : Quadric F M) (r : Ray F) :
    Quadric.hit (⟨q.origin, q.a, q.b, q.bounds, g q.mat⟩ : Quadric F N) r = (q.hit r).mapOpt g := by
  unfold Quadric.hit
  have hc : Quadric.coeffs (⟨q.origin, q.a, q.b, q.bounds, g q.mat⟩ : Quadric F N) r = q.coeffs r := rfl
  have ha : ∀ t, Quadric.accept (⟨q.origin, q.a, q.b, q.bounds, g q.mat⟩ : Quadric F N) r t = q.accept r t :=
    fun t => rfl
  have hr : ∀ t, Quadric.record (⟨q.origin, q.a, q.b, q.bounds, g q.mat⟩ : Quadric F N) r t =
    (q.record r t).mapOpt g := fun t => rfl
  rw [hc]
  dsimp only
  simp only [ha, hr]
  split_ifs <;> first | rfl | exact (HitRecord.mapOpt_miss g hg).symm

include hg in
theorem Iso.hit_mapOpt (s : Iso F M) (r : Ray F) :
    Iso.hit (⟨s.bounds, s.tol, g s.mat, s.hmap, s.fuel⟩ : Iso F N) r = (s.hit r).map (HitRecord.mapOpt g) := by
  unfold Iso.hit
  dsimp only
  split
  · rw [map_ok', HitRecord.mapOpt_miss g hg]
  · rw [map_bind']
    refine bind_congr_ok rfl ?_
    intro t _
    split
    · rw [pure_ok, pure_ok, map_ok', HitRecord.mapOpt_miss g hg]
    · rw [map_bind']; rfl

include hg in
theorem Face.hit_mapOpt (v0 v1 v2 : Vertex F) (r : Ray F) :
    (Face.hit v0 v1 v2 r : HitRecord F N) = (Face.hit v0 v1 v2 r : HitRecord F M).mapOpt g := by
  unfold Face.hit
  dsimp only
  split_ifs <;> simp only [HitRecord.mapOpt, HitRecord.miss, hg]

variable (g)
include hg

mutual

theorem Obj.intersect_mapOpt (o : Obj F M) : SameHits g o.intersect (o.mapOpt g).intersect := by
  intro r
  cases o with
  | backdrop m => simp only [Obj.mapOpt, Obj.intersect]; rfl
  | bounded b o =>
    simp only [Obj.mapOpt, Obj.intersect]
    split
    · rw [map_ok', HitRecord.mapOpt_miss g hg]
    · exact Obj.intersect_mapOpt o r
  | box b m =>
    simp only [Obj.mapOpt, Obj.intersect]
    exact map_bind_congr (BBox.hit_mapOpt hg b m r) (fun _ _ => rfl)
  | quadric q => simp only [Obj.mapOpt, Obj.intersect]; rw [Quadric.hit_mapOpt (g := g) hg]; rfl
  | iso s =>
    simp only [Obj.mapOpt, Obj.intersect]
    exact map_bind_congr (Iso.hit_mapOpt hg s r) (fun _ _ => rfl)
  | face v0 v1 v2 => simp only [Obj.mapOpt, Obj.intersect]; rw [Face.hit_mapOpt (g := g) hg]; rfl
  | tree root =>
    simp only [Obj.mapOpt, Obj.intersect, Node.bb_mapOpt]
    split
    · rw [map_ok', HitRecord.mapOpt_miss g hg]
    · exact Node.intersect_mapOpt root r
  | withMaterial m o =>
    simp only [Obj.mapOpt, Obj.intersect]
    refine map_bind_congr (Obj.intersect_mapOpt o r) ?_
    rintro ⟨h, r1⟩ -
    rfl
  | transformed b f i o =>
    simp only [Obj.mapOpt, Obj.intersect]
    split
    · rw [map_ok', HitRecord.mapOpt_miss g hg]
    · refine map_bind_congr (Obj.intersect_mapOpt o _) ?_
      rintro ⟨h, r1⟩ -
      rfl
  | and a b =>
    have e1 : (a.mapOpt g).inside = a.inside := funext (Obj.inside_mapOpt g a)
    have e2 : (b.mapOpt g).inside = b.inside := funext (Obj.inside_mapOpt g b)
    simp only [Obj.mapOpt, Obj.intersect, e1, e2]
    exact marchBoth_mapOpt hg (Obj.intersect_mapOpt a) (Obj.intersect_mapOpt b) _ _ _ _
  | or a b =>
    have e1 : (a.mapOpt g).inside = a.inside := funext (Obj.inside_mapOpt g a)
    have e2 : (b.mapOpt g).inside = b.inside := funext (Obj.inside_mapOpt g b)
    simp only [Obj.mapOpt, Obj.intersect, e1, e2]
    exact marchBoth_mapOpt hg (Obj.intersect_mapOpt a) (Obj.intersect_mapOpt b) _ _ _ _
  | restrict a b =>
    have e2 : (b.mapOpt g).inside = b.inside := funext (Obj.inside_mapOpt g b)
    simp only [Obj.mapOpt, Obj.intersect, e2]
    exact march_mapOpt hg (Obj.intersect_mapOpt a) _ _ _ _
  | not o =>
    simp only [Obj.mapOpt, Obj.intersect]
    refine map_bind_congr (Obj.intersect_mapOpt o r) ?_
    rintro ⟨h, r1⟩ -
    rfl
  | hollow o =>
    simp only [Obj.mapOpt, Obj.intersect]
    exact Obj.intersect_mapOpt o r
  | remapped o f =>
    simp only [Obj.mapOpt, Obj.intersect]
    refine map_bind_congr (Obj.intersect_mapOpt o r) ?_
    rintro ⟨h, r1⟩ -
    rfl
  | allSpace => simp only [Obj.mapOpt, Obj.intersect]; rfl
  | prim isect inside b =>
    simp only [Obj.mapOpt, Obj.intersect]
    exact map_bind_congr rfl (fun _ _ => rfl)

theorem Node.intersect_mapOpt (n : Node F M) : SameHits g n.intersect (n.mapOpt g).intersect := by
  intro r
  cases n with
  | leaf bb os =>
    simp only [Node.mapOpt, Node.intersect]
    have e := Obj.scan_mapOpt os noHit r
    rw [noHit_mapOpt g hg] at e
    exact e
  | inner bb a b =>
    simp only [Node.mapOpt, Node.intersect, Node.bb_mapOpt]
    have e := visitChild_mapOpt (Node.intersect_mapOpt a) (a.bb.intersect r >. lit 0) (fun _ _ => true) (fun _ _ => true)
      (fun _ _ => rfl) noHit r
    rw [noHit_mapOpt g hg] at e
    refine map_bind_congr e ?_
    rintro ⟨f1, r1⟩ -
    dsimp only
    have e2 := visitChild_mapOpt (Node.intersect_mapOpt b) (b.bb.intersect r >. lit 0)
      (fun frag front => frag.t <. front.t) (fun frag front => frag.t <. front.t) (fun _ _ => rfl) f1 r1
    refine map_bind_congr e2 ?_
    rintro ⟨f2, r2⟩ -
    dsimp only
    have e3 : (f2.mapOpt g).t = f2.t := rfl
    rw [e3]
    split <;> rfl

theorem Obj.scan_mapOpt (os : List (Obj F M)) (front : HitRecord F M) (r : Ray F) :
    Obj.scan (Obj.mapOptList g os) (front.mapOpt g) r =
      (Obj.scan os front r).map fun a => (a.1.mapOpt g, a.2) := by
  cases os with
  | nil => simp only [Obj.mapOptList, Obj.scan]; rfl
  | cons o os =>
    simp only [Obj.mapOptList, Obj.scan]
    refine map_bind_congr (Obj.intersect_mapOpt o r) ?_
    rintro ⟨h, r1⟩ -
    dsimp only
    have e := Obj.scan_mapOpt os (if (h.t >. lit 0 && h.t <. front.t) = true then h else front) r1
    rw [← e]
    have e3 : (h.mapOpt g).t = h.t := rfl
    have e4 : (front.mapOpt g).t = front.t := rfl
    rw [e3, e4]
    congr 1
    split <;> rfl

end

omit hg

theorem node_fixed {M : Type} (g : Option M → Option M) (Srt : Sorter (Obj F M)) (ch : List (Obj F M)) (hch : ∀ o ∈ ch, o.mapOpt g = o)
    (n : Node F M) (l : List (Obj F M)) (e : buildTree Srt ch = .ok (n, l)) : n.mapOpt g = n := by
  refine buildTree_ind Srt (fun ch n _ => (∀ o ∈ ch, o.mapOpt g = o) → n.mapOpt g = n) ?_ ?_ ch n l e hch
  · intro ch bb _ _ h
    rw [Node.mapOpt, mapOptList_eq]
    congr 1
    conv_rhs => rw [← List.map_id ch]
    exact List.map_congr_left fun o ho => h o ho
  · intro ch bb d l r chl chr _ _ hl hr h
    rw [Node.mapOpt, hl, hr]
    · intro o ho; exact h o ((Srt.perm _ _).mem_iff.1 (List.mem_of_mem_drop ho))
    · intro o ho; exact h o ((Srt.perm _ _).mem_iff.1 (List.mem_of_mem_take ho))

theorem meshWithUV_mapOpt {M : Type} (g : Option M → Option M) (Srt : Sorter (Obj F M)) (m : Option M) (vs : List (Vec F))
    (idx : List (Int × Int × Int)) (uv : Option (List (F × F))) :
    meshWithUV Srt (g m) vs idx uv = (meshWithUV Srt m vs idx uv).map (Obj.mapOpt g) := by
  unfold meshWithUV meshObj mkTree
  dsimp only
  rw [map_bind']
  refine bind_congr_ok rfl ?_
  intro vs _
  rw [map_bind']
  refine bind_congr_ok rfl ?_
  intro faces _
  rw [map_bind']
  refine bind_congr_ok rfl ?_
  intro fs efs
  have hfs : ∀ o ∈ fs, o.mapOpt g = o := by
    intro o ho
    obtain ⟨f, _, hf⟩ := forall₂_right (mapM_spec _ _ _ efs) o ho
    unfold faceObj at hf
    split at hf
    · cases hf; rw [Obj.mapOpt]
    · cases hf
  rw [bind_assoc, bind_assoc, map_bind']
  refine bind_congr_ok rfl ?_
  rintro ⟨n, l⟩ e
  have := node_fixed g Srt fs hfs n l e
  simp only [ok_bind, pure_ok, map_ok', Obj.mapOpt, this]

theorem rectangle_mapOpt {M : Type} (g : Option M → Option M) (Srt : Sorter (Obj F M)) (m : Option M) (w h : F) (c : Vec F) :
    rectangle Srt (g m) w h c = (rectangle Srt m w h c).map (Obj.mapOpt g) := meshWithUV_mapOpt ..

theorem mkTransformed_mapOpt {M : Type} (g : Option M → Option M) (o : Obj F M) (t : Affine F) :
    (o.mapOpt g).mkTransformed t = (o.mkTransformed t).map (Obj.mapOpt g) := by
  induction o, t using Obj.mkTransformed.induct with
  | case1 t b f i o ih => rw [Obj.mapOpt, Obj.mkTransformed, Obj.mkTransformed, ih]
  | case2 o t ho =>
    have h1 : o.mkTransformed t = (do
        let bb ← o.bounds
        let bounds ← bb.transform t
        return .transformed bounds t t.inverse o) := by
      cases o <;> first | rfl | exact absurd rfl (ho _ _ _ _)
    have h2 : (o.mapOpt g).mkTransformed t = (do
        let bb ← (o.mapOpt g).bounds
        let bounds ← bb.transform t
        return .transformed bounds t t.inverse (o.mapOpt g)) := by
      cases o <;> first | (simp only [Obj.mapOpt]; rfl) | exact absurd rfl (ho _ _ _ _)
    rw [h1, h2, Obj.bounds_mapOpt, map_bind']
    refine bind_congr_ok rfl ?_
    intro bb _
    rw [map_bind']
    refine bind_congr_ok rfl ?_
    intro b _
    simp only [pure_ok, map_ok', Obj.mapOpt]

mutual

theorem Obj.mapOpt_mapOpt {M N K : Type} (g : Option M → Option N) (f : Option N → Option K) (o : Obj F M) :
    (o.mapOpt g).mapOpt f = o.mapOpt fun m => f (g m) := by
  cases o with
  | bounded b o => simp only [Obj.mapOpt, Obj.mapOpt_mapOpt g f o]
  | tree root => simp only [Obj.mapOpt, Node.mapOpt_mapOpt g f root]
  | withMaterial m o => simp only [Obj.mapOpt, Obj.mapOpt_mapOpt g f o]
  | transformed b f' i o => simp only [Obj.mapOpt, Obj.mapOpt_mapOpt g f o]
  | and a b => simp only [Obj.mapOpt, Obj.mapOpt_mapOpt g f a, Obj.mapOpt_mapOpt g f b]
  | or a b => simp only [Obj.mapOpt, Obj.mapOpt_mapOpt g f a, Obj.mapOpt_mapOpt g f b]
  | restrict a b => simp only [Obj.mapOpt, Obj.mapOpt_mapOpt g f a, Obj.mapOpt_mapOpt g f b]
  | not o => simp only [Obj.mapOpt, Obj.mapOpt_mapOpt g f o]
  | hollow o => simp only [Obj.mapOpt, Obj.mapOpt_mapOpt g f o]
  | remapped o f' => simp only [Obj.mapOpt, Obj.mapOpt_mapOpt g f o]
  | prim isect inside b => simp only [Obj.mapOpt, map_map']; rfl
  | _ => simp only [Obj.mapOpt]

theorem Node.mapOpt_mapOpt {M N K : Type} (g : Option M → Option N) (f : Option N → Option K) (n : Node F M) :
    (n.mapOpt g).mapOpt f = n.mapOpt fun m => f (g m) := by
  cases n with
  | leaf bb os => simp only [Node.mapOpt, Obj.mapOptList_mapOptList g f os]
  | inner bb a b => simp only [Node.mapOpt, Node.mapOpt_mapOpt g f a, Node.mapOpt_mapOpt g f b]

theorem Obj.mapOptList_mapOptList {M N K : Type} (g : Option M → Option N) (f : Option N → Option K) (os : List (Obj F M)) :
    Obj.mapOptList f (Obj.mapOptList g os) = Obj.mapOptList (fun m => f (g m)) os := by
  cases os with
  | nil => simp only [Obj.mapOptList]
  | cons o os => simp only [Obj.mapOptList, Obj.mapOpt_mapOpt g f o, Obj.mapOptList_mapOptList g f os]

end

end BR
