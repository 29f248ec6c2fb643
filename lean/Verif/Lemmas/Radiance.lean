import Verif.Spec.Materials
import Verif.Lemmas.Object
import Verif.Lemmas.Scene

/-! Hits carry materials of the object, and properties of colours that are preserved by all materials
of a scene hold for the light field. -/

namespace BR
set_option linter.unusedSectionVars false

section objects

variable {F M : Type} [Add F] [Sub F] [Mul F] [Div F] [Neg F] [GoFloat F] {Q : M → Prop}

theorem OptMat.miss : OptMat Q (HitRecord.miss : HitRecord F M).mat := by
  intro x h; simp [HitRecord.miss] at h

theorem BBox.hit_mat {b : BBox F} {mat : Option M} {r : Ray F} {h : HitRecord F M}
    (e : b.hit mat r = .ok h) (hm : OptMat Q mat) : OptMat Q h.mat := by
  unfold BBox.hit at e
  dsimp only at e
  split at e
  · injection e with e; subst e; exact OptMat.miss
  · obtain ⟨n, -, e⟩ := bind_eq_ok.1 e
    simp only [pure_ok] at e
    injection e with e; subst e; exact hm

theorem Iso.hit_mat {s : Iso F M} {r : Ray F} {h : HitRecord F M}
    (e : s.hit r = .ok h) (hm : OptMat Q s.mat) : OptMat Q h.mat := by
  unfold Iso.hit at e
  dsimp only at e
  split at e
  · injection e with e; subst e; exact OptMat.miss
  · obtain ⟨t, -, e⟩ := bind_eq_ok.1 e
    split at e
    · simp only [pure_ok] at e; injection e with e; subst e; exact OptMat.miss
    · obtain ⟨n, -, e⟩ := bind_eq_ok.1 e
      simp only [pure_ok] at e
      injection e with e; subst e; exact hm

theorem Quadric.hit_mat {q : Quadric F M} {r : Ray F} (hm : OptMat Q q.mat) : OptMat Q (q.hit r).mat := by
  unfold Quadric.hit
  dsimp only
  split
  · exact OptMat.miss
  · split
    all_goals
      split
      · exact hm
      · split
        · exact hm
        · exact OptMat.miss

theorem Face.hit_mat {v0 v1 v2 : Vertex F} {r : Ray F} : OptMat Q (Face.hit v0 v1 v2 r : HitRecord F M).mat := by
  unfold Face.hit
  dsimp only
  split
  · exact OptMat.miss
  · split
    · exact OptMat.miss
    · intro x h; simp at h

/-- Every record of an `Intersect` implementation has a material satisfying `Q` or none. -/
def MatIsect (Q : M → Prop) (isect : Ray F → GoM (HitRecord F M × Ray F)) : Prop :=
  ∀ r h r', isect r = .ok (h, r') → OptMat Q h.mat

theorem marchLoop_mat {isect : Ray F → GoM (HitRecord F M × Ray F)} (hi : MatIsect Q isect)
    (inside : Vec F → GoM Bool) (want : Bool) (maxT : F) (start : Vec F) (ttl : Nat) :
    ∀ (tOff : F) (h : HitRecord F M) (r : Ray F) (h' : HitRecord F M) (r' : Ray F), OptMat Q h.mat →
      marchLoop isect inside want maxT start ttl tOff h r = .ok (h', r') → OptMat Q h'.mat := by
  induction ttl with
  | zero =>
    intro tOff h r h' r' hm e
    rw [marchLoop] at e
    split at e <;> · injection e with e; injection e with e _; subst e; exact OptMat.miss
  | succ n ih =>
    intro tOff h r h' r' hm e
    rw [marchLoop] at e
    split at e
    · obtain ⟨i, -, e⟩ := bind_eq_ok.1 e
      split at e
      · injection e with e; injection e with e _; subst e; exact hm
      · obtain ⟨⟨h2, r2⟩, h12, e'⟩ := bind_eq_ok.1 e
        exact ih _ _ _ _ _ (hi _ _ _ h12) e'
    · injection e with e; injection e with e _; subst e; exact OptMat.miss

theorem march_mat {isect : Ray F → GoM (HitRecord F M × Ray F)} (hi : MatIsect Q isect)
    (inside : Vec F → GoM Bool) (want : Bool) (maxT : F) :
    MatIsect Q fun r => march isect inside want r maxT := by
  intro r h r' e
  obtain ⟨⟨h1, r1⟩, h12, e'⟩ := bind_eq_ok.1 e
  exact marchLoop_mat hi _ _ _ _ _ _ _ _ _ _ (hi _ _ _ h12) e'

theorem frontmost_mat {a b : HitRecord F M} (ha : OptMat Q a.mat) (hb : OptMat Q b.mat) :
    OptMat Q (HitRecord.frontmost a b).mat := by
  unfold HitRecord.frontmost
  dsimp only
  split
  all_goals
    dsimp only
    split
    · assumption
    · split
      · assumption
      · exact OptMat.miss

theorem marchBoth_mat {isectA isectB : Ray F → GoM (HitRecord F M × Ray F)} (ha : MatIsect Q isectA)
    (hb : MatIsect Q isectB) (insideA insideB : Vec F → GoM Bool) (want : Bool) :
    MatIsect Q fun r => marchBoth isectA insideA isectB insideB want r := by
  intro r h r' e
  obtain ⟨⟨h1, r1⟩, h12, e⟩ := bind_eq_ok.1 e
  obtain ⟨⟨h3, r3⟩, h34, e⟩ := bind_eq_ok.1 e
  simp only [pure_ok] at e
  injection e with e; injection e with e _; subst e
  exact frontmost_mat (march_mat ha _ _ _ _ _ _ h12) (march_mat hb _ _ _ _ _ _ h34)

theorem visitChild_mat {isect : Ray F → GoM (HitRecord F M × Ray F)} (hi : MatIsect Q isect) (b : Bool)
    (better : HitRecord F M → HitRecord F M → Bool) (front : HitRecord F M) (hf : OptMat Q front.mat) :
    MatIsect Q (visitChild b isect better front) := by
  intro r h r' e
  rw [visitChild] at e
  split at e
  · obtain ⟨⟨h1, r1⟩, h12, e⟩ := bind_eq_ok.1 e
    simp only [pure_ok] at e
    injection e with e; injection e with e _; subst e
    split
    · exact hi _ _ _ h12
    · exact hf
  · injection e with e; injection e with e _; subst e; exact hf

theorem OptMat.noHit : OptMat Q (BR.noHit : HitRecord F M).mat := by
  intro x h; simp [BR.noHit] at h

mutual

theorem Obj.intersect_mat (o : Obj F M) (hq : o.AllMat Q) (r : Ray F) (h : HitRecord F M) (r' : Ray F)
    (e : o.intersect r = .ok (h, r')) : OptMat Q h.mat := by
  match o with
  | .backdrop mat =>
    rw [Obj.intersect] at e; injection e with e; injection e with e _; subst e
    rw [Obj.AllMat] at hq; exact hq
  | .bounded bounds orig =>
    rw [Obj.intersect] at e
    rw [Obj.AllMat] at hq
    split at e
    · injection e with e; injection e with e _; subst e; exact OptMat.miss
    · exact Obj.intersect_mat orig hq r h r' e
  | .box bounds mat =>
    rw [Obj.intersect] at e
    rw [Obj.AllMat] at hq
    obtain ⟨h1, e1, e⟩ := bind_eq_ok.1 e
    simp only [pure_ok] at e
    injection e with e; injection e with e _; subst e; exact BBox.hit_mat e1 hq
  | .quadric q =>
    rw [Obj.AllMat] at hq
    rw [Obj.intersect] at e; injection e with e; injection e with e _; subst e; exact Quadric.hit_mat hq
  | .iso s =>
    rw [Obj.intersect] at e
    rw [Obj.AllMat] at hq
    obtain ⟨h1, e1, e⟩ := bind_eq_ok.1 e
    simp only [pure_ok] at e
    injection e with e; injection e with e _; subst e; exact Iso.hit_mat e1 hq
  | .face v0 v1 v2 =>
    rw [Obj.intersect] at e; injection e with e; injection e with e _; subst e; exact Face.hit_mat
  | .tree root =>
    rw [Obj.intersect] at e
    rw [Obj.AllMat] at hq
    split at e
    · injection e with e; injection e with e _; subst e; exact OptMat.miss
    · exact Node.intersect_mat root hq r h r' e
  | .withMaterial mat orig =>
    rw [Obj.intersect] at e
    rw [Obj.AllMat] at hq
    obtain ⟨⟨h1, r1⟩, e1, e⟩ := bind_eq_ok.1 e
    simp only [pure_ok] at e
    injection e with e; injection e with e _; subst e; exact hq
  | .transformed bounds forward inverse orig =>
    rw [Obj.intersect] at e
    rw [Obj.AllMat] at hq
    split at e
    · injection e with e; injection e with e _; subst e; exact OptMat.miss
    · obtain ⟨⟨h1, r1⟩, e1, e⟩ := bind_eq_ok.1 e
      simp only [pure_ok] at e
      injection e with e; injection e with e _; subst e
      exact Obj.intersect_mat orig hq _ h1 r1 e1
  | .and a b =>
    rw [Obj.intersect] at e
    rw [Obj.AllMat] at hq
    exact marchBoth_mat (fun r h r' e => Obj.intersect_mat a hq.1 r h r' e)
      (fun r h r' e => Obj.intersect_mat b hq.2 r h r' e) _ _ _ _ _ _ e
  | .or a b =>
    rw [Obj.intersect] at e
    rw [Obj.AllMat] at hq
    exact marchBoth_mat (fun r h r' e => Obj.intersect_mat a hq.1 r h r' e)
      (fun r h r' e => Obj.intersect_mat b hq.2 r h r' e) _ _ _ _ _ _ e
  | .restrict a b =>
    rw [Obj.intersect] at e
    rw [Obj.AllMat] at hq
    exact march_mat (fun r h r' e => Obj.intersect_mat a hq r h r' e) _ _ _ _ _ _ e
  | .not orig =>
    rw [Obj.intersect] at e
    rw [Obj.AllMat] at hq
    obtain ⟨⟨h1, r1⟩, e1, e⟩ := bind_eq_ok.1 e
    simp only [pure_ok] at e
    injection e with e; injection e with e _; subst e
    exact Obj.intersect_mat orig hq r h1 r1 e1
  | .hollow orig =>
    rw [Obj.intersect] at e
    rw [Obj.AllMat] at hq
    exact Obj.intersect_mat orig hq r h r' e
  | .remapped orig remap =>
    rw [Obj.intersect] at e
    rw [Obj.AllMat] at hq
    obtain ⟨⟨h1, r1⟩, e1, e⟩ := bind_eq_ok.1 e
    simp only [pure_ok] at e
    injection e with e; injection e with e _; subst e
    exact Obj.intersect_mat orig hq r h1 r1 e1
  | .allSpace => rw [Obj.intersect] at e; cases e
  | .prim isect inside bounds =>
    rw [Obj.intersect] at e
    rw [Obj.AllMat] at hq
    obtain ⟨h1, e1, e⟩ := bind_eq_ok.1 e
    simp only [pure_ok] at e
    injection e with e; injection e with e _; subst e
    exact hq _ _ e1
termination_by structural o

theorem Node.intersect_mat (n : Node F M) (hq : n.AllMat Q) (r : Ray F) (h : HitRecord F M) (r' : Ray F)
    (e : n.intersect r = .ok (h, r')) : OptMat Q h.mat := by
  match n with
  | .leaf bb leafs =>
    rw [Node.intersect] at e
    rw [Node.AllMat] at hq
    exact Obj.scan_mat leafs hq _ OptMat.noHit r h r' e
  | .inner bb ch0 ch1 =>
    rw [Node.intersect] at e
    rw [Node.AllMat] at hq
    dsimp only at e
    obtain ⟨⟨f1, r1⟩, e1, e⟩ := bind_eq_ok.1 e
    obtain ⟨⟨f3, r3⟩, e3, e⟩ := bind_eq_ok.1 e
    have h1 := visitChild_mat (fun r h r' e => Node.intersect_mat ch0 hq.1 r h r' e) _ _ _ OptMat.noHit _ _ _ e1
    have h3 := visitChild_mat (fun r h r' e => Node.intersect_mat ch1 hq.2 r h r' e) _ _ _ h1 _ _ _ e3
    simp only [pure_ok] at e
    injection e with e; injection e with e _; subst e
    split
    · exact h3
    · exact h3
termination_by structural n

theorem Obj.scan_mat (os : List (Obj F M)) (hq : Obj.AllMatList Q os) (front : HitRecord F M)
    (hf : OptMat Q front.mat) (r : Ray F) (h : HitRecord F M)
    (r' : Ray F) (e : Obj.scan os front r = .ok (h, r')) : OptMat Q h.mat := by
  match os with
  | [] => rw [Obj.scan] at e; injection e with e; injection e with e _; subst e; exact hf
  | o :: os =>
    rw [Obj.scan] at e
    rw [Obj.AllMatList] at hq
    obtain ⟨⟨f, r2⟩, e2, e⟩ := bind_eq_ok.1 e
    have h2 := Obj.intersect_mat o hq.1 r f r2 e2
    refine Obj.scan_mat os hq.2 _ ?_ r2 h r' e
    split
    · exact h2
    · exact hf
termination_by structural os

end

mutual

theorem Obj.AllMat.mono {Q' : M → Prop} (hqq : ∀ m, Q m → Q' m) (o : Obj F M) (hq : o.AllMat Q) : o.AllMat Q' := by
  match o with
  | .backdrop mat => rw [Obj.AllMat] at hq ⊢; exact fun x h => hqq x (hq x h)
  | .bounded bounds orig => rw [Obj.AllMat] at hq ⊢; exact Obj.AllMat.mono hqq orig hq
  | .box bounds mat => rw [Obj.AllMat] at hq ⊢; exact fun x h => hqq x (hq x h)
  | .quadric q => rw [Obj.AllMat] at hq ⊢; exact fun x h => hqq x (hq x h)
  | .iso s => rw [Obj.AllMat] at hq ⊢; exact fun x h => hqq x (hq x h)
  | .face v0 v1 v2 => rw [Obj.AllMat]; trivial
  | .tree root => rw [Obj.AllMat] at hq ⊢; exact Node.AllMat.mono hqq root hq
  | .withMaterial mat orig => rw [Obj.AllMat] at hq ⊢; exact fun x h => hqq x (hq x h)
  | .transformed bounds forward inverse orig => rw [Obj.AllMat] at hq ⊢; exact Obj.AllMat.mono hqq orig hq
  | .and a b => rw [Obj.AllMat] at hq ⊢; exact ⟨Obj.AllMat.mono hqq a hq.1, Obj.AllMat.mono hqq b hq.2⟩
  | .or a b => rw [Obj.AllMat] at hq ⊢; exact ⟨Obj.AllMat.mono hqq a hq.1, Obj.AllMat.mono hqq b hq.2⟩
  | .restrict a b => rw [Obj.AllMat] at hq ⊢; exact Obj.AllMat.mono hqq a hq
  | .not orig => rw [Obj.AllMat] at hq ⊢; exact Obj.AllMat.mono hqq orig hq
  | .hollow orig => rw [Obj.AllMat] at hq ⊢; exact Obj.AllMat.mono hqq orig hq
  | .remapped orig remap => rw [Obj.AllMat] at hq ⊢; exact Obj.AllMat.mono hqq orig hq
  | .allSpace => rw [Obj.AllMat]; trivial
  | .prim isect inside bounds => rw [Obj.AllMat] at hq ⊢; exact fun r h e x hx => hqq x (hq r h e x hx)
termination_by structural o

theorem Node.AllMat.mono {Q' : M → Prop} (hqq : ∀ m, Q m → Q' m) (n : Node F M) (hq : n.AllMat Q) :
    n.AllMat Q' := by
  match n with
  | .leaf bb leafs => rw [Node.AllMat] at hq ⊢; exact Obj.AllMatList.mono hqq leafs hq
  | .inner bb a b => rw [Node.AllMat] at hq ⊢; exact ⟨Node.AllMat.mono hqq a hq.1, Node.AllMat.mono hqq b hq.2⟩
termination_by structural n

theorem Obj.AllMatList.mono {Q' : M → Prop} (hqq : ∀ m, Q m → Q' m) (os : List (Obj F M))
    (hq : Obj.AllMatList Q os) : Obj.AllMatList Q' os := by
  match os with
  | [] => rw [Obj.AllMatList]; trivial
  | o :: os =>
    rw [Obj.AllMatList] at hq ⊢
    exact ⟨Obj.AllMat.mono hqq o hq.1, Obj.AllMatList.mono hqq os hq.2⟩
termination_by structural os

end

end objects

/-! ## Light field -/

variable {F S : Type} [Add F] [Sub F] [Mul F] [Div F] [Neg F] [GoFloat F]

/-- Closure of a property `P` of light field colours under a material. `D` is the property of direct light
sums, `I` that of light intensities. -/
def Mat.Closed (P D I : Color F → Prop) : Mat F → Prop
  | .black => True
  | .flat tex => ∀ p c, tex p = .ok c → P c
  | .matte tex => ∀ p k, tex p = .ok k → ∀ d c, D d → P c → P ((d.add c).mul3 k)
  | .reflective k => ∀ c, P c → P (c.mul3 k)
  | .reflectFresnel n u => u.Closed P D I ∧ ∀ x a b, P a → P b →
      P ((a.mul (fresnelReflection (lit 1) n (GoFloat.abs x))).madd
        (lit 1 - fresnelReflection (lit 1) n (GoFloat.abs x)) b)
  | .refractive n1 n2 => ∀ dir normal n i m1 m2 cosi sin2t,
      refractGeom n1 n2 dir normal = (n, i, m1, m2, cosi, sin2t) → (sin2t >. lit 1) = false → ∀ a b, P a → P b →
      P ((a.mul (refractR m1 m2 cosi sin2t)).add (b.mul (lit 1 - refractR m1 m2 cosi sin2t)))
  | .transparent tex _ => ∀ p k, tex p = .ok k → (∀ c, P c → P (c.mul3 k)) ∧ (∀ c, I c → I (c.mul3 k))
  | .twoSided f b => f.Closed P D I ∧ b.Closed P D I
  | .blend a A b B => A.Closed P D I ∧ B.Closed P D I ∧ ∀ x y, P x → P y → P ((x.mul a).madd b y)
  | .blendMap tex A B => A.Closed P D I ∧ B.Closed P D I ∧ ∀ p k, tex p = .ok k → ∀ x y, P x → P y →
      P ((x.mul k.R).madd (lit 1 - k.R) y)
  | .func f => ∀ r h c, f r h = .ok c → P c

/-- Closure of `P` under a medium; `W` is the property of the scattered light sum. -/
def Medium.Closed (P W I : Color F → Prop) : Medium F → Prop
  | .expFog density ambient _ => ∀ len, (len >=. lit 0) = true → ∀ c, P c →
      P ((c.mul (GoFloat.exp (-len * density))).madd (lit 1 - GoFloat.exp (-len * density)) ambient)
  | .fog density height _ => ∀ (r : Ray F) tMax, let i := fogInterval height r tMax
      (∀ u d k, W d → I k → W (d.madd (randExpInterval u density (i.2 - i.1)).2 k)) ∧
      ∀ c d, P c → W d → P ((c.mul (GoFloat.exp (-(i.2 - i.1) * density))).add d)

/-- What a property must satisfy to hold for the light field of a scene. -/
structure Scene.Closed (s : Scene F) (rng : Rng F S) (P D I W : Color F → Prop) : Prop where
  black : P Color.black
  dBlack : D Color.black
  iBlack : I Color.black
  wBlack : W Color.black
  add : ∀ d k cosT, D d → I k → (cosT <=. lit 0) = false → D (d.add (k.mul cosT))
  light : ∀ l ∈ s.lights, ∀ target c p k c', l.sample rng target c = .ok ((p, k), c') → I k
  mat : ∀ o ∈ s.objects, o.AllMat (Mat.Closed P D I)
  lightMat : ∀ l ∈ s.lights, l.object.AllMat (Mat.Closed P D I)
  media : ∀ m ∈ s.media, m.Closed P W I

section
variable {s : Scene F} {rng : Rng F S} {P D I W : Color F → Prop}

theorem occludeLoop_closed (objs : List (Obj F (Mat F))) (ho : ∀ o ∈ objs, o.AllMat (Mat.Closed P D I))
    (hb : I Color.black) (len : F) (orig : Color F) (r : Ray F) (c : Color F) (r' : Ray F) (hi : I orig)
    (e : occludeLoop objs len orig r = .ok (c, r')) : I c := by
  induction objs generalizing orig r with
  | nil => simp only [occludeLoop, Except.ok.injEq, Prod.mk.injEq] at e; rw [← e.1]; exact hi
  | cons o os ih =>
    have ih := fun orig r => ih (fun o h => ho o (List.mem_cons_of_mem _ h)) orig r
    rw [occludeLoop] at e
    obtain ⟨⟨f, r1⟩, e1, e⟩ := bind_eq_ok.1 e
    have hm := o.intersect_mat (ho o (by simp)) _ _ _ e1
    dsimp only at e
    split at e
    · cases hfm : f.mat with
      | none =>
        simp only [hfm, Mat.filter?, pure_ok, Except.ok.injEq, Prod.mk.injEq] at e
        rw [← e.1]; exact hb
      | some m =>
        have hm := hm m hfm
        rw [hfm] at e
        cases m with
        | transparent tex b =>
          simp only [Mat.filter?] at e
          obtain ⟨c1, e2, e⟩ := bind_eq_ok.1 e
          obtain ⟨k, e3, e2⟩ := bind_eq_ok.1 e2
          simp only [pure_ok, Except.ok.injEq] at e2
          rw [Mat.Closed] at hm
          exact ih _ _ (e2 ▸ (hm _ _ e3).2 _ hi) e
        | _ =>
          simp only [Mat.filter?, pure_ok, Except.ok.injEq, Prod.mk.injEq] at e
          rw [← e.1]; exact hb
    · exact ih _ _ hi e

theorem Scene.Closed.occlude (hs : s.Closed rng P D I W) (r : Ray F) (len : F) (orig c : Color F) (r' : Ray F)
    (hi : I orig) (e : s.occlude r len orig = .ok (c, r')) : I c :=
  occludeLoop_closed s.objects hs.mat hs.iBlack len orig r c r' hi e

theorem directLoop_closed (hs : s.Closed rng P D I W) (p n : Vec F) (ls : List (Light F))
    (hl : ∀ l ∈ ls, l ∈ s.lights) (acc : Color F) (hacc : D acc) (c : Ctx F S) (a : Color F) (c' : Ctx F S)
    (e : directLoop rng s.occlude p n ls acc c = .ok (a, c')) : D a := by
  induction ls generalizing acc c with
  | nil => simp only [directLoop, Except.ok.injEq, Prod.mk.injEq] at e; rw [← e.1]; exact hacc
  | cons l ls ih =>
    have ih := ih (fun l h => hl l (List.mem_cons_of_mem _ h))
    rw [directLoop] at e
    obtain ⟨⟨⟨lp, int⟩, c1⟩, e1, e2⟩ := bind_eq_ok.1 e
    have h1 := hs.light l (hl l (by simp)) _ _ _ _ _ e1
    dsimp only at e2
    split at e2
    · exact ih _ hacc _ e2
    · split at e2
      · exact ih _ hacc _ e2
      · rename_i hc
        obtain ⟨⟨i2, r2⟩, e3, e4⟩ := bind_eq_ok.1 e2
        exact ih _ (hs.add _ _ _ hacc (hs.occlude _ _ _ _ _ h1 e3) (by simpa using hc)) _ e4

/-- All results of the light field satisfy `P`. -/
def LF.All (P : Color F → Prop) (lf : LF F S) : Prop := ∀ f r c a c', lf f r c = .ok (a, c') → P a

theorem withRay_closed {lf : LF F S} (hlf : LF.All P lf) (f : Field) (r : Ray F) (c : Ctx F S) (a : Color F)
    (c' : Ctx F S) (e : withRay lf f r c = .ok (a, c')) : P a := by
  unfold withRay at e
  dsimp only at e
  obtain ⟨⟨col, c1⟩, e1, e2⟩ := bind_eq_ok.1 e
  simp only [pure_ok, Except.ok.injEq, Prod.mk.injEq] at e2
  rw [← e2.1]; exact hlf _ _ _ _ _ e1

theorem whenPos_closed (hb : P Color.black) {m : CtxM F S (Color F)} (hm : ∀ c a c', m c = .ok (a, c') → P a)
    (k : F) (c : Ctx F S) (a : Color F) (c' : Ctx F S) (e : whenPos k m c = .ok (a, c')) : P a := by
  unfold whenPos at e
  split at e
  · exact hm _ _ _ e
  · simp only [Except.ok.injEq, Prod.mk.injEq] at e; rw [← e.1]; exact hb

theorem Mat.shade_closed (hs : s.Closed rng P D I W) {lf : LF F S} (hlf : LF.All P lf) (m : Mat F)
    (hm : m.Closed P D I) (r : Ray F) (h : HitCoords F) (c : Ctx F S) (a : Color F) (c' : Ctx F S)
    (e : m.shade rng s lf r h c = .ok (a, c')) : P a := by
  induction m generalizing c a c' with
  | black => simp only [shade, Except.ok.injEq, Prod.mk.injEq] at e; rw [← e.1]; exact hs.black
  | flat tex =>
    rw [Mat.Closed] at hm
    rw [shade] at e
    obtain ⟨x, e1, e⟩ := bind_eq_ok.1 e
    simp only [pure_ok, Except.ok.injEq, Prod.mk.injEq] at e; rw [← e.1]; exact hm _ _ e1
  | matte tex =>
    rw [Mat.Closed] at hm
    rw [shade] at e
    unfold shadeMatte at e
    dsimp only at e
    obtain ⟨⟨acc, c1⟩, e1, e⟩ := bind_eq_ok.1 e
    obtain ⟨⟨uv, c2⟩, e2, e⟩ := bind_eq_ok.1 e
    obtain ⟨⟨col, c3⟩, e3, e⟩ := bind_eq_ok.1 e
    obtain ⟨refl, e4, e⟩ := bind_eq_ok.1 e
    simp only [pure_ok, Except.ok.injEq, Prod.mk.injEq] at e
    rw [← e.1]
    exact hm _ _ e4 _ _ (directLoop_closed hs _ _ _ (fun _ h => h) _ hs.dBlack _ _ _ e1) (hlf _ _ _ _ _ e3)
  | reflective col =>
    rw [Mat.Closed] at hm
    rw [shade] at e
    obtain ⟨⟨x, c1⟩, e1, e⟩ := bind_eq_ok.1 e
    simp only [pure_ok, Except.ok.injEq, Prod.mk.injEq] at e; rw [← e.1]
    exact hm _ (withRay_closed hlf _ _ _ _ _ e1)
  | reflectFresnel n u ih =>
    rw [Mat.Closed] at hm
    rw [shade] at e
    dsimp only at e
    obtain ⟨⟨x, c1⟩, e1, e⟩ := bind_eq_ok.1 e
    obtain ⟨⟨y, c2⟩, e2, e⟩ := bind_eq_ok.1 e
    simp only [pure_ok, Except.ok.injEq, Prod.mk.injEq] at e; rw [← e.1]
    exact hm.2 _ _ _ (hlf _ _ _ _ _ e2) (ih hm.1 _ _ _ e1)
  | refractive n1 n2 =>
    rw [Mat.Closed] at hm
    rw [shade] at e
    unfold shadeRefractive at e
    rcases hg : refractGeom n1 n2 r.dir h.normal with ⟨n, i, m1, m2, cosi, sin2t⟩
    rw [hg] at e
    dsimp only at e
    split at e
    · exact withRay_closed hlf _ _ _ _ _ e
    · rename_i hc
      obtain ⟨⟨ct, c1⟩, e1, e⟩ := bind_eq_ok.1 e
      obtain ⟨⟨cr, c2⟩, e2, e⟩ := bind_eq_ok.1 e
      simp only [pure_ok, Except.ok.injEq, Prod.mk.injEq] at e
      rw [← e.1]
      exact hm _ _ _ _ _ _ _ _ hg (by simpa using hc) _ _ (hlf _ _ _ _ _ e2) (hlf _ _ _ _ _ e1)
  | transparent tex b =>
    rw [Mat.Closed] at hm
    rw [shade] at e
    dsimp only at e
    obtain ⟨⟨x, c1⟩, e1, e⟩ := bind_eq_ok.1 e
    obtain ⟨y, e2, e⟩ := bind_eq_ok.1 e
    simp only [pure_ok, Except.ok.injEq, Prod.mk.injEq] at e; rw [← e.1]
    exact (hm _ _ e2).1 _ (hlf _ _ _ _ _ e1)
  | twoSided f b ihf ihb =>
    rw [Mat.Closed] at hm
    rw [shade] at e
    split at e
    · exact ihf hm.1 _ _ _ e
    · exact ihb hm.2 _ _ _ e
  | blend a ma b mb iha ihb =>
    rw [Mat.Closed] at hm
    rw [shade] at e
    obtain ⟨⟨x, c1⟩, e1, e⟩ := bind_eq_ok.1 e
    obtain ⟨⟨y, c2⟩, e2, e⟩ := bind_eq_ok.1 e
    simp only [pure_ok, Except.ok.injEq, Prod.mk.injEq] at e; rw [← e.1]
    exact hm.2.2 _ _ (iha hm.1 _ _ _ e1) (ihb hm.2.1 _ _ _ e2)
  | blendMap tex ma mb iha ihb =>
    rw [Mat.Closed] at hm
    rw [shade] at e
    obtain ⟨k, e0, e⟩ := bind_eq_ok.1 e
    dsimp only at e
    obtain ⟨⟨x, c1⟩, e1, e⟩ := bind_eq_ok.1 e
    obtain ⟨⟨y, c2⟩, e2, e⟩ := bind_eq_ok.1 e
    simp only [pure_ok, Except.ok.injEq, Prod.mk.injEq] at e; rw [← e.1]
    exact hm.2.2 _ _ e0 _ _ (whenPos_closed hs.black (iha hm.1) _ _ _ _ e1)
      (whenPos_closed hs.black (ihb hm.2.1) _ _ _ _ e2)
  | func f =>
    rw [Mat.Closed] at hm
    rw [shade] at e
    obtain ⟨x, e1, e⟩ := bind_eq_ok.1 e
    simp only [pure_ok, Except.ok.injEq, Prod.mk.injEq] at e; rw [← e.1]; exact hm _ _ _ e1

theorem fogLoop_closed (hs : s.Closed rng P D I W) (p : Vec F) (w : F) (hw : ∀ d k, W d → I k → W (d.madd w k))
    (n : Int) (ls : List (Light F)) (hl : ∀ l ∈ ls, l ∈ s.lights) (acc : Color F) (hacc : W acc) (c : Ctx F S)
    (a : Color F) (c' : Ctx F S) (e : fogLoop rng s.occlude p w n ls acc c = .ok (a, c')) : W a := by
  induction ls generalizing acc c n with
  | nil => simp only [fogLoop, Except.ok.injEq, Prod.mk.injEq] at e; rw [← e.1]; exact hacc
  | cons l ls ih =>
    have ih := ih (hl := fun l h => hl l (List.mem_cons_of_mem _ h))
    rw [fogLoop] at e
    split at e
    · simp only [Except.ok.injEq, Prod.mk.injEq] at e; rw [← e.1]; exact hacc
    · obtain ⟨⟨⟨lp, int⟩, c1⟩, e1, e2⟩ := bind_eq_ok.1 e
      have h1 := hs.light l (hl l (by simp)) _ _ _ _ _ e1
      dsimp only at e2
      split at e2
      · exact ih _ _ hacc _ e2
      · obtain ⟨⟨i2, r2⟩, e3, e4⟩ := bind_eq_ok.1 e2
        exact ih _ _ (hw _ _ hacc (hs.occlude _ _ _ _ _ h1 e3)) _ e4

theorem Medium.filter_closed (hs : s.Closed rng P D I W) (m : Medium F) (hm : m.Closed P W I) (r : Ray F) (t : F)
    (col : Color F) (hc : P col) (c : Ctx F S) (a : Color F) (c' : Ctx F S)
    (e : m.filter rng s r t col c = .ok (a, c')) : P a := by
  cases m with
  | expFog d am h =>
    rw [Medium.Closed] at hm
    rw [filter] at e
    obtain ⟨b, -, e⟩ := bind_eq_ok.1 e
    dsimp only at e
    split at e
    · simp only [pure_ok, Except.ok.injEq, Prod.mk.injEq] at e; rw [← e.1]; exact hc
    · split at e
      · simp [throw, throwThe, MonadExceptOf.throw] at e
      · rename_i hlen
        simp only [pure_ok, Except.ok.injEq, Prod.mk.injEq] at e; rw [← e.1]
        exact hm _ (by simpa using hlen) _ hc
  | fog d h n =>
    rw [Medium.Closed] at hm
    rw [filter] at e
    obtain ⟨b, -, e⟩ := bind_eq_ok.1 e
    dsimp only at e
    split at e
    · simp only [pure_ok, Except.ok.injEq, Prod.mk.injEq] at e; rw [← e.1]; exact hc
    · obtain ⟨⟨uv, c1⟩, e1, e⟩ := bind_eq_ok.1 e
      dsimp only at e
      obtain ⟨⟨acc, c2⟩, e2, e⟩ := bind_eq_ok.1 e
      simp only [pure_ok, Except.ok.injEq, Prod.mk.injEq] at e; rw [← e.1]
      obtain ⟨h1, h2⟩ := hm r t
      exact h2 _ _ hc (fogLoop_closed hs _ _ (fun d k => h1 _ d k) _ _ (fun _ h => h) _ hs.wBlack _ _ _ e2)

theorem mediaLoop_closed (hs : s.Closed rng P D I W) (r : Ray F) (t : F) (ms : List (Medium F))
    (hm : ∀ m ∈ ms, m.Closed P W I) (col : Color F) (hc : P col) (c : Ctx F S) (a : Color F) (c' : Ctx F S)
    (e : mediaLoop rng s r t ms col c = .ok (a, c')) : P a := by
  induction ms generalizing col c with
  | nil => simp only [mediaLoop, Except.ok.injEq, Prod.mk.injEq] at e; rw [← e.1]; exact hc
  | cons m ms ih =>
    rw [mediaLoop] at e
    obtain ⟨⟨c1, x1⟩, e1, e⟩ := bind_eq_ok.1 e
    exact ih (fun m h => hm m (List.mem_cons_of_mem _ h)) _
      (m.filter_closed hs (hm m (by simp)) _ _ _ hc _ _ _ e1) _ e

theorem intersectLoop_mat {Q : Mat F → Prop} (objs : List (Obj F (Mat F))) (ho : ∀ o ∈ objs, o.AllMat Q)
    (front : HitRecord F (Mat F)) (hf : OptMat Q front.mat) (r : Ray F) (h : HitRecord F (Mat F)) (r' : Ray F)
    (e : intersectLoop objs front r = .ok (h, r')) : OptMat Q h.mat := by
  induction objs generalizing front r with
  | nil => simp only [intersectLoop, Except.ok.injEq, Prod.mk.injEq] at e; rw [← e.1]; exact hf
  | cons o os ih =>
    rw [intersectLoop] at e
    obtain ⟨⟨f, r1⟩, e1, e⟩ := bind_eq_ok.1 e
    have hm := o.intersect_mat (ho o (by simp)) _ _ _ e1
    refine ih (fun o h => ho o (List.mem_cons_of_mem _ h)) _ ?_ _ e
    split
    · exact hm
    · exact hf

theorem Scene.Closed.seen (hs : s.Closed rng P D I W) (f : Field) :
    ∀ o ∈ s.seen f, o.AllMat (Mat.Closed P D I) := by
  intro o ho
  cases f with
  | direct =>
    rcases List.mem_append.1 ho with h | h
    · exact hs.mat o h
    · obtain ⟨l, hl, rfl⟩ := List.mem_map.1 h
      exact hs.lightMat l hl
  | indirect =>
    rcases List.mem_append.1 ho with h | h
    · exact hs.mat o h
    · obtain ⟨l, hl, rfl⟩ := List.mem_map.1 h
      rw [Obj.AllMat]
      intro x hx
      simp only [Option.some.injEq] at hx
      subst hx
      rw [Mat.Closed]; trivial

theorem lightFieldFrom_closed (hs : s.Closed rng P D I W) {base : LF F S} (hb : LF.All P base) (n : Nat) :
    LF.All P (s.lightFieldFrom rng base n) := by
  induction n with
  | zero =>
    intro f r c a c' e
    rw [Scene.lightFieldFrom] at e
    split at e
    · simp only [Except.ok.injEq, Prod.mk.injEq] at e; rw [← e.1]; exact hs.black
    · exact hb _ _ _ _ _ e
  | succ n ih =>
    intro f r c a c' e
    rw [Scene.lightFieldFrom] at e
    split at e
    · simp only [Except.ok.injEq, Prod.mk.injEq] at e; rw [← e.1]; exact hs.black
    · dsimp only at e
      obtain ⟨⟨front, r1⟩, e0, e⟩ := bind_eq_ok.1 e
      obtain ⟨⟨c1, x1⟩, e1, e⟩ := bind_eq_ok.1 e
      obtain ⟨⟨c2, x2⟩, e2, e⟩ := bind_eq_ok.1 e
      simp only [pure_ok, Except.ok.injEq, Prod.mk.injEq] at e; rw [← e.1]
      have hm := intersectLoop_mat _ (hs.seen f) _ (by
        intro x hx
        simp only [frontDefault, Option.some.injEq] at hx
        subst hx
        rw [Mat.Closed]; trivial) _ _ _ e0
      have h1 : P c1 := by
        unfold shadeFront at e1
        split at e1
        · simp at e1
        · rename_i m hmm
          exact Mat.shade_closed hs ih m (hm m hmm) _ _ _ _ _ e1
      exact mediaLoop_closed hs _ _ _ hs.media _ h1 _ _ _ e2

theorem lightField_closed (hs : s.Closed rng P D I W) (n : Nat) : LF.All P (s.lightField rng n) :=
  lightFieldFrom_closed hs (fun _ _ _ _ _ e => by simp at e) n

end

end BR
