import Verif.Model.Construct
import Verif.Lemmas.GoM

/-! `Intersect` returns with the caller's ray unchanged (used for C15 and to simplify the state
passing elsewhere). -/

namespace BR

variable {F M : Type} [Add F] [Sub F] [Mul F] [Div F] [Neg F] [GoFloat F]

/-- An `Intersect` implementation that returns with the ray it was given. -/
def KeepsRay (isect : Ray F → GoM (HitRecord F M × Ray F)) : Prop :=
  ∀ r h r', isect r = .ok (h, r') → r' = r

omit [Div F] [Sub F] [Neg F] in
theorem marchLoop_keeps {isect : Ray F → GoM (HitRecord F M × Ray F)} (hk : KeepsRay isect)
    (inside : Vec F → GoM Bool) (want : Bool) (maxT : F) (start : Vec F) (ttl : Nat) :
    ∀ (tOff : F) (h : HitRecord F M) (r : Ray F) (h' : HitRecord F M) (r' : Ray F),
      marchLoop isect inside want maxT start ttl tOff h r = .ok (h', r') →
      r' = { r with start := start } := by
  induction ttl with
  | zero =>
    intro tOff h r h' r' e
    rw [marchLoop] at e
    split at e <;> · injection e with e; injection e with _ e; exact e.symm
  | succ n ih =>
    intro tOff h r h' r' e
    rw [marchLoop] at e
    split at e
    · obtain ⟨i, hi, e⟩ := bind_eq_ok.1 e
      split at e
      · injection e with e; injection e with _ e; exact e.symm
      · obtain ⟨⟨h2, r2⟩, h12, e'⟩ := bind_eq_ok.1 e; clear e; rename' e' => e
        have := hk _ _ _ h12
        subst this
        dsimp only at e
        rw [ih _ _ _ _ _ e]
    · injection e with e; injection e with _ e; exact e.symm

omit [Div F] [Sub F] [Neg F] in
theorem march_keeps {isect : Ray F → GoM (HitRecord F M × Ray F)} (hk : KeepsRay isect)
    (inside : Vec F → GoM Bool) (want : Bool) (maxT : F) :
    KeepsRay fun r => march isect inside want r maxT := by
  intro r h r' e
  obtain ⟨⟨h1, r1⟩, h12, e'⟩ := bind_eq_ok.1 e; clear e; rename' e' => e
  have := hk _ _ _ h12
  subst this
  dsimp only at e
  exact marchLoop_keeps hk _ _ _ _ _ _ _ _ _ _ e

omit [Div F] [Sub F] [Neg F] in
theorem marchBoth_keeps {isectA isectB : Ray F → GoM (HitRecord F M × Ray F)} (ha : KeepsRay isectA)
    (hb : KeepsRay isectB) (insideA insideB : Vec F → GoM Bool) (want : Bool) :
    KeepsRay fun r => marchBoth isectA insideA isectB insideB want r := by
  intro r h r' e
  obtain ⟨⟨h1, r1⟩, h12, e'⟩ := bind_eq_ok.1 e; clear e; rename' e' => e
  have := march_keeps ha _ _ _ _ _ _ h12
  subst this
  dsimp only at e
  obtain ⟨⟨h3, r3⟩, h34, e'⟩ := bind_eq_ok.1 e; clear e; rename' e' => e
  have := march_keeps hb _ _ _ _ _ _ h34
  subst this
  injection e with e; injection e with _ e; exact e.symm

omit [Add F] [Div F] [Sub F] [Neg F] [Mul F] in
theorem visitChild_keeps {isect : Ray F → GoM (HitRecord F M × Ray F)} (hk : KeepsRay isect) (b : Bool)
    (better : HitRecord F M → HitRecord F M → Bool) (front : HitRecord F M) :
    KeepsRay (visitChild b isect better front) := by
  intro r h r' e
  rw [visitChild] at e
  split at e
  · obtain ⟨⟨h1, r1⟩, h12, e'⟩ := bind_eq_ok.1 e; clear e; rename' e' => e
    have := hk _ _ _ h12
    subst this
    injection e with e; injection e with _ e; exact e.symm
  · injection e with e; injection e with _ e; exact e.symm

mutual

theorem Obj.intersect_keeps (o : Obj F M) (r : Ray F) (h : HitRecord F M) (r' : Ray F)
    (e : o.intersect r = .ok (h, r')) : r' = r := by
  match o with
  | .backdrop mat => 
    rw [Obj.intersect] at e; injection e with e; injection e with _ e; exact e.symm
  | .bounded bounds orig =>
    rw [Obj.intersect] at e
    split at e
    · injection e with e; injection e with _ e; exact e.symm
    · exact Obj.intersect_keeps orig r h r' e
  | .box bounds mat =>
    rw [Obj.intersect] at e
    obtain ⟨h1, _, e⟩ := bind_eq_ok.1 e
    injection e with e; injection e with _ e; exact e.symm
  | .quadric q =>
    rw [Obj.intersect] at e; injection e with e; injection e with _ e; exact e.symm
  | .iso s =>
    rw [Obj.intersect] at e
    obtain ⟨h1, _, e⟩ := bind_eq_ok.1 e
    injection e with e; injection e with _ e; exact e.symm
  | .face v0 v1 v2 =>
    rw [Obj.intersect] at e; injection e with e; injection e with _ e; exact e.symm
  | .tree root =>
    rw [Obj.intersect] at e
    split at e
    · injection e with e; injection e with _ e; exact e.symm
    · exact Node.intersect_keeps root r h r' e
  | .withMaterial mat orig =>
    rw [Obj.intersect] at e
    obtain ⟨⟨h1, r1⟩, e1, e'⟩ := bind_eq_ok.1 e; clear e; rename' e' => e
    injection e with e; injection e with _ e
    exact e ▸ Obj.intersect_keeps orig r h1 r1 e1
  | .transformed bounds forward inverse orig =>
    rw [Obj.intersect] at e
    split at e
    · injection e with e; injection e with _ e; exact e.symm
    · obtain ⟨⟨h1, r1⟩, e1, e'⟩ := bind_eq_ok.1 e; clear e; rename' e' => e
      injection e with e; injection e with _ e; exact e.symm
  | .and a b =>
    rw [Obj.intersect] at e
    exact marchBoth_keeps (fun r h r' e => Obj.intersect_keeps a r h r' e)
      (fun r h r' e => Obj.intersect_keeps b r h r' e) _ _ _ _ _ _ e
  | .or a b =>
    rw [Obj.intersect] at e
    exact marchBoth_keeps (fun r h r' e => Obj.intersect_keeps a r h r' e)
      (fun r h r' e => Obj.intersect_keeps b r h r' e) _ _ _ _ _ _ e
  | .restrict a b =>
    rw [Obj.intersect] at e
    exact march_keeps (fun r h r' e => Obj.intersect_keeps a r h r' e) _ _ _ _ _ _ e
  | .not orig =>
    rw [Obj.intersect] at e
    obtain ⟨⟨h1, r1⟩, e1, e'⟩ := bind_eq_ok.1 e; clear e; rename' e' => e
    injection e with e; injection e with _ e
    exact e ▸ Obj.intersect_keeps orig r h1 r1 e1
  | .hollow orig =>
    rw [Obj.intersect] at e
    exact Obj.intersect_keeps orig r h r' e
  | .remapped orig remap =>
    rw [Obj.intersect] at e
    obtain ⟨⟨h1, r1⟩, e1, e'⟩ := bind_eq_ok.1 e; clear e; rename' e' => e
    injection e with e; injection e with _ e
    exact e ▸ Obj.intersect_keeps orig r h1 r1 e1
  | .allSpace => rw [Obj.intersect] at e; cases e
  | .prim isect inside bounds =>
    rw [Obj.intersect] at e
    obtain ⟨h1, _, e⟩ := bind_eq_ok.1 e
    injection e with e; injection e with _ e; exact e.symm
termination_by structural o

theorem Node.intersect_keeps (n : Node F M) (r : Ray F) (h : HitRecord F M) (r' : Ray F)
    (e : n.intersect r = .ok (h, r')) : r' = r := by
  match n with
  | .leaf bb leafs =>
    rw [Node.intersect] at e
    exact Obj.scan_keeps leafs _ r h r' e
  | .inner bb ch0 ch1 =>
    rw [Node.intersect] at e
    obtain ⟨⟨f1, r1⟩, e1, e'⟩ := bind_eq_ok.1 e; clear e; rename' e' => e
    have h1 := visitChild_keeps (fun r h r' e => Node.intersect_keeps ch0 r h r' e) _ _ _ _ _ _ e1
    subst h1
    dsimp only at e
    obtain ⟨⟨f3, r3⟩, e3, e'⟩ := bind_eq_ok.1 e; clear e; rename' e' => e
    have h3 := visitChild_keeps (fun r h r' e => Node.intersect_keeps ch1 r h r' e) _ _ _ _ _ _ e3
    subst h3
    dsimp only at e
    injection e with e; injection e with _ e; exact e.symm
termination_by structural n

theorem Obj.scan_keeps (os : List (Obj F M)) (front : HitRecord F M) (r : Ray F) (h : HitRecord F M)
    (r' : Ray F) (e : Obj.scan os front r = .ok (h, r')) : r' = r := by
  match os with
  | [] => rw [Obj.scan] at e; injection e with e; injection e with _ e; exact e.symm
  | o :: os =>
    rw [Obj.scan] at e
    obtain ⟨⟨f, r2⟩, e2, e'⟩ := bind_eq_ok.1 e; clear e; rename' e' => e
    have h2 := Obj.intersect_keeps o r f r2 e2
    subst h2
    exact Obj.scan_keeps os _ r2 h r' e
termination_by structural os

end

end BR
