import Verif.Model.Server

namespace BR.Server

variable {V : Type}

/-- Thread `i` has been accepted and has not responded yet. -/
def Baking (s : State V) (i : Nat) : Prop :=
  match s.pc i with
  | .prepared _ _ | .sampling _ _ _ _ | .sampled _ | .finished _ _ => True
  | _ => False

/-- The states reached by histories in which every action satisfies `P` in the state it happens in. -/
inductive Run [DecidableEq V] (P : State V → Action V → Prop) : State V → Prop
  | init : Run P .init
  | step (s t : State V) (a : Action V) : Run P s → P s a → Step s a t → Run P t

/-- Any history. -/
def Any : State V → Action V → Prop := fun _ _ => True

/-- A client that sends a bake request only when none is pending; cancel requests are sent at any time. -/
def Polite (s : State V) : Action V → Prop
  | .bake _ _ => ∀ j, ¬ Baking s j
  | _ => True

/-- Nobody cancels; bake requests are sent at any time. -/
def Uncancelled (_ : State V) : Action V → Prop
  | .cancel => False
  | _ => True

/-- As `Run`, with the views of the bake requests that have been answered, the last one first. -/
inductive History [DecidableEq V] (P : State V → Action V → Prop) : List V → State V → Prop
  | init : History P [] .init
  | answer (L : List V) (s t : State V) (i : Nat) (v w : V) : History P L s → P s (.finish i) → Step s (.finish i) t →
      t.pc i = .responded v w → History P (v :: L) t
  | other (L : List V) (s t : State V) (a : Action V) : History P L s → P s a → Step s a t → (∀ i, a ≠ .finish i) →
      History P L t

end BR.Server
