import Verif.Num.GoFloat

/-! Equations for computing with panicking computations. -/

namespace BR

variable {α β : Type}

theorem ok_bind (a : α) (f : α → GoM β) : (Except.ok a >>= f : GoM β) = f a := rfl
theorem pure_bind' (a : α) (f : α → GoM β) : ((pure a : GoM α) >>= f) = f a := rfl
theorem error_bind (e : Panic) (f : α → GoM β) : ((Except.error e : GoM α) >>= f) = .error e := rfl
theorem pure_ok (a : α) : (pure a : GoM α) = .ok a := rfl
theorem bind_eq_ok {x : GoM α} {f : α → GoM β} {b : β} :
    (x >>= f) = .ok b ↔ ∃ a, x = .ok a ∧ f a = .ok b := by
  cases x with
  | error e => rw [error_bind]; simp
  | ok a => rw [ok_bind]; simp

end BR
