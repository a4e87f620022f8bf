import Verif.Model.Basic

/-! Lemmas about results. -/

namespace Jess

theorem bind_ok_iff {α β : Type} {x : Res α} {f : α → Res β} {v : β} :
    (x >>= f) = .ok v ↔ ∃ a, x = .ok a ∧ f a = .ok v := by
  cases x <;> simp [bind, Except.bind]

@[simp] theorem ok_bind {α β : Type} (a : α) (f : α → Res β) : ((.ok a : Res α) >>= f) = f a := rfl

@[simp] theorem error_bind {α β : Type} (e : Err) (f : α → Res β) : ((.error e : Res α) >>= f) = .error e := rfl

theorem bind_error_iff {α β : Type} {x : Res α} {f : α → Res β} {e : Err} :
    (x >>= f) = .error e ↔ x = .error e ∨ ∃ a, x = .ok a ∧ f a = .error e := by
  cases x <;> simp [bind, Except.bind]

end Jess
