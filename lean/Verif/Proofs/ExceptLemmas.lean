import Verif.Model.Basic

/-! Small lemmas about `Except` used throughout. -/

namespace Ocelot

@[simp] theorem ebind_ok {α β : Type} (a : α) (f : α → Except Err β) :
    (Except.ok a >>= f) = f a := rfl

@[simp] theorem ebind_error {α β : Type} (e : Err) (f : α → Except Err β) :
    ((Except.error e : Except Err α) >>= f) = Except.error e := rfl

@[simp] theorem epure {α : Type} (a : α) : (pure a : Except Err α) = .ok a := rfl

@[simp] theorem ethrow {α : Type} (e : Err) : (throw e : Except Err α) = .error e := rfl

@[simp] theorem getKey_some {α : Type} (a : α) : getKey (some a) = .ok a := rfl

@[simp] theorem getKey_none {α : Type} : getKey (none : Option α) = .error .keyError := rfl

theorem bind_eq_ok {α β : Type} {x : Except Err α} {f : α → Except Err β} {b : β} :
    (x >>= f) = .ok b ↔ ∃ a, x = .ok a ∧ f a = .ok b := by
  cases x <;> simp

theorem getKey_eq_ok {α : Type} {o : Option α} {a : α} : getKey o = .ok a ↔ o = some a := by
  cases o <;> simp

theorem bind_eq_error {α β : Type} {x : Except Err α} {f : α → Except Err β} {e : Err} :
    (x >>= f) = .error e ↔ x = .error e ∨ ∃ a, x = .ok a ∧ f a = .error e := by
  cases x <;> simp

end Ocelot
