/-!
# Outcomes of modelled C++ functions

A modelled function either returns normally (`ok`), reports an error (`err`), or runs into undefined
behaviour (`ub`): reading outside a view, dereferencing an empty optional, dividing by zero, violating an
`assert`, or not terminating.
-/

namespace Silkworm

/-- Result of a modelled function with error codes of type `ε`. -/
inductive Outcome (ε : Type) (α : Type) where
  | ok (a : α)
  | err (e : ε)
  | ub
  deriving DecidableEq, Repr

namespace Outcome

variable {ε : Type} {α : Type} {β : Type} {γ : Type}

/-- Sequencing: errors and undefined behaviour stop the computation. -/
def bind (x : Outcome ε α) (f : α → Outcome ε β) : Outcome ε β :=
  match x with
  | ok a => f a
  | err e => err e
  | ub => ub

instance : Monad (Outcome ε) where
  pure := ok
  bind := bind

@[simp] theorem pure_eq (a : α) : (pure a : Outcome ε α) = ok a := rfl
@[simp] theorem ok_bind (a : α) (f : α → Outcome ε β) : (ok a >>= f) = f a := rfl
@[simp] theorem err_bind (e : ε) (f : α → Outcome ε β) : (err e >>= f) = err e := rfl
@[simp] theorem ub_bind (f : α → Outcome ε β) : ((ub : Outcome ε α) >>= f) = ub := rfl

theorem bind_eq_ok {x : Outcome ε α} {f : α → Outcome ε β} {b : β} :
    (x >>= f) = ok b ↔ ∃ a, x = ok a ∧ f a = ok b := by
  cases x <;> simp

theorem bind_eq_ub {x : Outcome ε α} {f : α → Outcome ε β} :
    (x >>= f) = ub ↔ x = ub ∨ ∃ a, x = ok a ∧ f a = ub := by
  cases x <;> simp

theorem bind_ne_ub {x : Outcome ε α} {f : α → Outcome ε β} (hx : x ≠ ub)
    (hf : ∀ a, x = ok a → f a ≠ ub) : (x >>= f) ≠ ub := by
  cases x with
  | ok a => exact hf a rfl
  | err e => simp
  | ub => exact absurd rfl hx

theorem bind_assoc (x : Outcome ε α) (f : α → Outcome ε β) (g : β → Outcome ε γ) :
    ((x >>= f) >>= g) = (x >>= fun a => f a >>= g) := by
  cases x <;> rfl

theorem ite_err_eq_ok {c : Prop} [Decidable c] {e : ε} {o : Outcome ε α} {a : α} :
    (if c then err e else o) = ok a ↔ ¬ c ∧ o = ok a := by
  split <;> simp_all

/-- `isOk` as a Boolean test. -/
def isOk : Outcome ε α → Bool
  | ok _ => true
  | _ => false

end Outcome

end Silkworm
