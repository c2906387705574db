import Verif.Basic
/-! # Outcomes of functions that may throw

`ok` is a normal return, `error` an exception, `ub` undefined behaviour, a failed assertion or an endless loop. -/
namespace RK

/-- The outcome of a call. -/
inductive Res (α : Type) where
  | ok (a : α)
  | error
  | ub
deriving Repr, DecidableEq

namespace Res

/-- Sequential composition: the rest is executed only after a normal return. -/
protected def bind {α β : Type} (r : Res α) (f : α → Res β) : Res β :=
  match r with
  | ok a => f a
  | error => error
  | ub => ub

instance : Monad Res where
  pure := Res.ok
  bind := Res.bind

/-- A computation that cannot throw. -/
def ofOption {α : Type} : Option α → Res α
  | some a => ok a
  | none => ub

/-- Throw unless `b` holds. -/
def require (b : Bool) : Res Unit := if b then ok () else error

@[simp] theorem ok_bind {α β : Type} (a : α) (f : α → Res β) : (ok a >>= f) = f a := rfl
@[simp] theorem error_bind {α β : Type} (f : α → Res β) : ((error : Res α) >>= f) = error := rfl
@[simp] theorem ub_bind {α β : Type} (f : α → Res β) : ((ub : Res α) >>= f) = ub := rfl
@[simp] theorem pure_eq {α : Type} (a : α) : (pure a : Res α) = ok a := rfl
@[simp] theorem ofOption_some {α : Type} (a : α) : ofOption (some a) = ok a := rfl
@[simp] theorem ofOption_none {α : Type} : ofOption (none : Option α) = ub := rfl
@[simp] theorem require_true : require true = ok () := rfl
@[simp] theorem require_false : require false = error := rfl

theorem bind_eq_ok {α β : Type} {r : Res α} {f : α → Res β} {b : β} : (r >>= f) = ok b ↔ ∃ a, r = ok a ∧ f a = ok b := by
  cases r with
  | ok a => exact ⟨fun h => ⟨a, rfl, h⟩, fun ⟨a', h1, h2⟩ => by cases h1; exact h2⟩
  | error => exact ⟨(fun h => by cases h), fun ⟨_, h, _⟩ => by cases h⟩
  | ub => exact ⟨(fun h => by cases h), fun ⟨_, h, _⟩ => by cases h⟩

theorem require_eq_ok {b : Bool} : require b = ok () ↔ b = true := by cases b <;> simp

theorem ofOption_eq_ok {α : Type} {o : Option α} {a : α} : ofOption o = ok a ↔ o = some a := by cases o <;> simp

end Res
end RK
