import Verif.Basic
/-! # Specification of a finite set of ids with minimum extraction -/
namespace Spec

inductive IdSetOp
  | push (id : Nat)
  | pop
  | contains (id : Nat)
  | peek
  | empty
  | clear
deriving Repr, DecidableEq

inductive IdSetOut
  | unit
  | flag (b : Bool)
  | id (i : Nat)
deriving Repr, DecidableEq

/-- Preconditions on a queue over the ids `0..n-1` whose set of members is `S`. -/
def IdSetPre (n : Nat) (S : Nat → Prop) : IdSetOp → Prop
  | .push id => id < n
  | .pop => ∃ id, S id
  | .contains id => id < n
  | _ => True

/-- `id` is the smallest member. -/
def IsLeast (S : Nat → Prop) (id : Nat) : Prop := S id ∧ ∀ i, S i → id ≤ i

/-- Allowed answers and the set of members afterwards. -/
def IdSetStep (S : Nat → Prop) (op : IdSetOp) (out : IdSetOut) (S' : Nat → Prop) : Prop :=
  match op with
  | .push id => out = .unit ∧ ∀ i, S' i ↔ S i ∨ i = id
  | .pop => ∃ id, out = .id id ∧ IsLeast S id ∧ ∀ i, S' i ↔ S i ∧ i ≠ id
  | .contains id => (∃ b, out = .flag b ∧ (b = true ↔ S id)) ∧ ∀ i, S' i ↔ S i
  | .peek => (∃ id, out = .id id ∧
      ((∃ i, S i) → IsLeast S id) ∧ ((∀ i, ¬ S i) → id = RK.invalidId)) ∧ ∀ i, S' i ↔ S i
  | .empty => (∃ b, out = .flag b ∧ (b = true ↔ ∀ i, ¬ S i)) ∧ ∀ i, S' i ↔ S i
  | .clear => out = .unit ∧ ∀ i, ¬ S' i

end Spec
