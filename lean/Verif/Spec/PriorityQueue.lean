/-! # Specification of a priority queue with addressable ids -/
namespace Spec

/-- Contents of a queue: the key of every contained id. -/
abbrev PMap := Nat → Option Nat

def PMap.empty : PMap := fun _ => none
def PMap.insert (m : PMap) (id key : Nat) : PMap := fun i => if i = id then some key else m i
def PMap.erase (m : PMap) (id : Nat) : PMap := fun i => if i = id then none else m i

/-- The calls of the public interface. -/
inductive PQOp
  | push (id key : Nat)
  | decreaseKey (id key : Nat)
  | increaseKey (id key : Nat)
  | pop
  | peek
  | clear
  | containsId (id : Nat)
  | getKey (id : Nat)
  | size
  | empty
deriving Repr, DecidableEq

/-- What a call returns. -/
inductive PQOut
  | unit
  | flag (b : Bool)
  | num (k : Nat)
  | entry (id key : Nat)
deriving Repr, DecidableEq

/-- Documented precondition of a call on a queue over the ids `0..n-1` with contents `m`. -/
def PQPre (n : Nat) (m : PMap) : PQOp → Prop
  | .push id _ => id < n ∧ m id = none
  | .decreaseKey id _ => m id ≠ none
  | .increaseKey id _ => m id ≠ none
  | .pop => ∃ id, m id ≠ none
  | .peek => ∃ id, m id ≠ none
  | .clear => True
  | .containsId id => id < n
  | .getKey id => m id ≠ none
  | .size => True
  | .empty => True

/-- `(id,key)` is an entry of `m` with minimum key. -/
def IsMinEntry (m : PMap) (id key : Nat) : Prop :=
  m id = some key ∧ ∀ id' key', m id' = some key' → key ≤ key'

/-- Number of contained ids below `n`. -/
def PMap.count (n : Nat) (m : PMap) : Nat := ((List.range n).filter fun id => (m id).isSome).length

/-- `PQStep n m op out m'`: on contents `m` the call `op` may answer `out`, leaving contents `m'`. -/
def PQStep (n : Nat) (m : PMap) (op : PQOp) (out : PQOut) (m' : PMap) : Prop :=
  match op with
  | .push id key => out = .unit ∧ m' = m.insert id key
  | .decreaseKey id key => ∃ old, m id = some old ∧
      (if key < old then out = .flag true ∧ m' = m.insert id key else out = .flag false ∧ m' = m)
  | .increaseKey id key => ∃ old, m id = some old ∧
      (if old < key then out = .flag true ∧ m' = m.insert id key else out = .flag false ∧ m' = m)
  | .pop => ∃ id key, out = .entry id key ∧ IsMinEntry m id key ∧ m' = m.erase id
  | .peek => ∃ id key, out = .entry id key ∧ IsMinEntry m id key ∧ m' = m
  | .clear => out = .unit ∧ m' = PMap.empty
  | .containsId id => ∃ b, out = .flag b ∧ (b = true ↔ m id ≠ none) ∧ m' = m
  | .getKey id => ∃ key, out = .num key ∧ m id = some key ∧ m' = m
  | .size => out = .num (m.count n) ∧ m' = m
  | .empty => ∃ b, out = .flag b ∧ (b = true ↔ ∀ id, m id = none) ∧ m' = m

end Spec
