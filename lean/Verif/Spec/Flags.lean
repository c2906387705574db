/-! # Specification of a resettable flag array -/
namespace Spec

/-- The calls that change a flag array. -/
inductive FlagOp
  | set (id : Nat)
  | resetOne (id : Nat)
  | resetAll
deriving Repr, DecidableEq

/-- Effect of one call on the flag of `id`. -/
def flagOpStep (id : Nat) (b : Bool) : FlagOp → Bool
  | .set i => if i = id then true else b
  | .resetOne i => if i = id then false else b
  | .resetAll => false

/-- `id` is set after the calls `ops` (oldest first): the most recent call that concerns `id` was
`set(id)`. -/
def flagAfter (ops : List FlagOp) (id : Nat) : Bool :=
  ops.foldl (flagOpStep id) false

/-- All ids used by the calls are valid. -/
def FlagOp.valid (n : Nat) : FlagOp → Prop
  | .set i => i < n
  | .resetOne i => i < n
  | .resetAll => True

end Spec
