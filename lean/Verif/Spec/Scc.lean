import Verif.Spec.Graph
import Mathlib.Logic.Relation
/-! # Specification: strongly connected components -/
namespace Spec

/-- There is an arc from `x` to `y`. -/
def Edge (firstOut head : List Nat) (x y : Nat) : Prop := ∃ a : Nat, OutArc firstOut x a ∧ head[a]? = some y

/-- There is a directed path (possibly empty) from `x` to `y`. -/
def Path (firstOut head : List Nat) : Nat → Nat → Prop := Relation.ReflTransGen (Edge firstOut head)

/-- `x` and `y` are in the same strongly connected component. -/
def Mutual (firstOut head : List Nat) (x y : Nat) : Prop :=
  Path firstOut head x y ∧ Path firstOut head y x

end Spec
