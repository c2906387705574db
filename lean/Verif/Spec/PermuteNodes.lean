import Verif.Spec.Dimacs
import Verif.Spec.Graph
import Verif.Spec.Vector
/-! # Specification: the same graph with other node and arc ids -/
namespace Spec

/-- The graph `firstOut'`, `head'` with the weight vectors `weights'` is the graph `firstOut`, `head` with the weight
vectors `weights`, where node `x` is now called `nodePerm[x]` and arc `arcPerm[i]` is now called `i`. -/
structure IsRenumbering (nodePerm arcPerm firstOut head : List Nat) (weights : List (List Nat))
    (firstOut' head' : List Nat) (weights' : List (List Nat)) : Prop where
  arcs : IsPermutation arcPerm
  arcCount : arcPerm.length = head.length
  arcCount' : head'.length = head.length
  same : ∀ i a x y x' y' : Nat, arcPerm[i]? = some a → OutArc firstOut x a → head[a]? = some y →
    nodePerm[x]? = some x' → nodePerm[y]? = some y' → OutArc firstOut' x' i ∧ head'[i]? = some y'
  weightCount : weights'.length = weights.length
  weight : ∀ (k : Nat) (w w' : List Nat), weights[k]? = some w → weights'[k]? = some w' →
    w'.length = w.length ∧ ∀ i a : Nat, arcPerm[i]? = some a → w'[i]? = w[a]?

end Spec
