import Verif.Spec.Dijkstra
/-! # Specification of routes -/
namespace Spec

/-- `tail` names the node of each arc of the adjacency array `firstOut`, `head`. -/
structure TailsOf (firstOut head tail : List Nat) : Prop where
  length : tail.length = head.length
  own : ∀ x a : Nat, OutArc firstOut x a → tail[a]? = some x

/-- `d` is the length of a shortest walk from `s` to `t`, `arcs` are the arcs of such a walk and `nodes` its nodes. If there is no walk
shorter than 2147483647, then `d` is this value and the lists are empty. -/
def ShortestRoute (A : ArcRel) (s t d : Nat) (arcs nodes : List Nat) : Prop :=
  (d < 2147483647 ∧ IsDist A s t d ∧ Walk A s arcs t d ∧ NodesOf A s arcs nodes) ∨
  (d = 2147483647 ∧ (∀ p l, Walk A s p t l → 2147483647 ≤ l) ∧ arcs = [] ∧ nodes = [])

end Spec
