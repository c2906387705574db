import Mathlib.Algebra.Order.Field.Basic
/-! # Specification: drawings of a graph -/
namespace Spec

/-- The text for the arcs (tail, head, weight) in the language of Graphviz. -/
def dotDocument (arcs : List (Nat × Nat × Nat)) : List Char :=
  "digraph G{".toList ++
    (arcs.flatMap fun a => Nat.toDigits 10 a.1 ++ " -> ".toList ++ Nat.toDigits 10 a.2.1 ++ "[label=\"".toList ++ Nat.toDigits 10 a.2.2 ++ "\"];\n".toList) ++
    "}\n".toList

/-- The position `p` of `x` on a scale from 0 to 300 for the numbers `v`, the smallest being at 0 and the largest at 300. -/
def OnScale {K : Type} [Field K] [LinearOrder K] (v : List K) (x p : K) : Prop :=
  ∃ lo hi, lo ∈ v ∧ hi ∈ v ∧ (∀ y ∈ v, lo ≤ y ∧ y ≤ hi) ∧ (hi - lo) * p = 300 * (x - lo)

end Spec
