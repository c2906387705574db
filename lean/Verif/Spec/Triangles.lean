import Verif.Model.CchTriangles
/-! # What an enumeration of triangles is -/
namespace Spec
open RK

/-- The three arcs of `u` are up arcs from the bottom to the mid node, from the bottom to the top node and from the
mid to the top node. -/
structure Triangle (c : Cch) (u : TriCall) : Prop where
  bottomTail : c.upTail[u.bottomArc]? = some u.bottomNode
  bottomHead : c.upHead[u.bottomArc]? = some u.midNode
  midTail : c.upTail[u.midArc]? = some u.bottomNode
  midHead : c.upHead[u.midArc]? = some u.topNode
  topTail : c.upTail[u.topArc]? = some u.midNode
  topHead : c.upHead[u.topArc]? = some u.topNode

/-- Calling `f` for each element of the list in order, until it answers false. The answer is false iff `f` aborted. -/
def visit {S α : Type} (f : S → α → Option (S × Bool)) : List α → S → Option (S × Bool)
  | [], s => some (s, true)
  | u :: l, s =>
    match f s u with
    | none => none
    | some (s', true) => visit f l s'
    | some (s', false) => some (s', false)

/-- `enum` calls every callback once for every triangle that satisfies `which`, in increasing order of the node
`key`, until the callback aborts. -/
def Enumerates (c : Cch) (which : TriCall → Prop) (key : TriCall → Nat)
    (enum : (S : Type) → TriCallback S → S → Option (S × Bool)) : Prop :=
  ∃ l : List TriCall, (∀ u, u ∈ l ↔ Triangle c u ∧ which u) ∧ l.Pairwise (fun u v => key u < key v) ∧
    ∀ (S : Type) (f : TriCallback S) (s : S), enum S f s = visit f l s

end Spec
