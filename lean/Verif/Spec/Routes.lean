import Verif.Spec.OsmGraph
/-! # Specification: routes along the arcs of a map -/
namespace Spec

/-- `Drive arcs time x p y l`: one gets from `x` to `y` along the arcs `p`, which are among `arcs` and take the time `l` in total. -/
inductive Drive (arcs : List MapArc) (time : MapArc → Nat → Prop) : Nat → List MapArc → Nat → Nat → Prop
  | stay (x : Nat) : Drive arcs time x [] x 0
  | along {a : MapArc} {p : List MapArc} {y t l : Nat} : a ∈ arcs → time a t → Drive arcs time a.head p y l →
      Drive arcs time a.tail (a :: p) y (t + l)

/-- `d` and `nodes` describe a fastest drive from `x` to `y`: its time and its nodes, where `ids` are the nodes of the map behind the
numbers of nodes. If every drive takes at least `2^31-1` milliseconds (24 days) then `d` is this number and there are no nodes. -/
def FastestDrive (arcs : List MapArc) (time : MapArc → Nat → Prop) (ids : List Nat) (x y d : Nat) (nodes : List Nat) : Prop :=
  (d < 2147483647 ∧ (∃ p, Drive arcs time x p y d ∧ nodes.map (ids[·]?) = (x :: p.map MapArc.head).map some) ∧
    ∀ p l, Drive arcs time x p y l → d ≤ l) ∨
  (d = 2147483647 ∧ nodes = [] ∧ ∀ p l, Drive arcs time x p y l → 2147483647 ≤ l)

end Spec
