import Verif.Spec.Graph
import Verif.Spec.Vector
/-!
# Specification vocabulary for customizable contraction hierarchies

Nodes are identified with their rank (position in the elimination order) here.
-/
namespace Spec

/-- A path from `x` to `y` along `E` all of whose inner nodes satisfy `inner`. -/
inductive InnerPath (E : Nat → Nat → Prop) (inner : Nat → Prop) : Nat → Nat → Prop
  | edge {x y : Nat} : E x y → InnerPath E inner x y
  | step {x z y : Nat} : E x z → inner z → InnerPath E inner z y → InnerPath E inner x y

/-- There is an input arc from `x` to `y`, after renaming every node to its rank. -/
def RankArc (rank tail head : List Nat) (x y : Nat) : Prop :=
  ∃ (a t h : Nat), tail[a]? = some t ∧ head[a]? = some h ∧ rank[t]? = some x ∧ rank[h]? = some y

/-- `x` and `y` are adjacent in the undirected graph with the given arcs, after renaming every node to its
rank. -/
def Adjacent (rank tail head : List Nat) (x y : Nat) : Prop :=
  RankArc rank tail head x y ∨ RankArc rank tail head y x

/-- The pair `x < y` (ranks) is joined by a path of the undirected input graph whose inner nodes all have
rank below `x`. -/
def FillPair (rank tail head : List Nat) (x y : Nat) : Prop :=
  x < y ∧ InnerPath (Adjacent rank tail head) (fun z => z < x) x y

/-- The pair `x < y` (ranks) is joined by a path of the directed input graph, in one of the two directions,
whose inner nodes all have rank below `x`. -/
def DirectedFillPair (rank tail head : List Nat) (x y : Nat) : Prop :=
  x < y ∧ (InnerPath (RankArc rank tail head) (fun z => z < x) x y ∨
    InnerPath (RankArc rank tail head) (fun z => z < x) y x)

end Spec

namespace Spec

/-- `y` is reached from `x` by following parents (zero or more times); `none` marks a root. -/
inductive Ancestor (parent : Nat → Option Nat) : Nat → Nat → Prop
  | refl {x : Nat} : Ancestor parent x x
  | up {x p y : Nat} : parent x = some p → Ancestor parent p y → Ancestor parent x y

end Spec

namespace Spec

/-- What callers of the constructor have to guarantee. The default value of `log_message` is callable. -/
structure CchInput (order tail head : List Nat) (callable filter : Bool) : Prop where
  perm : IsPermutation order
  nonempty : order ≠ []
  len : tail.length = head.length
  tail_lt : ∀ x ∈ tail, x < order.length
  head_lt : ∀ x ∈ head, x < order.length
  size : tail.length < 2 ^ 31
  log : callable = true ∨ filter = true

end Spec
