import Verif.Spec.Graph
import Verif.Spec.Vector
/-! # Specification: the format of a contraction hierarchy

Plain statements about the vectors of a hierarchy. Nodes are identified by their rank. -/
namespace Spec

/-- One direction of a hierarchy: an adjacency array in which arcs lead from lower to higher nodes. `original[a]` tells
whether arc `a` is an arc of the input graph. -/
structure HierarchySide where
  firstOut : List Nat
  head : List Nat
  weight : List Nat
  first : List Nat
  second : List Nat
  original : List Bool

/-- The vectors of one direction have the right sizes, and all arcs lead upwards within `0, ..., n-1`. -/
structure ValidSide (n : Nat) (s : HierarchySide) : Prop where
  adjacency : IsCSR n s.firstOut s.head
  weight : s.weight.length = s.head.length
  first : s.first.length = s.head.length
  second : s.second.length = s.head.length
  original : s.original.length = s.head.length
  upward : ∀ (a x y : Nat), OutArc s.firstOut x a → s.head[a]? = some y → x < y

/-- Arc `a` of direction `s` is an arc of the input graph: its id is not the invalid id and the node stored with it
exists. -/
def OriginalArcOk (n : Nat) (s : HierarchySide) (a : Nat) : Prop :=
  ∀ i j : Nat, s.first[a]? = some i → s.second[a]? = some j → i ≠ 4294967295 ∧ j < n

/-- Arc `a` of direction `s` consists of a backward arc and a forward arc whose weights add up (modulo `2^32`); the one
that has the direction of `s` comes earlier. -/
def ShortcutOk (forward backward s : HierarchySide) (earlier : Nat → Nat → Nat → Prop) (a : Nat) : Prop :=
  ∃ i j w w1 w2 : Nat, s.first[a]? = some i ∧ s.second[a]? = some j ∧ earlier a i j ∧ s.weight[a]? = some w ∧
    backward.weight[i]? = some w1 ∧ forward.weight[j]? = some w2 ∧ w = (w1 + w2) % 2 ^ 32

/-- A well-formed hierarchy. -/
structure ValidHierarchy (rank order : List Nat) (forward backward : HierarchySide) : Prop where
  inverse : AreInverse order rank
  forwardSide : ValidSide rank.length forward
  backwardSide : ValidSide rank.length backward
  forwardOriginal : ∀ a : Nat, forward.original[a]? = some true → OriginalArcOk rank.length forward a
  backwardOriginal : ∀ a : Nat, backward.original[a]? = some true → OriginalArcOk rank.length backward a
  forwardShortcut : ∀ a : Nat, forward.original[a]? = some false → ShortcutOk forward backward forward (fun a _ j => j < a) a
  backwardShortcut : ∀ a : Nat, backward.original[a]? = some false → ShortcutOk forward backward backward (fun a i _ => i < a) a

end Spec
