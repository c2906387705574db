import Verif.Model.Fragment
import Mathlib.Logic.Relation
/-! # Specification vocabulary for graph fragments and dissection orders

Statements about the vectors of a `GraphFragment`; nothing here refers to the functions of the model. -/
namespace Spec
open RK

/-- Arc `a` of the fragment leads from its node `x` to its node `y` (local ids). -/
def FragArc (f : GraphFragment) (a x y : Nat) : Prop := f.tail[a]? = some x ∧ f.head[a]? = some y

/-- Some arc leads from `x` to `y`. -/
def Adj (f : GraphFragment) (x y : Nat) : Prop := ∃ a, FragArc f a x y

/-- The conditions that a `GraphFragment` must satisfy (they are listed, commented out, in
nested_dissection.cpp:15-39). -/
structure FragmentOk (f : GraphFragment) : Prop where
  head_len : f.head.length = f.tail.length
  back_len : f.backArc.length = f.tail.length
  tail_lt : ∀ x ∈ f.tail, x < f.globalNodeId.length
  head_lt : ∀ x ∈ f.head, x < f.globalNodeId.length
  /-- arcs are sorted by tail -/
  sorted : f.tail.Pairwise (· ≤ ·)
  /-- `first_out` is the index of `tail` -/
  first_len : f.firstOut.length = f.globalNodeId.length + 1
  first_out : ∀ x, x < f.globalNodeId.length → ∃ b e, f.firstOut[x]? = some b ∧
    f.firstOut[x + 1]? = some e ∧ b ≤ e ∧ ∀ a : Nat, f.tail[a]? = some x ↔ b ≤ a ∧ a < e
  /-- `back_arc` is an involution that maps each arc to one with swapped ends -/
  back : ∀ a b x y : Nat, f.backArc[a]? = some b → FragArc f a x y →
    f.backArc[b]? = some a ∧ FragArc f b y x

/-- The arcs of the fragment as pairs of local node ids. -/
def localArcs (f : GraphFragment) : List (Nat × Nat) := f.tail.zip f.head

/-- The arcs of the fragment as pairs of global node ids. -/
def globalArcs (f : GraphFragment) : List (Option Nat × Option Nat) :=
  (localArcs f).map fun p => (f.globalNodeId[p.1]?, f.globalNodeId[p.2]?)

/-- Any two nodes of the fragment are connected by a path. -/
def ConnectedFragment (f : GraphFragment) : Prop :=
  ∀ x y, x < f.globalNodeId.length → y < f.globalNodeId.length → Relation.ReflTransGen (Adj f) x y

/-- All sizes fit into 32-bit `unsigned` variables. -/
def FragmentFits (f : GraphFragment) : Prop := f.globalNodeId.length < u32 ∧ f.tail.length < u32

end Spec
