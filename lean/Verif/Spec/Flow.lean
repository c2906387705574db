import Verif.Spec.Fragment
import Verif.Model.Flow
/-! # Specification vocabulary for cuts -/
namespace Spec
open RK

/-- One source bit and one target bit for each node; there are sources and targets, and no node is both.
These are the assertions of the constructor (nested_dissection.cpp:96-104). -/
structure EndsOk (f : GraphFragment) (src tgt : List Bool) : Prop where
  source_len : src.length = f.globalNodeId.length
  target_len : tgt.length = f.globalNodeId.length
  source : ∃ x : Nat, src[x]? = some true
  target : ∃ x : Nat, tgt[x]? = some true
  disjoint : ∀ x : Nat, src[x]? = some true → tgt[x]? = some true → False

/-- The number of arcs that lead from a node in `side` to a node outside. -/
def leaving (f : GraphFragment) (side : List Bool) : Nat :=
  (localArcs f).countP fun p => side[p.1]? == some true && side[p.2]? == some false

/-- The node set contains all of `src` and none of `tgt`. -/
structure Separates (src tgt side : List Bool) : Prop where
  len : side.length = src.length
  source : ∀ x : Nat, src[x]? = some true → side[x]? = some true
  target : ∀ x : Nat, tgt[x]? = some true → side[x]? = some false

/-- A smallest cut between `src` and `tgt`: it separates them, its numbers are right, and no other node set
that separates them has fewer leaving arcs. -/
structure MinimumCut (f : GraphFragment) (src tgt : List Bool) (c : Nd.CutSide) : Prop where
  separates : Separates src tgt c.isNodeOnSide
  size : c.cutSize = leaving f c.isNodeOnSide
  nodes : c.nodeOnSideCount = c.isNodeOnSide.count true
  smallest : ∀ side, Separates src tgt side → c.cutSize ≤ leaving f side

/-- `k` calls of `advance`. -/
def advances (f : GraphFragment) : Nat → Nd.Flow → Option Nd.Flow
  | 0, w => some w
  | k + 1, w => do advances f k (← Nd.advance f w)

/-- `w` is the state of a `BlockingFlow` object that was constructed with these arguments, after some
number of calls of `advance`. -/
def FlowRun (f : GraphFragment) (src tgt : List Bool) (w : Nd.Flow) : Prop :=
  ∃ junk w0 k, Nd.newFlow f src tgt junk = some w0 ∧ advances f k w0 = some w

end Spec
