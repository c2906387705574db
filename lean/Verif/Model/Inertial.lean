import Verif.Model.Flow
/-! # Model of nested_dissection.cpp: inertial flow

The coordinates are of an arbitrary type `K` with a comparison `lt`, an addition `add` and a subtraction
`sub`; for the code these are `float` and its operations.  No law is assumed in the model.  The outcome of
`std::nth_element` is not determined by the standard: it is the parameter `nth`. -/
namespace RK
namespace Nd

/-- What `std::nth_element` makes out of a range: for the comparison function, the content of the range and
the position of the nth element relative to the begin of the range. -/
abbrev Nth := (Nat → Nat → Bool) → List Nat → Nat → List Nat

/-- `std::nth_element(v.begin()+b, v.begin()+n, v.end(), less)`. -/
def nthElem (nth : Nth) (less : Nat → Nat → Bool) (v : List Nat) (b n : Nat) : Option (List Nat) :=
  if b ≤ n ∧ n ≤ v.length then some (v.take b ++ nth less (v.drop b) (n - b)) else none

/-- The comparison function of lines 451-452. -/
def keyLess {K : Type} (lt : K → K → Bool) (keys : List K) (l r : Nat) : Bool :=
  match keys[l]?, keys[r]? with
  | some a, some b => lt a b
  | _, _ => false

/-- nested_dissection.cpp:442-473 `select_source_and_target`.  `keys` are the values of `sort_key` for all
nodes: they are computed once for each node, while the code computes them in each comparison. -/
def selectEnds {K : Type} (lt : K → K → Bool) (nth : Nth) (n nodeCount : Nat) (keys : List K) :
    Option (List Bool × List Bool) := do
  check (n ≤ nodeCount / 2)
  let v := List.range nodeCount
  let v ← nthElem nth (keyLess lt keys) v 0 n
  let v ← nthElem nth (keyLess lt keys) v n (nodeCount - n)
  let src ← forRange 0 n (List.replicate nodeCount false) fun src i => do
    let x ← rd v i
    wr src x true
  let tgt ← forRange (nodeCount - n) nodeCount (List.replicate nodeCount false) fun tgt i => do
    let x ← rd v i
    wr tgt x true
  some (src, tgt)

/-- The coordinates of the nodes, e.g. `latitude[g.global_node_id[x]]` for all `x`. -/
def coords {K : Type} (f : GraphFragment) (c : List K) : Option (List K) := f.globalNodeId.mapM fun g => rd c g

/-- nested_dissection.cpp:506-539: one cutter. -/
def newCutter {K : Type} (lt : K → K → Bool) (nth : Nth) (junk : Nat → Bool) (f : GraphFragment) (n : Nat)
    (keys : List K) : Option Flow := do
  let (src, tgt) ← selectEnds lt nth n f.nodeCount keys
  newFlow f src tgt junk

/-- nested_dissection.cpp:502-504 `side_size`. -/
def sideSize (nodeCount minBalance : Nat) : Nat :=
  let s := mul32 nodeCount minBalance / 100
  if s = 0 then 1 else s

/-- nested_dissection.cpp:542-560 `get_next_cutter`, as an index. -/
def nextCutter : List Flow → Option Nat
  | [h, v, m, d] => some
    (if h.intensity ≤ v.intensity ∧ h.intensity ≤ m.intensity ∧ h.intensity ≤ d.intensity then 0
     else if v.intensity ≤ m.intensity ∧ v.intensity ≤ d.intensity then 1
     else if m.intensity ≤ d.intensity then 2
     else 3)
  | _ => none

/-- nested_dissection.cpp:562-583, the loop. -/
def cutterLoop (f : GraphFragment) : Nat → List Flow → Option CutSide
  | 0, _ => none
  | fuel + 1, ws => do
    let i ← nextCutter ws
    let w ← rd ws i
    if !w.finished then do
      let w ← advance f w
      let ws ← wr ws i w
      cutterLoop f fuel ws
    else getBalancedCut f w

/-- nested_dissection.cpp:484-584 `inertial_flow` with a given balance. -/
def inertialFlowBalance {K : Type} (lt : K → K → Bool) (add sub : K → K → K) (nth : Nth) (junk : Nat → Bool)
    (lat lon : List K) (minBalance : Nat) (f : GraphFragment) : Option CutSide := do
  let n := sideSize f.nodeCount minBalance
  let lats ← coords f lat
  let lons ← coords f lon
  let h ← newCutter lt nth junk f n lats
  let v ← newCutter lt nth junk f n lons
  let m ← newCutter lt nth junk f n (List.zipWith add lats lons)
  let d ← newCutter lt nth junk f n (List.zipWith sub lats lons)
  cutterLoop f (4 * (f.arcCount + 1) + 1) [h, v, m, d]

/-- The comparison of two cuts in nested_dissection.cpp:598-605; the products are computed with 64 bits. -/
def cheaper (c d : CutSide) : Bool :=
  decide (c.cutSize * d.nodeOnSideCount % 2 ^ 64 < d.cutSize * c.nodeOnSideCount % 2 ^ 64)

/-- nested_dissection.cpp:586-609 `inertial_flow`. -/
def inertialFlow {K : Type} (lt : K → K → Bool) (add sub : K → K → K) (nth : Nth) (junk : Nat → Bool)
    (lat lon : List K) (f : GraphFragment) : Option CutSide := do
  let c25 ← inertialFlowBalance lt add sub nth junk lat lon 25 f
  let c33 ← inertialFlowBalance lt add sub nth junk lat lon 33 f
  let c40 ← inertialFlowBalance lt add sub nth junk lat lon 40 f
  if cheaper c25 c33 && cheaper c25 c40 then some c25
  else if cheaper c33 c40 then some c33
  else some c40

/-- nested_dissection.cpp:868-876: the lambdas `compute_cut` and `compute_separator`. -/
def inertialSeparator {K : Type} (lt : K → K → Bool) (add sub : K → K → K) (nth : Nth) (junk : Nat → Bool)
    (lat lon : List K) (f : GraphFragment) : Option (List Bool) := do
  let c ← inertialFlow lt add sub nth junk lat lon f
  deriveSeparatorFromCut f (pickSmallerSide c).isNodeOnSide

/-- nested_dissection.cpp:852-879 `compute_nested_node_dissection_order_using_inertial_flow`. -/
def inertialOrder {K : Type} (lt : K → K → Bool) (add sub : K → K → K) (nth : Nth) (junk : Nat → Bool)
    (junk' : Nat → Word) (lat lon : List K) (depth nodeCount : Nat) (tail head : List Nat) : Option (List Nat) := do
  let f ← makeGraphFragment nodeCount tail head
  nestedDissectionOrder (inertialSeparator lt add sub nth junk lat lon) junk' depth f

end Nd
end RK
