import Verif.Model.IdQueue
import Verif.Model.TimestampFlags
/-!
# Model of the contraction of `/repo/src/contraction_hierarchy.cpp` (lines 83-594)

The remaining graph, the witness search and the contraction of one node. The functions
`assert_no_witness_found` etc. (243-294) have an empty body in the code and are left out, and so is
`does_shorter_or_equal_path_exist` (440-511), which nothing calls. `shrink_to_fit` has no effect on values.
-/
namespace RK

/-- contraction_hierarchy.cpp:180-185 `Graph::Arc`. -/
structure ChArc where
  node : Nat
  weight : Nat
  hop : Nat
  mid : Nat
deriving Repr, DecidableEq, Inhabited

/-- contraction_hierarchy.cpp:225-227, the members of `Graph`. -/
structure ChGraph where
  out : List (List ChArc)
  inn : List (List ChArc)
  level : List Nat
deriving Repr, DecidableEq

namespace ChGraph

/-- contraction_hierarchy.cpp:92-102, body of the constructor loop. -/
def addInput (tail head weight : List Nat) (g : ChGraph) (a : Nat) : Option ChGraph := do
  let x ← rd tail a
  let y ← rd head a
  let w ← rd weight a
  if x ≠ y then do
    let ox ← rd g.out x
    let out ← wr g.out x (ox ++ [⟨y, w, 1, invalidId⟩])
    let iy ← rd g.inn y
    let inn ← wr g.inn y (iy ++ [⟨x, w, 1, invalidId⟩])
    some { g with out := out, inn := inn }
  else some g

/-- contraction_hierarchy.cpp:87-103 constructor. -/
def new (nodeCount : Nat) (tail head weight : List Nat) : Option ChGraph :=
  forRange 0 head.length
    ⟨List.replicate nodeCount [], List.replicate nodeCount [], List.replicate nodeCount 0⟩
    (addInput tail head weight)

/-- contraction_hierarchy.cpp:111-138 `reduce_arc_if_exists`: the first arc of `xOut` to `y` (line
117) and the first arc of `yIn` from `x` (line 125). Returns whether the arc exists and the new lists.
A missing reverse arc is the `assert(false)` of line 135. -/
def reduceArcIfExists (weight hop mid x : Nat) (xOut : List ChArc) (y : Nat) (yIn : List ChArc) :
    Option (Bool × List ChArc × List ChArc) :=
  match xOut.findIdx? (fun a => a.node == y) with
  | none => some (false, xOut, yIn)
  | some i => do
    let a ← rd xOut i
    if a.weight ≤ weight then some (true, xOut, yIn)
    else
      match yIn.findIdx? (fun a => a.node == x) with
      | none => none
      | some j => do
        let b ← rd yIn j
        let xOut ← wr xOut i { a with weight := weight, hop := hop, mid := mid }
        let yIn ← wr yIn j { b with weight := weight, hop := hop, mid := mid }
        some (true, xOut, yIn)

/-- contraction_hierarchy.cpp:140-146: the shorter one of the two lists is searched. Returns whether the
arc exists, and the new `out_[x]` and `in_[y]`. -/
def reduceEither (weight hop mid x y : Nat) (ox iy : List ChArc) :
    Option (Bool × List ChArc × List ChArc) :=
  if ox.length ≤ iy.length then reduceArcIfExists weight hop mid x ox y iy
  else (reduceArcIfExists weight hop mid y iy x ox).map fun r => (r.1, r.2.2, r.2.1)

/-- contraction_hierarchy.cpp:105-153 `add_arc_or_reduce_arc_weight`. -/
def addArcOrReduceArcWeight (g : ChGraph) (x mid y weight hop : Nat) : Option ChGraph := do
  check (decide (x ≠ y))
  let ox ← rd g.out x
  let iy ← rd g.inn y
  let r ← reduceEither weight hop mid x y ox iy
  let ox := if r.1 then r.2.1 else r.2.1 ++ [⟨y, weight, hop, mid⟩]
  let iy := if r.1 then r.2.2 else r.2.2 ++ [⟨x, weight, hop, mid⟩]
  let out ← wr g.out x ox
  let inn ← wr g.inn y iy
  some { g with out := out, inn := inn }

/-- contraction_hierarchy.cpp:158-169 `remove_back_arcs`: for each arc of `xOut` the first arc back to
`x` is erased from the list of its head; line 162 asserts that there is one. -/
def removeBackArcs (x : Nat) (xOut : List ChArc) (inn : List (List ChArc)) : Option (List (List ChArc)) :=
  forEach xOut inn fun inn a => do
    let l ← rd inn a.node
    check (l.any fun b => b.node == x)
    wr inn a.node (l.eraseP fun b => b.node == x)

/-- contraction_hierarchy.cpp:155-178 `remove_all_incident_arcs`. -/
def removeAllIncidentArcs (g : ChGraph) (x : Nat) : Option ChGraph := do
  let ox ← rd g.out x
  let inn ← removeBackArcs x ox g.inn
  let ix ← rd inn x
  let out ← removeBackArcs x ix g.out
  let inn ← wr inn x []
  let out ← wr out x []
  some { g with out := out, inn := inn }

/-- contraction_hierarchy.cpp:219-224 `raise_level`. -/
def raiseLevel (g : ChGraph) (node level : Nat) : Option ChGraph := do
  let l ← rd g.level node
  if level ≥ l then do
    let lv ← wr g.level node level
    some { g with level := lv }
  else some g

end ChGraph

/-- One direction of the witness search: queue, tentative distances and pushed flags
(contraction_hierarchy.cpp:519-524). -/
structure WitnessSide where
  dist : List Nat
  queue : MinIDQueue
  pushed : TimestampFlags
deriving Repr, DecidableEq

/-- contraction_hierarchy.cpp:517-524, the members of `ShorterPathTest`; the pointer to the graph is
passed as argument instead. -/
structure WitnessSearch where
  maxPop : Nat
  fwd : WitnessSide
  bwd : WitnessSide
  bypass : Nat
deriving Repr, DecidableEq

namespace WitnessSearch

/-- contraction_hierarchy.cpp:233-240 constructor. `bypass_node` is uninitialised until the first
`pin_source`. -/
def new (n maxPop : Nat) : WitnessSearch :=
  let s : WitnessSide := ⟨List.replicate n 0, MinIDQueue.new n, TimestampFlags.new n⟩
  ⟨maxPop, s, s, 0⟩

/-- contraction_hierarchy.cpp:338-343 and 351-356: does the new distance `d` of `x` complete a path of
length at most `len`? -/
def meets (other : WitnessSide) (x d len : Nat) : Option Bool := do
  let p ← other.pushed.isSet x
  if p then do
    let d' ← rd other.dist x
    some (decide (add32 d d' ≤ len))
  else some false

/-- contraction_hierarchy.cpp:324-358, body of the loop over the outgoing arcs of the popped node. The
state is the side being advanced and `witness_found`. -/
def relaxArc (other : WitnessSide) (bypass len key : Nat) (s : WitnessSide × Bool) (a : ChArc) :
    Option (WitnessSide × Bool) :=
  if a.node = bypass then some s
  else do
    let d := add32 key a.weight
    let p ← s.1.pushed.isSet a.node
    if p then do
      let old ← rd s.1.dist a.node
      if d < old then do
        let (q, _) ← s.1.queue.decreaseKey ⟨a.node, d⟩
        let dist ← wr s.1.dist a.node d
        let m ← meets other a.node d len
        some ({ s.1 with queue := q, dist := dist }, s.2 || m)
      else some s
    else do
      let pushed ← s.1.pushed.set a.node
      let dist ← wr s.1.dist a.node d
      let q ← s.1.queue.push ⟨a.node, d⟩
      let m ← meets other a.node d len
      some (⟨dist, q, pushed⟩, s.2 || m)

/-- contraction_hierarchy.cpp:296-362 `forward_settle`; `adj` is the adjacency list vector of the
direction. Returns the new side and whether a witness was found. -/
def settle (adj : List (List ChArc)) (side other : WitnessSide) (bypass len : Nat) :
    Option (WitnessSide × Bool) := do
  let (q, p) ← side.queue.pop
  let d ← rd side.dist p.id
  check (decide (d = p.key))
  let f ← side.pushed.isSet p.id
  check f
  let side := { side with queue := q }
  let m ← meets other p.id p.key len
  if m then some (side, true)
  else do
    let arcs ← rd adj p.id
    forEach arcs (side, false) (relaxArc other bypass len p.key)

/-- contraction_hierarchy.cpp:367-371 and 376-380: start a search at `s`. -/
def startSide (w : WitnessSide) (s : Nat) : Option WitnessSide := do
  let q ← w.queue.clear
  let q ← q.push ⟨s, 0⟩
  let dist ← wr w.dist s 0
  let pushed ← w.pushed.resetAll.set s
  some ⟨dist, q, pushed⟩

/-- contraction_hierarchy.cpp:366-373 `pin_source`. -/
def pinSource (w : WitnessSearch) (s bypass : Nat) : Option WitnessSearch := do
  let f ← startSide w.fwd s
  some { w with fwd := f, bypass := bypass }

/-- contraction_hierarchy.cpp:395-428: settle a node of the direction with the smaller minimum key. -/
def settleEither (g : ChGraph) (len : Nat) (w : WitnessSearch) (fkey bkey : Nat) :
    Option (WitnessSearch × Bool) :=
  if fkey ≤ bkey then
    (settle g.out w.fwd w.bwd w.bypass len).map fun r => ({ w with fwd := r.1 }, r.2)
  else
    (settle g.inn w.bwd w.fwd w.bypass len).map fun r => ({ w with bwd := r.1 }, r.2)

/-- contraction_hierarchy.cpp:390-437, the search loop; the first argument is
`max_pop_count - pop_count`. -/
def loop (g : ChGraph) (len : Nat) : Nat → WitnessSearch → Option (WitnessSearch × Bool)
  | rest, w =>
    if !w.fwd.queue.empty && !w.bwd.queue.empty then do
      let f ← w.fwd.queue.peek
      let b ← w.bwd.queue.peek
      if add32 f.key b.key > len then some (w, false)
      else do
        let r ← settleEither g len w f.key b.key
        if r.2 then some r
        else
          match rest with
          | 0 => some (r.1, false)
          | rest + 1 => loop g len rest r.1
    else some (w, false)

/-- contraction_hierarchy.cpp:375-438 `does_shorter_or_equal_path_to_target_exist`. -/
def pathExists (w : WitnessSearch) (g : ChGraph) (t len : Nat) : Option (WitnessSearch × Bool) := do
  let b ← startSide w.bwd t
  let w := { w with bwd := b }
  let p ← w.fwd.pushed.isSet t
  let d ← rd w.fwd.dist t
  if p && decide (d ≤ len) then some (w, true)
  else loop g len w.maxPop w

end WitnessSearch

/-- contraction_hierarchy.cpp:571-590 (and 537-553): one pair of an incoming and an outgoing arc of the
contracted node `v`. -/
def contractPair (v : Nat) (a : ChArc) (s : ChGraph × WitnessSearch) (j : Nat) :
    Option (ChGraph × WitnessSearch) := do
  let ov ← rd s.1.out v
  let b ← rd ov j
  if a.node ≠ b.node then do
    let (w, found) ← s.2.pathExists s.1 b.node (add32 a.weight b.weight)
    if found then some (s.1, w)
    else do
      let g ← s.1.addArcOrReduceArcWeight a.node v b.node (add32 a.weight b.weight) (add32 a.hop b.hop)
      some (g, w)
  else some s

/-- contraction_hierarchy.cpp:567-591, the loop body for incoming arc `i`. The degrees of `v` are read
once; arcs incident to `v` do not change in the loop as only arcs between neighbours are added. -/
def contractIn (v outDeg : Nat) (s : ChGraph × WitnessSearch) (i : Nat) :
    Option (ChGraph × WitnessSearch) := do
  let iv ← rd s.1.inn v
  let a ← rd iv i
  let w ← s.2.pinSource a.node v
  forRange 0 outDeg (s.1, w) (contractPair v a)

/-- contraction_hierarchy.cpp:566-594 `contract_node`. -/
def contractNode (s : ChGraph × WitnessSearch) (v : Nat) : Option (ChGraph × WitnessSearch) := do
  let iv ← rd s.1.inn v
  let ov ← rd s.1.out v
  let s ← forRange 0 iv.length s (contractIn v ov.length)
  let g ← s.1.removeAllIncidentArcs v
  some (g, s.2)

/-- contraction_hierarchy.cpp:536-549: one pair in the simulated contraction. The state is the witness
search, `added_arc_count` and `added_hop_count`. -/
def estimatePair (g : ChGraph) (a : ChArc) (s : WitnessSearch × Nat × Nat) (b : ChArc) :
    Option (WitnessSearch × Nat × Nat) :=
  if a.node ≠ b.node then do
    let (w, found) ← s.1.pathExists g b.node (add32 a.weight b.weight)
    if found then some (w, s.2)
    else some (w, add32 s.2.1 1, add32 (add32 s.2.2 a.hop) b.hop)
  else some s

/-- contraction_hierarchy.cpp:533-551, the loop body for one incoming arc. -/
def estimateIn (g : ChGraph) (v : Nat) (ov : List ChArc) (s : WitnessSearch × Nat × Nat) (a : ChArc) :
    Option (WitnessSearch × Nat × Nat) := do
  let w ← s.1.pinSource a.node v
  forEach ov (w, s.2) (estimatePair g a)

/-- Unsigned division; dividing by zero is undefined behaviour. -/
def div32 (a b : Nat) : Option Nat := if b = 0 then none else some (a / b)

/-- contraction_hierarchy.cpp:527-564 `estimate_node_importance`. -/
def estimateNodeImportance (g : ChGraph) (w : WitnessSearch) (v : Nat) : Option (WitnessSearch × Nat) := do
  let level ← rd g.level v
  let iv ← rd g.inn v
  let ov ← rd g.out v
  let (w, addedArcs, addedHops) ← forEach iv (w, 0, 0) (estimateIn g v ov)
  let removedArcs := add32 (add32 1 iv.length) ov.length
  let removedHops := (iv ++ ov).foldl (fun s a => add32 s a.hop) 1
  let qa ← div32 (mul32 1000 addedArcs) removedArcs
  let qh ← div32 (mul32 1000 addedHops) removedHops
  some (w, add32 (add32 (add32 1 (mul32 1000 level)) qa) qh)

end RK
