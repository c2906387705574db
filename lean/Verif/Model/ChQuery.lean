import Verif.Model.ChBuild
/-! # Model of `ContractionHierarchyQuery` (contraction_hierarchy.cpp:1426-2198)

The members come in a forward and a backward copy; the model groups each copy in a `ChHalf`. The
object stores a pointer to the hierarchy, the model the hierarchy itself. Loops that need not
terminate on corrupt data carry fuel; `none` stands for undefined behaviour, a failed assertion or an
endless loop. -/
namespace RK

/-- contraction_hierarchy.h:204-208, the members that exist once per direction. -/
structure ChHalf where
  pushed : TimestampFlags
  queue : MinIDQueue
  dist : List Nat
  predNode : List Nat
  predArc : List Nat
deriving Repr, DecidableEq

/-- contraction_hierarchy.h:212-219 `InternalState`. -/
inductive ChState
  | initialized | run | sourcePinned | sourceRun | targetPinned | targetRun
deriving Repr, DecidableEq

/-- contraction_hierarchy.h:202-219, the members. `ch = none` is the null pointer. -/
structure ChQuery where
  ch : Option Ch
  fwd : ChHalf
  bwd : ChHalf
  meeting : Nat
  manyCount : Nat
  state : ChState
deriving Repr, DecidableEq

namespace ChHalf

/-- contraction_hierarchy.cpp:1428-1432, construction of one half. -/
def new (n : Nat) : ChHalf :=
  ⟨TimestampFlags.new n, MinIDQueue.new n, List.replicate n 0, List.replicate n 0, List.replicate n 0⟩

/-- contraction_hierarchy.cpp:1441-1442, 1443-1444, 1830-1831, 1841-1842: forget everything pushed. -/
def clear (h : ChHalf) : Option ChHalf := do
  let q ← h.queue.clear
  some { h with pushed := h.pushed.resetAll, queue := q }

/-- contraction_hierarchy.cpp:1467-1480 (`add_source`), 1489-1501 (`add_target`). -/
def addNode (rank : List Nat) (h : ChHalf) (ext d : Nat) : Option ChHalf := do
  let s ← rd rank ext
  let c ← h.queue.containsId s
  if c then do
    let ds ← rd h.dist s
    if d < ds then do
      let dist ← wr h.dist s d
      let (q, _) ← h.queue.decreaseKey ⟨s, d⟩
      let p ← h.pushed.set s
      some { h with dist := dist, queue := q, pushed := p }
    else do
      let p ← h.pushed.set s
      some { h with pushed := p }
  else do
    let q ← h.queue.push ⟨s, d⟩
    let dist ← wr h.dist s d
    let pn ← wr h.predNode s invalidId
    let p ← h.pushed.set s
    some { h with queue := q, dist := dist, predNode := pn, pushed := p }

/-- contraction_hierarchy.cpp:1520-1532 with `set_predecessor` from 1589-1592: one upward arc of `node`. -/
def relaxArc (side : ChSide) (node key : Nat) (h : ChHalf) (arc : Nat) : Option ChHalf := do
  let y ← rd side.head arc
  let w ← rd side.weight arc
  let d := add32 key w
  let p ← h.pushed.isSet y
  if p then do
    let dy ← rd h.dist y
    if d < dy then do
      let (q, _) ← h.queue.decreaseKey ⟨y, d⟩
      let dist ← wr h.dist y d
      let pn ← wr h.predNode y node
      let pa ← wr h.predArc y arc
      some { h with queue := q, dist := dist, predNode := pn, predArc := pa }
    else some h
  else if d < infWeight then do
    let q ← h.queue.push ⟨y, d⟩
    let dist ← wr h.dist y d
    let ps ← h.pushed.set y
    let pn ← wr h.predNode y node
    let pa ← wr h.predArc y arc
    some { h with queue := q, dist := dist, pushed := ps, predNode := pn, predArc := pa }
  else some h

/-- contraction_hierarchy.cpp:1508-1534 `forward_expand_upward_ch_arcs_of_node`. -/
def expand (side : ChSide) (h : ChHalf) (node key : Nat) : Option ChHalf := do
  let b ← rd side.firstOut node
  let e ← rd side.firstOut (node + 1)
  forRange b e h (relaxArc side node key)

/-- contraction_hierarchy.cpp:1542-1549: the loop of `forward_can_stall_at_node`, `k` arcs left. -/
def stallScan (side : ChSide) (h : ChHalf) (node : Nat) : Nat → Nat → Option Bool
  | 0, _ => some false
  | k + 1, arc => do
    let x ← rd side.head arc
    let p ← h.pushed.isSet x
    if p then do
      let dx ← rd h.dist x
      let w ← rd side.weight arc
      let dn ← rd h.dist node
      if add32 dx w ≤ dn then some true else stallScan side h node k (arc + 1)
    else stallScan side h node k (arc + 1)

/-- contraction_hierarchy.cpp:1536-1550 `forward_can_stall_at_node`; `side` is the opposite direction. -/
def canStall (side : ChSide) (h : ChHalf) (node : Nat) : Option Bool := do
  let b ← rd side.firstOut node
  let e ← rd side.firstOut (node + 1)
  stallScan side h node (e - b) b

/-- contraction_hierarchy.cpp:1569-1574: compare with the best path found so far
(length and meeting node). -/
def meet (other : ChHalf) (best : Nat × Nat) (node key : Nat) : Option (Nat × Nat) := do
  let p ← other.pushed.isSet node
  if p then do
    let d ← rd other.dist node
    if best.1 > add32 key d then some (add32 key d, node) else some best
  else some best

/-- contraction_hierarchy.cpp:1553-1594 `forward_settle_node`. -/
def settle (side opp : ChSide) (h other : ChHalf) (best : Nat × Nat) : Option (ChHalf × Nat × Nat) := do
  let (q, p) ← h.queue.pop
  let h1 := { h with queue := q }
  let best' ← meet other best p.id p.key
  let st ← canStall opp h1 p.id
  if st then some (h1, best')
  else do
    let h2 ← expand side h1 p.id p.key
    some (h2, best')

/-- contraction_hierarchy.cpp:1596-1619 `full_forward_search`. -/
def fullSearch (side : ChSide) : Nat → ChHalf → Option ChHalf
  | 0, _ => none
  | fuel + 1, h =>
    if h.queue.empty then some h
    else do
      let (q, p) ← h.queue.pop
      let h' ← expand side { h with queue := q } p.id p.key
      fullSearch side fuel h'

/-- contraction_hierarchy.cpp:1638-1642, 1644-1648. -/
def finished (h : ChHalf) (best : Nat) : Option Bool :=
  if h.queue.empty then some true
  else do
    let p ← h.queue.peek
    some (decide (p.key ≥ best))

/-- contraction_hierarchy.cpp:1875-1879: body of the loop over the pinned nodes. -/
def pinNode (rank targets : List Nat) (s : List Nat × MinIDQueue) (i : Nat) : Option (List Nat × MinIDQueue) := do
  let t ← rd targets i
  let t ← rd rank t
  let l ← wr s.1 i t
  let c ← s.2.containsId t
  if c then some (l, s.2)
  else do
    let q ← s.2.push ⟨t, t⟩
    some (l, q)

/-- contraction_hierarchy.cpp:1888-1891: body of the loop over the arcs. -/
def pinArc (side : ChSide) (x : Nat) (q : MinIDQueue) (xy : Nat) : Option MinIDQueue := do
  let y ← rd side.head xy
  check (decide (x < y))
  let c ← q.containsId y
  if c then some q else q.push ⟨y, y⟩

/-- contraction_hierarchy.cpp:1883-1893: collects `select_list` and `select_count`. -/
def pinLoop (side : ChSide) : Nat → MinIDQueue → List Nat → Nat → Option (MinIDQueue × List Nat × Nat)
  | 0, _, _, _ => none
  | fuel + 1, q, sel, k =>
    if q.empty then some (q, sel, k)
    else do
      let (q, p) ← q.pop
      let sel ← wr sel k p.id
      let b ← rd side.firstOut p.id
      let e ← rd side.firstOut (p.id + 1)
      let q ← forRange b e q (pinArc side p.id)
      pinLoop side fuel q sel (k + 1)

/-- contraction_hierarchy.cpp:1860-1896 `pin` as called in 1991-2005 and 2016-2026: the target list
lives in `predNode`, the select list in `dist`. Returns the half and `select_count`. -/
def pin (side : ChSide) (rank : List Nat) (h : ChHalf) (targets : List Nat) : Option (ChHalf × Nat) := do
  let (l, q) ← forRange 0 targets.length (h.predNode, h.queue) (pinNode rank targets)
  let (q, sel, k) ← pinLoop side (rank.length + 1) q h.dist 0
  some ({ h with queue := q, predNode := l, dist := reverseRange sel 0 k }, k)

/-- contraction_hierarchy.cpp:1945-1951: body of the loop over the arcs; the state is (dist, pred). -/
def bestArc (opp : ChSide) (dist : List Nat) (s : Nat × Nat) (xy : Nat) : Option (Nat × Nat) := do
  let y ← rd opp.head xy
  let dy ← rd dist y
  let w ← rd opp.weight xy
  if add32 dy w < s.1 then some (add32 dy w, xy) else some s

/-- contraction_hierarchy.cpp:1939-1942: the label a selected node starts with. -/
def startDist (h : ChHalf) (x : Nat) : Option Nat := do
  let p ← h.pushed.isSet x
  if p then rd h.dist x else some infWeight

/-- contraction_hierarchy.cpp:1954-1961: store the best arc. -/
def storeBest (h : ChHalf) (x : Nat) (s : Nat × Nat) : Option ChHalf :=
  if s.2 ≠ invalidId then do
    let dist ← wr h.dist x s.1
    let pa ← wr h.predArc x s.2
    let p ← h.pushed.resetOne x
    some { h with dist := dist, predArc := pa, pushed := p }
  else if s.1 = infWeight then do
    let dist ← wr h.dist x infWeight
    let pa ← wr h.predArc x invalidId
    some { h with dist := dist, predArc := pa }
  else some h

/-- contraction_hierarchy.cpp:1937-1961: body of the loop over the selected nodes. -/
def pinnedStep (opp : ChSide) (sel : List Nat) (h : ChHalf) (i : Nat) : Option ChHalf := do
  let x ← rd sel i
  let d ← startDist h x
  let b ← rd opp.firstOut x
  let e ← rd opp.firstOut (x + 1)
  let s ← forRange b e (d, invalidId) (bestArc opp h.dist)
  storeBest h x s

/-- contraction_hierarchy.cpp:1909-1963 `pinned_run`. -/
def pinnedRun (side opp : ChSide) (sel : List Nat) (selCount : Nat) (h : ChHalf) : Option ChHalf := do
  let h ← fullSearch side (h.dist.length + 1) h
  forRange 0 selCount h (pinnedStep opp sel)

/-- contraction_hierarchy.cpp:1693-1695 etc.: follows the predecessors of `x`; returns the arcs
(nearest to `x` first) and the last node. The flag is asserted for every node that has a predecessor
(1771, 1783, 1805, 1817, 2139; not in 1694, 1707, where it holds as well), and so is `y < x` in 2141
(here for all callers: a defined result of the model is a defined result of the code). -/
def chain (h : ChHalf) : Nat → Nat → Option (List Nat × Nat)
  | 0, _ => none
  | fuel + 1, x => do
    let p ← rd h.predNode x
    if p = invalidId then some ([], x)
    else do
      let b ← h.pushed.isSet x
      check b
      check (decide (p < x))
      let a ← rd h.predArc x
      let (as, s) ← chain h fuel p
      some (a :: as, s)

/-- contraction_hierarchy.cpp:1971-1972, 1980-1982. Taking the address of the first element of an empty
vector is undefined. -/
def extractDistances (targets : List Nat) (count : Nat) (dist : List Nat) : Option (List Nat) := do
  check (decide (count ≠ 0))
  forRange 0 count [] fun out i => do
    let t ← rd targets i
    let d ← rd dist t
    some (out ++ [d])

/-- contraction_hierarchy.cpp:2133-2137: down-going part of the path to `x`. -/
def climb (opp : ChSide) (h : ChHalf) : Nat → Nat → Option Nat
  | 0, _ => none
  | fuel + 1, x => do
    let p ← h.pushed.isSet x
    if p then some x
    else do
      let a ← rd h.predArc x
      let y ← rd opp.head a
      check (decide (y > x))
      climb opp h fuel y

/-- contraction_hierarchy.cpp:2129-2145: body of the loop over the pinned nodes. -/
def usedSource (opp : ChSide) (order : List Nat) (h : ChHalf) (x : Nat) : Option Nat := do
  let p ← h.pushed.isSet x
  let a ← rd h.predArc x
  if !p && a == invalidId then some invalidId
  else do
    let y ← climb opp h (h.dist.length + 1) x
    let (_, s) ← chain h (h.dist.length + 1) y
    rd order s

/-- contraction_hierarchy.cpp:2128-2146 and 2170-2172. -/
def usedSources (opp : ChSide) (order : List Nat) (h : ChHalf) (targets : List Nat) (count : Nat) :
    Option (List Nat) := do
  check (decide (count ≠ 0))
  forRange 0 count [] fun out i => do
    let t ← rd targets i
    let s ← usedSource opp order h t
    some (out ++ [s])

end ChHalf

namespace Ch

/-- contraction_hierarchy.cpp:1725-1747 `unpack_forward_arc` (`up = true`) and `unpack_backward_arc`
(`up = false`): the list of the calls `on_new_input_arc(xy, y)`. -/
def unpack (ch : Ch) : Nat → Bool → Nat → Option (List (Nat × Nat))
  | 0, _, _ => none
  | fuel + 1, up, arc => do
    let s := if up then ch.forward else ch.backward
    let o ← s.isOriginal.isSet arc
    let i ← rd s.first arc
    let j ← rd s.second arc
    if o then some [(i, j)]
    else do
      check (decide (i < ch.backward.head.length))
      check (decide (j < ch.forward.head.length))
      let l1 ← unpack ch fuel false i
      let l2 ← unpack ch fuel true j
      some (l1 ++ l2)

/-- contraction_hierarchy.cpp:1777-1779, 1782-1787, ...: unpacks the arcs of a list in order. -/
def unpackAll (ch : Ch) (up : Bool) (arcs : List Nat) : Option (List (Nat × Nat)) :=
  forEach arcs [] fun out a => do
    let l ← ch.unpack (ch.rank.length + 1) up a
    some (out ++ l)

end Ch

namespace ChQuery

/-- contraction_hierarchy.h:106, default constructor. The integer members and the state are
uninitialised; no function reads them before `reset` has written them, so the model stores 0 and
`initialized`. -/
def null : ChQuery := ⟨none, ChHalf.new 0, ChHalf.new 0, 0, 0, .initialized⟩

/-- contraction_hierarchy.cpp:1426-1436, constructor; the uninitialised counter is stored as 0. -/
def new (ch : Ch) : ChQuery :=
  ⟨some ch, ChHalf.new ch.rank.length, ChHalf.new ch.rank.length, invalidId, 0, .initialized⟩

/-- contraction_hierarchy.cpp:1438-1450 `reset()`. -/
def reset (q : ChQuery) : Option ChQuery := do
  check q.ch.isSome
  let f ← q.fwd.clear
  let b ← q.bwd.clear
  some { q with fwd := f, bwd := b, meeting := invalidId, state := .initialized }

/-- contraction_hierarchy.cpp:1452-1460 `reset(new_ch)`. -/
def resetCh (q : ChQuery) (ch : Ch) : Option ChQuery :=
  if q.fwd.dist.length = ch.rank.length then do
    let q ← q.reset
    some { q with ch := some ch }
  else some (new ch)

/-- contraction_hierarchy.cpp:1462-1482 `add_source`. -/
def addSource (q : ChQuery) (s d : Nat) : Option ChQuery := do
  let ch ← q.ch
  check (decide (s < ch.rank.length))
  check (decide (q.state = .initialized ∨ q.state = .targetPinned))
  let h ← q.fwd.addNode ch.rank s d
  some { q with fwd := h }

/-- contraction_hierarchy.cpp:1484-1503 `add_target`. -/
def addTarget (q : ChQuery) (t d : Nat) : Option ChQuery := do
  let ch ← q.ch
  check (decide (t < ch.rank.length))
  check (decide (q.state = .initialized ∨ q.state = .sourcePinned))
  let h ← q.bwd.addNode ch.rank t d
  some { q with bwd := h }

/-- contraction_hierarchy.cpp:1653-1656: whose turn is it? -/
def nextForward (forwardFinished backwardFinished forwardNext : Bool) : Bool :=
  if backwardFinished then true else if forwardFinished then false else forwardNext

/-- contraction_hierarchy.cpp:1637-1681: the loop of `run`. -/
def runLoop (ch : Ch) : Nat → ChHalf → ChHalf → Nat × Nat → Bool → Option (ChHalf × ChHalf × Nat × Nat)
  | 0, _, _, _, _ => none
  | fuel + 1, f, b, best, forwardNext => do
    let ff ← f.finished best.1
    let bf ← b.finished best.1
    if ff && bf then some (f, b, best)
    else if nextForward ff bf forwardNext then do
      let (f', best') ← ChHalf.settle ch.forward ch.backward f b best
      runLoop ch fuel f' b best' false
    else do
      let (b', best') ← ChHalf.settle ch.backward ch.forward b f best
      runLoop ch fuel f b' best' true

/-- contraction_hierarchy.cpp:1626-1685 `run`. -/
def run (q : ChQuery) : Option ChQuery := do
  let ch ← q.ch
  check (!q.fwd.queue.empty)
  check (!q.bwd.queue.empty)
  check (decide (q.state = .initialized))
  let (f, b, best) ← runLoop ch (2 * ch.rank.length + 1) q.fwd q.bwd (infWeight, invalidId) true
  some { q with fwd := f, bwd := b, meeting := best.2, state := .run }

/-- contraction_hierarchy.cpp:1687-1698 `get_used_source`. -/
def getUsedSource (q : ChQuery) : Option Nat := do
  let ch ← q.ch
  check (decide (q.state = .run))
  if q.meeting = invalidId then some invalidId
  else do
    let (_, s) ← q.fwd.chain (ch.rank.length + 1) q.meeting
    rd ch.order s

/-- contraction_hierarchy.cpp:1700-1710 `get_used_target`. -/
def getUsedTarget (q : ChQuery) : Option Nat := do
  let ch ← q.ch
  check (decide (q.state = .run))
  if q.meeting = invalidId then some invalidId
  else do
    let (_, t) ← q.bwd.chain (ch.rank.length + 1) q.meeting
    rd ch.order t

/-- contraction_hierarchy.cpp:1750-1757 `get_distance`. -/
def getDistance (q : ChQuery) : Option Nat := do
  check (decide (q.state = .run))
  if q.meeting = invalidId then some infWeight
  else do
    let a ← rd q.fwd.dist q.meeting
    let b ← rd q.bwd.dist q.meeting
    some (add32 a b)

/-- contraction_hierarchy.cpp:1767-1788, 1801-1821: the source and the pairs (xy, y) along the path. -/
def pathPairs (q : ChQuery) (ch : Ch) : Option (Nat × List (Nat × Nat)) := do
  let (up, s) ← q.fwd.chain (ch.rank.length + 1) q.meeting
  let x ← rd ch.order s
  let l1 ← ch.unpackAll true up.reverse
  let (down, _) ← q.bwd.chain (ch.rank.length + 1) q.meeting
  let l2 ← ch.unpackAll false down
  some (x, l1 ++ l2)

/-- contraction_hierarchy.cpp:1760-1791 `get_arc_path`. (`order` is not read in the code.) -/
def getArcPath (q : ChQuery) : Option (List Nat) := do
  let ch ← q.ch
  check (decide (q.state = .run))
  if q.meeting = invalidId then some []
  else do
    let (_, l) ← q.pathPairs ch
    some (l.map Prod.fst)

/-- contraction_hierarchy.cpp:1794-1824 `get_node_path`. -/
def getNodePath (q : ChQuery) : Option (List Nat) := do
  let ch ← q.ch
  check (decide (q.state = .run))
  if q.meeting = invalidId then some []
  else do
    let (x, l) ← q.pathPairs ch
    some (x :: l.map Prod.snd)

/-- contraction_hierarchy.cpp:1826-1835 `reset_source`. -/
def resetSource (q : ChQuery) : Option ChQuery := do
  check q.ch.isSome
  check (decide (q.state = .targetPinned ∨ q.state = .targetRun))
  let h ← q.fwd.clear
  some { q with fwd := h, state := .targetPinned }

/-- contraction_hierarchy.cpp:1837-1846 `reset_target`. -/
def resetTarget (q : ChQuery) : Option ChQuery := do
  check q.ch.isSome
  check (decide (q.state = .sourcePinned ∨ q.state = .sourceRun))
  let h ← q.bwd.clear
  some { q with bwd := h, state := .sourcePinned }

/-- contraction_hierarchy.cpp:1986-2009 `pin_targets`. -/
def pinTargets (q : ChQuery) (targets : List Nat) : Option ChQuery := do
  let ch ← q.ch
  check (targets.all fun t => decide (t < ch.rank.length))
  check (decide (q.state = .initialized))
  let (h, k) ← q.bwd.pin ch.backward ch.rank targets
  some { q with bwd := h, manyCount := targets.length, meeting := k, state := .targetPinned }

/-- contraction_hierarchy.cpp:2011-2030 `pin_sources`. -/
def pinSources (q : ChQuery) (sources : List Nat) : Option ChQuery := do
  let ch ← q.ch
  check (sources.all fun t => decide (t < ch.rank.length))
  check (decide (q.state = .initialized))
  let (h, k) ← q.fwd.pin ch.forward ch.rank sources
  some { q with fwd := h, manyCount := sources.length, meeting := k, state := .sourcePinned }

/-- contraction_hierarchy.cpp:2035-2060 `run_to_pinned_targets`. -/
def runToPinnedTargets (q : ChQuery) : Option ChQuery := do
  let ch ← q.ch
  check (!q.fwd.queue.empty)
  check (decide (q.state = .targetPinned))
  let h ← q.fwd.pinnedRun ch.forward ch.backward q.bwd.dist q.meeting
  some { q with fwd := h, state := .targetRun }

/-- contraction_hierarchy.cpp:2063-2087 `run_to_pinned_sources`. -/
def runToPinnedSources (q : ChQuery) : Option ChQuery := do
  let ch ← q.ch
  check (!q.bwd.queue.empty)
  check (decide (q.state = .sourcePinned))
  let h ← q.bwd.pinnedRun ch.backward ch.forward q.fwd.dist q.meeting
  some { q with bwd := h, state := .sourceRun }

/-- contraction_hierarchy.h:229-233 `get_pinned_target_count`. -/
def getPinnedTargetCount (q : ChQuery) : Option Nat := do
  check (decide (q.state = .targetRun ∨ q.state = .targetPinned))
  some q.manyCount

/-- contraction_hierarchy.h:235-239 `get_pinned_source_count`. -/
def getPinnedSourceCount (q : ChQuery) : Option Nat := do
  check (decide (q.state = .sourceRun ∨ q.state = .sourcePinned))
  some q.manyCount

/-- contraction_hierarchy.cpp:2096-2099 `get_distances_to_targets`. -/
def getDistancesToTargets (q : ChQuery) : Option (List Nat) := do
  check (decide (q.state = .targetRun))
  ChHalf.extractDistances q.bwd.predNode q.manyCount q.fwd.dist

/-- contraction_hierarchy.cpp:2108-2111 `get_distances_to_sources`. -/
def getDistancesToSources (q : ChQuery) : Option (List Nat) := do
  check (decide (q.state = .sourceRun))
  ChHalf.extractDistances q.fwd.predNode q.manyCount q.bwd.dist

/-- contraction_hierarchy.cpp:2150-2173 `get_used_sources_to_targets`. -/
def getUsedSourcesToTargets (q : ChQuery) : Option (List Nat) := do
  let ch ← q.ch
  check (decide (q.state = .targetRun))
  q.fwd.usedSources ch.backward ch.order q.bwd.predNode q.manyCount

/-- contraction_hierarchy.cpp:2175-2198 `get_used_targets_to_sources`. -/
def getUsedTargetsToSources (q : ChQuery) : Option (List Nat) := do
  let ch ← q.ch
  check (decide (q.state = .sourceRun))
  q.bwd.usedSources ch.forward ch.order q.fwd.predNode q.manyCount

end ChQuery
end RK
