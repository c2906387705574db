import Verif.Model.ChGraph
import Verif.Model.ArcReduction
import Verif.Model.InverseVector
import Verif.Model.BitVector
/-!
# Model of src/contraction_hierarchy.cpp, lines 596-1190: building a contraction hierarchy

Log messages, timers and `shrink_to_fit` are not modelled. A thrown exception is `none`.
-/
namespace RK

/-- The arcs of one direction while the hierarchy is built: `ch_extra.forward.tail`, `ch.forward.head`,
`ch.forward.weight` and `ch_extra.forward.mid_node` (contraction_hierarchy.h:45-52 and
contraction_hierarchy.cpp:599-606). -/
structure ChRows where
  tail : List Nat
  head : List Nat
  weight : List Nat
  mid : List Nat
deriving Repr, DecidableEq

/-- The rows before anything was added. -/
def ChRows.empty : ChRows := ⟨[], [], [], []⟩

/-- contraction_hierarchy.cpp:684-693 (also 697-706, 781-790 and 793-802): append one arc; the exception
of line 688 is `none`. -/
def ChRows.push (v : Nat) (r : ChRows) (a : ChArc) : Option ChRows := do
  check (decide (r.head.length ≠ invalidId))
  some ⟨r.tail ++ [v], r.head ++ [a.node], r.weight ++ [a.weight], r.mid ++ [a.mid]⟩

/-- State of the contraction loop: the remaining graph, the witness search and the arcs found so far. -/
structure BuildState where
  graph : ChGraph
  wit : WitnessSearch
  fwd : ChRows
  bwd : ChRows
deriving Repr, DecidableEq

/-- contraction_hierarchy.cpp:780-807 (identical to 684-712): append the arcs of `v`, then contract it. -/
def contractStep (s : BuildState) (v : Nat) : Option BuildState := do
  let ov ← rd s.graph.out v
  let fwd ← forEach ov s.fwd (ChRows.push v)
  let iv ← rd s.graph.inn v
  let bwd ← forEach iv s.bwd (ChRows.push v)
  let r ← contractNode (s.graph, s.wit) v
  some ⟨r.1, r.2, fwd, bwd⟩

/-- contraction_hierarchy.cpp:778-807, loop body of `build_ch_given_rank`. -/
def givenRankStep (order : List Nat) (s : BuildState) (i : Nat) : Option BuildState := do
  let v ← rd order i
  contractStep s v

/-- contraction_hierarchy.cpp:754-830 `build_ch_given_rank`; returns the order and the final state. -/
def buildChGivenRank (g : ChGraph) (rank : List Nat) (maxPop : Nat) :
    Option (List Nat × BuildState) := do
  let order ← invertPermutation rank
  let s ← forRange 0 g.out.length ⟨g, WitnessSearch.new g.out.length maxPop, .empty, .empty⟩
    (givenRankStep order)
  some (order, s)

/-- State of the loop of `build_ch_and_order` (contraction_hierarchy.cpp:626-654). -/
structure OrderState where
  build : BuildState
  queue : MinIDQueue
  rank : List Nat
  order : List Nat
  isNeighbor : List Bool
  cnt : Nat
deriving Repr, DecidableEq

/-- contraction_hierarchy.cpp:631-632, body of the loop that fills the queue. -/
def fillQueueStep (g : ChGraph) (s : WitnessSearch × MinIDQueue) (i : Nat) :
    Option (WitnessSearch × MinIDQueue) := do
  let (w, k) ← estimateNodeImportance g s.1 i
  let q ← s.2.push ⟨i, k⟩
  some (w, q)

/-- contraction_hierarchy.cpp:663-679: mark the neighbour at the other end of an arc of `v`. The state is
`is_neighbor` and `neighbor_list`. -/
def markNeighbor (v : Nat) (s : List Bool × List Nat) (a : ChArc) : Option (List Bool × List Nat) := do
  check (decide (v ≠ a.node))
  let b ← rd s.1 a.node
  if b then some s
  else do
    let isN ← wr s.1 a.node true
    some (isN, s.2 ++ [a.node])

/-- contraction_hierarchy.cpp:718-723: move `x` to its new place in the queue. -/
def updateKey (q : MinIDQueue) (x key : Nat) : Option MinIDQueue := do
  let c ← q.containsId x
  check c
  let old ← q.getKey x
  if old < key then (q.increaseKey ⟨x, key⟩).map (·.1)
  else if old > key then (q.decreaseKey ⟨x, key⟩).map (·.1)
  else some q

/-- contraction_hierarchy.cpp:714-724: update a neighbour of the contracted node. The state is graph,
witness search, queue and `is_neighbor`. -/
def updateNeighbor (level : Nat) (s : ChGraph × WitnessSearch × MinIDQueue × List Bool) (x : Nat) :
    Option (ChGraph × WitnessSearch × MinIDQueue × List Bool) := do
  let isN ← wr s.2.2.2 x false
  let g ← s.1.raiseLevel x level
  let (w, key) ← estimateNodeImportance g s.2.1 x
  let q ← updateKey s.2.2.1 x key
  some (g, w, q, isN)

/-- contraction_hierarchy.cpp:657-728, body of the loop of `build_ch_and_order`. -/
def orderStep (s : OrderState) : Option OrderState := do
  let (q, p) ← s.queue.pop
  let rank ← wr s.rank p.id s.cnt
  let order ← wr s.order s.cnt p.id
  let iv ← rd s.build.graph.inn p.id
  let ov ← rd s.build.graph.out p.id
  let m ← forEach iv (s.isNeighbor, []) (markNeighbor p.id)
  let m ← forEach ov m (markNeighbor p.id)
  let l ← rd s.build.graph.level p.id
  let b ← contractStep s.build p.id
  let (g, w, q, isN) ← forEach m.2 (b.graph, b.wit, q, m.1) (updateNeighbor (add32 l 1))
  some ⟨{ b with graph := g, wit := w }, q, rank, order, isN, s.cnt + 1⟩

/-- contraction_hierarchy.cpp:656-738, the loop `while(!queue.empty())`. The fuel is the number of nodes;
each iteration removes one node from the queue. -/
def orderLoop : Nat → OrderState → Option OrderState
  | fuel, s =>
    if s.queue.empty then some s
    else
      match fuel with
      | 0 => none
      | fuel + 1 => do
        let s ← orderStep s
        orderLoop fuel s

/-- contraction_hierarchy.cpp:608-751 `build_ch_and_order`; returns rank, order and the final state. -/
def buildChAndOrder (g : ChGraph) (maxPop : Nat) : Option (List Nat × List Nat × BuildState) := do
  let n := g.out.length
  let (w, q) ← forRange 0 n (WitnessSearch.new n maxPop, MinIDQueue.new n) (fillQueueStep g)
  let s ← orderLoop n ⟨⟨g, w, .empty, .empty⟩, q, List.replicate n 0, List.replicate n 0,
    List.replicate n false, 0⟩
  some (s.rank, s.order, s.build)

/-- contraction_hierarchy.cpp:843-855: rename the nodes of one direction; the assertion of line 852. -/
def renameRows (rank : List Nat) (r : ChRows) : Option ChRows := do
  let head ← inplaceApplyPermutationToElementsOf rank r.head
  let tail ← inplaceApplyPermutationToElementsOf rank r.tail
  let mid ← inplaceApplyPermutationToPossiblyInvalidElementsOf rank r.mid
  forRange 0 tail.length () fun _ i => do
    let t ← rd tail i
    let h ← rd head i
    check (decide (t < h))
  some ⟨tail, head, r.weight, mid⟩

/-- contraction_hierarchy.cpp:879-887 (and 890-896) of `sort_ch_arcs_and_build_first_out_arrays` for one
direction; returns `first_out` and the sorted arcs. -/
def sortRows (nodeCount : Nat) (r : ChRows) : Option (List Nat × ChRows) := do
  let (p, tail) ← computeInverseSortPermutationFirstByTailThenByHeadAndApplySortToTail nodeCount r.tail r.head
  let head ← applyInversePermutation p r.head
  let weight ← applyInversePermutation p r.weight
  let mid ← applyInversePermutation p r.mid
  let firstOut ← invertVector tail nodeCount
  some (firstOut, ⟨tail, head, weight, mid⟩)

/-- State of `optimize_order_for_cache`: `new_order`, `new_order_end`, `is_in_new_order` and the queue. -/
structure CacheState where
  newOrder : List Nat
  fin : Nat
  isIn : List Bool
  queue : MinIDQueue
deriving Repr, DecidableEq

/-- contraction_hierarchy.cpp:944-950, the lambda `on_node`. -/
def onNode (bottom : List Bool) (rank : List Nat) (s : CacheState) (y : Nat) : Option CacheState := do
  let b ← rd bottom y
  check (!b)
  let i ← rd s.isIn y
  if i then some s
  else do
    let isIn ← wr s.isIn y true
    let r ← rd rank y
    let q ← s.queue.push ⟨y, r⟩
    some { s with isIn := isIn, queue := q }

/-- contraction_hierarchy.cpp:952-956: `on_node` for the heads of the arcs leaving `x`. -/
def onHeads (bottom : List Bool) (rank : List Nat) (firstOut head : List Nat) (x : Nat) (s : CacheState) :
    Option CacheState := do
  let b ← rd firstOut x
  let e ← rd firstOut (x + 1)
  forRange b e s fun s xy => do
    let y ← rd head xy
    onNode bottom rank s y

/-- contraction_hierarchy.cpp:938-956, body of the inner loop. `--new_order_end` at zero would wrap
around, and the following write is then out of bounds. -/
def cacheStep (bottom : List Bool) (rank ffo fhead bfo bhead : List Nat) (s : CacheState) :
    Option CacheState := do
  let (q, p) ← s.queue.pop
  check (decide (s.fin ≠ 0))
  let no ← wr s.newOrder (s.fin - 1) p.id
  let s := { s with queue := q, newOrder := no, fin := s.fin - 1 }
  let s ← onHeads bottom rank ffo fhead p.id s
  onHeads bottom rank bfo bhead p.id s

/-- contraction_hierarchy.cpp:937-957, the loop `while(!q.empty())`; each node is pushed at most once, so
the number of nodes bounds the number of iterations. -/
def cacheLoop (bottom : List Bool) (rank ffo fhead bfo bhead : List Nat) : Nat → CacheState → Option CacheState
  | fuel, s =>
    if s.queue.empty then some s
    else
      match fuel with
      | 0 => none
      | fuel + 1 => do
        let s ← cacheStep bottom rank ffo fhead bfo bhead s
        cacheLoop bottom rank ffo fhead bfo bhead fuel s

/-- `std::reverse(v.begin()+lo, v.begin()+hi)` -/
def reverseRange (v : List Nat) (lo hi : Nat) : List Nat :=
  v.take lo ++ ((v.take hi).drop lo).reverse ++ v.drop hi

/-- contraction_hierarchy.cpp:930-959, body of the loop over the nodes. -/
def cacheRoot (n : Nat) (bottom : List Bool) (rank ffo fhead bfo bhead : List Nat) (s : CacheState) (r : Nat) :
    Option CacheState := do
  let b ← rd bottom r
  if b then do
    let k ← rd rank r
    let q ← s.queue.push ⟨r, k⟩
    let i ← rd s.isIn r
    check (!i)
    let isIn ← wr s.isIn r true
    let s' ← cacheLoop bottom rank ffo fhead bfo bhead n { s with queue := q, isIn := isIn }
    some { s' with newOrder := reverseRange s'.newOrder s'.fin s.fin }
  else some s

/-- contraction_hierarchy.cpp:916-920: clear the flag of every head. -/
def clearHeads (head : List Nat) (bottom : List Bool) : Option (List Bool) :=
  forEach head bottom fun b h => wr b h false

/-- contraction_hierarchy.cpp:902-971 `optimize_order_for_cache`; returns the new rank and order. -/
def optimizeOrderForCache (rank ffo fhead bfo bhead : List Nat) : Option (List Nat × List Nat) := do
  let n := rank.length
  let bottom ← clearHeads fhead (List.replicate n true)
  let bottom ← clearHeads bhead bottom
  let s ← forRange 0 n ⟨List.replicate n 0, n, List.replicate n false, MinIDQueue.new n⟩
    (cacheRoot n bottom rank ffo fhead bfo bhead)
  check (decide (s.fin = 0))
  checkPerm s.newOrder
  let rank ← invertPermutation s.newOrder
  some (rank, s.newOrder)

/-- contraction_hierarchy.h:45-52 `ContractionHierarchy::Side`. -/
structure ChSide where
  firstOut : List Nat
  head : List Nat
  weight : List Nat
  first : List Nat
  second : List Nat
  isOriginal : BitVector
deriving Repr, DecidableEq

/-- contraction_hierarchy.h:18-55 `ContractionHierarchy`. -/
structure Ch where
  rank : List Nat
  order : List Nat
  forward : ChSide
  backward : ChSide
deriving Repr, DecidableEq

/-- The three unpacking vectors of one direction. -/
structure Unpack where
  first : List Nat
  second : List Nat
  isOriginal : BitVector
deriving Repr, DecidableEq

/-- contraction_hierarchy.cpp:1004-1009 (and 1027-1031): the arc is the input arc from `u` to `v`. -/
def unpackOriginal (inFirstOut inHead inId : List Nat) (xy u v : Nat) (s : Unpack) : Option Unpack := do
  let bits ← s.isOriginal.set xy
  let a ← findArcGivenSortedHead inFirstOut inHead u v
  let i ← rd inId a
  let first ← wr s.first xy i
  let h ← rd inHead a
  let second ← wr s.second xy h
  some ⟨first, second, bits⟩

/-- contraction_hierarchy.cpp:1011-1013 (and 1033-1035): the arc consists of the backward arc from `z` to
`u` and the forward arc from `z` to `v`. -/
def unpackShortcut (bfo bhead ffo fhead : List Nat) (xy z u v : Nat) (s : Unpack) : Option Unpack := do
  let bits ← s.isOriginal.reset xy
  let a ← findArcGivenSortedHead bfo bhead z u
  let first ← wr s.first xy a
  let b ← findArcGivenSortedHead ffo fhead z v
  let second ← wr s.second xy b
  some ⟨first, second, bits⟩

/-- contraction_hierarchy.cpp:1001-1019, loop body for forward arc `xy`, with the assertion of
line 1015 (its sum wraps around). -/
def unpackForwardStep (inFirstOut inHead inId order ffo bfo : List Nat) (f b : ChRows) (x : Nat) (s : Unpack)
    (xy : Nat) : Option Unpack := do
  let y ← rd f.head xy
  let z ← rd f.mid xy
  if z = invalidId then do
    let u ← rd order x
    let v ← rd order y
    unpackOriginal inFirstOut inHead inId xy u v s
  else do
    let s ← unpackShortcut bfo b.head ffo f.head xy z x y s
    let w ← rd f.weight xy
    let i ← rd s.first xy
    let j ← rd s.second xy
    let wi ← rd b.weight i
    let wj ← rd f.weight j
    check (decide (w = add32 wi wj))
    some s

/-- contraction_hierarchy.cpp:1022-1037, loop body for backward arc `xy`. -/
def unpackBackwardStep (inFirstOut inHead inId order ffo bfo : List Nat) (f b : ChRows) (x : Nat) (s : Unpack)
    (xy : Nat) : Option Unpack := do
  let y ← rd b.head xy
  let z ← rd b.mid xy
  if z = invalidId then do
    let u ← rd order y
    let v ← rd order x
    unpackOriginal inFirstOut inHead inId xy u v s
  else unpackShortcut bfo b.head ffo f.head xy z y x s

/-- The loops `for x, for xy` over all arcs of a direction (contraction_hierarchy.cpp:999-1000 and
1020-1021). -/
def forArcs (n : Nat) (firstOut : List Nat) (s : Unpack) (f : Nat → Unpack → Nat → Option Unpack) :
    Option Unpack :=
  forRange 0 n s fun s x => do
    let b ← rd firstOut x
    let e ← rd firstOut (x + 1)
    forRange b e s (f x)

/-- contraction_hierarchy.cpp:989-994: the vectors before they are filled; `junk` is the memory of the
uninitialised bit vector. -/
def newUnpack (m : Nat) (junk : Nat → Word) : Option Unpack := do
  let bits ← BitVector.newUninit m junk
  some ⟨List.replicate m 0, List.replicate m 0, bits⟩

/-- contraction_hierarchy.cpp:973-1090 `build_unpacking_information`. The assertions of lines 1039-1061
on the range of the entries are not modelled. -/
def buildUnpackingInformation (n : Nat) (inp : ArcCols) (rank order ffo bfo : List Nat) (f b : ChRows)
    (junkF junkB : Nat → Word) : Option Ch := do
  check (isSortedUsingLess inp.tail)
  let uf ← newUnpack f.head.length junkF
  let ub ← newUnpack b.head.length junkB
  let fo ← invertVector inp.tail n
  let uf ← forArcs n ffo uf (unpackForwardStep fo inp.head inp.id order ffo bfo f b)
  let ub ← forArcs n bfo ub (unpackBackwardStep fo inp.head inp.id order ffo bfo f b)
  some ⟨rank, order, ⟨ffo, f.head, f.weight, uf.first, uf.second, uf.isOriginal⟩,
    ⟨bfo, b.head, b.weight, ub.first, ub.second, ub.isOriginal⟩⟩

/-- contraction_hierarchy.cpp:1097-1100 and 1144-1147, the assertions on the arguments. `max_element_of`
asserts that its argument is not empty. -/
def checkChInput (asserts : Bool) (n : Nat) (tail head weight : List Nat) : Option Unit :=
  if asserts then do
    check (decide (tail.length = head.length))
    check (decide (tail.length = weight.length))
    check (decide (tail ≠ []) && tail.all fun x => decide (x < n))
    check (decide (head ≠ []) && head.all fun x => decide (x < n))
  else some ()

/-- contraction_hierarchy.cpp:1119-1126 and 1168-1173: rename, sort and add the unpacking vectors. -/
def finishCh (n : Nat) (inp : ArcCols) (rank order : List Nat) (f b : ChRows) (junkF junkB : Nat → Word) :
    Option Ch := do
  let f ← renameRows rank f
  let b ← renameRows rank b
  let (ffo, f) ← sortRows n f
  let (bfo, b) ← sortRows n b
  buildUnpackingInformation n inp rank order ffo bfo f b junkF junkB

/-- contraction_hierarchy.cpp:1093-1135 `ContractionHierarchy::build`. `asserts` tells whether the
assertions on the arguments are compiled in, `junkF` and `junkB` are uninitialised memory. -/
def Ch.build (asserts : Bool) (n : Nat) (tail head weight : List Nat) (maxPop : Nat)
    (junkF junkB : Nat → Word) : Option Ch := do
  checkChInput asserts n tail head weight
  let ids ← identityPermutation head.length
  let inp ← ArcCols.sortAndReduce n ⟨tail, head, weight, ids⟩
  let g ← ChGraph.new n inp.tail inp.head inp.weight
  let (rank, _, s) ← buildChAndOrder g maxPop
  let (ffo, f) ← sortRows n s.fwd
  let (bfo, b) ← sortRows n s.bwd
  let (rank, order) ← optimizeOrderForCache rank ffo f.head bfo b.head
  finishCh n inp rank order f b junkF junkB

/-- contraction_hierarchy.cpp:1137-1179 `ContractionHierarchy::build_given_rank`. -/
def Ch.buildGivenRank (asserts : Bool) (rank tail head weight : List Nat) (maxPop : Nat)
    (junkF junkB : Nat → Word) : Option Ch := do
  let n := rank.length
  checkChInput asserts n tail head weight
  let ids ← identityPermutation head.length
  let inp ← ArcCols.sortAndReduce n ⟨tail, head, weight, ids⟩
  let g ← ChGraph.new n inp.tail inp.head inp.weight
  let (order, s) ← buildChGivenRank g rank maxPop
  finishCh n inp rank order s.fwd s.bwd junkF junkB

/-- contraction_hierarchy.cpp:1181-1187 `ContractionHierarchy::build_given_order`. -/
def Ch.buildGivenOrder (asserts : Bool) (order tail head weight : List Nat) (maxPop : Nat)
    (junkF junkB : Nat → Word) : Option Ch := do
  let rank ← invertPermutation order
  Ch.buildGivenRank asserts rank tail head weight maxPop junkF junkB

end RK
