import Verif.Model.Fragment
import Mathlib.Algebra.Order.Group.Defs
/-! # Model of nested_dissection.cpp: blocking flows and inertial flow cuts

Bit vectors that are read and written bit by bit are modelled by the list of their bits (C10 and C11 prove
that `BitVector` implements these operations).  Arrays that are used as a queue or as a stack are
modelled by the list of the elements in use; writing beyond the end of the array is `none`.  Log messages
and timers are not modelled. -/
namespace RK
namespace Nd

/-- nested_dissection.h:42-53 `BlockingFlow` without the pointer to the fragment. -/
structure Flow where
  isSource : List Bool
  isTarget : List Bool
  intensity : Nat
  sat : List Bool
  blocked : List Bool
  finished : Bool
deriving DecidableEq, Repr

/-- nested_dissection.cpp:85-104, the constructor with its assertions.  `is_arc_blocked` is not
initialized: `junk` is its content. -/
def newFlow (f : GraphFragment) (src tgt : List Bool) (junk : Nat → Bool) : Option Flow := do
  check (src.length == f.nodeCount)
  check (tgt.length == f.nodeCount)
  check (0 < src.count true)
  check (0 < tgt.count true)
  forRange 0 f.nodeCount () fun _ x => do
    let t ← rd tgt x
    let s ← rd src x
    check (!t || !s)
  some ⟨src, tgt, 0, List.replicate f.arcCount false, (List.range f.arcCount).map junk, false⟩

/-! ### Breadth first search, nested_dissection.cpp:107-157 -/

/-- nested_dissection.cpp:108-122, the local variables; `queue` holds `queue[0..queue_end)`. -/
structure BfsState where
  same : List Bool
  pushed : List Bool
  blocked : List Bool
  queue : List Nat
  reach : Bool

/-- `queue[queue_end++] = x` for an array of size `cap`. -/
def pushBack (cap : Nat) (queue : List Nat) (x : Nat) : Option (List Nat) :=
  if queue.length < cap then some (queue ++ [x]) else none

/-- nested_dissection.cpp:134-149, body of the loop over the arcs. -/
def bfsArc (f : GraphFragment) (isTarget sat : List Bool) (s : BfsState) (xy : Nat) : Option BfsState := do
  let sx ← rd sat xy
  if sx then do
    let blocked ← wr s.blocked xy true
    some { s with blocked := blocked }
  else do
    let y ← rd f.head xy
    let c ← rd s.same y
    if c then do
      let blocked ← wr s.blocked xy true
      some { s with blocked := blocked }
    else do
      let t ← rd isTarget y
      if t then some { s with reach := true }
      else do
        let p ← rd s.pushed y
        if !p then do
          let queue ← pushBack f.nodeCount s.queue y
          let pushed ← wr s.pushed y true
          some { s with queue := queue, pushed := pushed }
        else some s

/-- nested_dissection.cpp:131-150, body of the loop over the nodes of a level. -/
def bfsNode (f : GraphFragment) (isTarget sat : List Bool) (s : BfsState) (i : Nat) : Option BfsState := do
  let x ← rd s.queue i
  let b ← rd f.firstOut x
  let e ← rd f.firstOut (x + 1)
  forRange b e s (bfsArc f isTarget sat)

/-- nested_dissection.cpp:124-154, the loop over the levels. -/
def bfsLoop (f : GraphFragment) (isTarget sat : List Bool) : Nat → Nat → Nat → BfsState → Option BfsState
  | 0, _, _, _ => none
  | fuel + 1, qb, ql, s =>
    if qb ≠ s.queue.length then do
      let same ← forRange qb ql s.same fun same i => do
        let x ← rd s.queue i
        wr same x true
      let s ← forRange qb ql { s with same := same } (bfsNode f isTarget sat)
      bfsLoop f isTarget sat fuel ql s.queue.length s
    else some s

/-- nested_dissection.cpp:107-157 `compute_blocking_flow`; returns `is_arc_blocked` and the result. -/
def computeBlockingFlow (f : GraphFragment) (isSource isTarget sat : List Bool) :
    Option (List Bool × Bool) := do
  let queue ← forRange 0 f.nodeCount [] fun queue x => do
    let s ← rd isSource x
    if s then pushBack f.nodeCount queue x else some queue
  let s ← bfsLoop f isTarget sat (f.nodeCount + 1) 0 queue.length
    ⟨List.replicate f.nodeCount false, List.replicate f.nodeCount false, List.replicate f.arcCount false, queue, false⟩
  some (s.blocked, s.reach)

/-! ### Augmenting paths, nested_dissection.cpp:159-210 -/

/-- nested_dissection.cpp:163-168 `find_first_non_block_outgoing_arc_of_node`, for `k` arcs from `xy` on. -/
def findFree (blocked : List Bool) : Nat → Nat → Option Nat
  | 0, _ => some invalidId
  | k + 1, xy => do
    let b ← rd blocked xy
    if !b then some xy else findFree blocked k (xy + 1)

/-- nested_dissection.cpp:160-177, the local variables. -/
structure DfsState where
  pathNode : List Nat
  pathArc : List Nat
  cnt : Nat
  sat : List Bool
  blocked : List Bool
  paths : Nat

/-- nested_dissection.cpp:191-201, body of the loop over the arcs of a path; the state is
`(is_arc_saturated, is_arc_blocked)`. -/
def augmentArc (f : GraphFragment) (pathArc : List Nat) (s : List Bool × List Bool) (i : Nat) :
    Option (List Bool × List Bool) := do
  let a ← rd pathArc i
  let sa ← rd s.1 a
  check (!sa)
  let blocked ← wr s.2 a true
  let b ← rd f.backArc a
  let sb ← rd s.1 b
  let sat ← (if sb then wr s.1 b false else wr s.1 a true)
  some (sat, blocked)

/-- nested_dissection.cpp:178-206, one iteration; `none` inside is the end of the loop. -/
def dfsStep (f : GraphFragment) (isTarget : List Bool) (s : DfsState) : Option (Option DfsState) := do
  let x ← rd s.pathNode s.cnt
  let b ← rd f.firstOut x
  let e ← rd f.firstOut (x + 1)
  let xy ← findFree s.blocked (e - b) b
  if xy = invalidId then
    if s.cnt = 0 then some none
    else do
      let a ← rd s.pathArc (s.cnt - 1)
      let blocked ← wr s.blocked a true
      some (some { s with cnt := s.cnt - 1, blocked := blocked })
  else do
    let y ← rd f.head xy
    let pathArc ← wr s.pathArc s.cnt xy
    let pathNode ← wr s.pathNode (s.cnt + 1) y
    let t ← rd isTarget y
    if t then do
      let (sat, blocked) ← forRange 0 (s.cnt + 1) (s.sat, s.blocked) (augmentArc f pathArc)
      some (some ⟨pathNode, pathArc, 0, sat, blocked, s.paths + 1⟩)
    else some (some { s with pathNode := pathNode, pathArc := pathArc, cnt := s.cnt + 1 })

/-- nested_dissection.cpp:178-206, the loop. -/
def dfsLoop (f : GraphFragment) (isTarget : List Bool) : Nat → DfsState → Option DfsState
  | 0, _ => none
  | fuel + 1, s => do
    match ← dfsStep f isTarget s with
    | none => some s
    | some s => dfsLoop f isTarget fuel s

/-- nested_dissection.cpp:172-207, body of the loop over the nodes. -/
def dfsRoot (f : GraphFragment) (isSource isTarget : List Bool) (s : DfsState) (x : Nat) : Option DfsState := do
  let b ← rd isSource x
  if b then do
    let pathNode ← wr s.pathNode 0 x
    let pathArc ← wr s.pathArc 0 x
    dfsLoop f isTarget ((f.arcCount + 1) * (f.nodeCount + 1)) { s with pathNode := pathNode, pathArc := pathArc, cnt := 0 }
  else some s

/-- nested_dissection.cpp:159-210 `augment_all_non_blocked_path`; returns `is_arc_saturated`,
`is_arc_blocked` and the number of paths. -/
def augmentAll (f : GraphFragment) (isSource isTarget sat blocked : List Bool) :
    Option (List Bool × List Bool × Nat) := do
  let s ← forRange 0 f.nodeCount
    ⟨List.replicate f.nodeCount 0, List.replicate f.nodeCount 0, 0, sat, blocked, 0⟩ (dfsRoot f isSource isTarget)
  some (s.sat, s.blocked, s.paths)

/-- nested_dissection.cpp:408-415 `BlockingFlow::advance`. -/
def advance (f : GraphFragment) (w : Flow) : Option Flow :=
  if !w.finished then do
    let (blocked, reach) ← computeBlockingFlow f w.isSource w.isTarget w.sat
    if reach then do
      let (sat, blocked, k) ← augmentAll f w.isSource w.isTarget w.sat blocked
      some { w with sat := sat, blocked := blocked, intensity := add32 w.intensity k, finished := false }
    else some { w with blocked := blocked, finished := true }
  else some { w with finished := true }

/-! ### Cuts -/

/-- nested_dissection.h:34-38 `CutSide`. -/
structure CutSide where
  nodeOnSideCount : Nat
  cutSize : Nat
  isNodeOnSide : List Bool
deriving DecidableEq, Repr

/-- nested_dissection.cpp:217-223, 252-258, the local variables. -/
structure SideState where
  side : List Bool
  count : Nat
  stack : List Nat

/-- nested_dissection.cpp:225-230, 260-265: the first nodes of the search. -/
def sideStart (f : GraphFragment) (start : List Bool) : Option SideState :=
  forRange 0 f.nodeCount ⟨List.replicate f.nodeCount false, 0, []⟩ fun s x => do
    let b ← rd start x
    if b then do
      let stack ← Scc.pushCap f.nodeCount s.stack x
      let side ← wr s.side x true
      some ⟨side, s.count + 1, stack⟩
    else some s

/-- nested_dissection.cpp:235-242, 271-278, body of the loop over the arcs; `isSat` is the test in line
235 or 271. -/
def sideArc (f : GraphFragment) (isSat : Nat → Option Bool) (s : SideState) (xy : Nat) : Option SideState := do
  let b ← isSat xy
  if !b then do
    let y ← rd f.head xy
    let c ← rd s.side y
    if !c then do
      let stack ← Scc.pushCap f.nodeCount s.stack y
      let side ← wr s.side y true
      some ⟨side, s.count + 1, stack⟩
    else some s
  else some s

/-- nested_dissection.cpp:232-244, 268-280, the loop over the stack. -/
def sideLoop (f : GraphFragment) (isSat : Nat → Option Bool) : Nat → SideState → Option SideState
  | 0, _ => none
  | fuel + 1, s =>
    match s.stack with
    | [] => some s
    | x :: rest => do
      let b ← rd f.firstOut x
      let e ← rd f.firstOut (x + 1)
      let s ← forRange b e { s with stack := rest } (sideArc f isSat)
      sideLoop f isSat fuel s

/-- nested_dissection.cpp:235: `is_arc_saturated.is_set(xy)`. -/
def satOut (sat : List Bool) (xy : Nat) : Option Bool := rd sat xy

/-- nested_dissection.cpp:271: `is_arc_saturated.is_set(fragment->back_arc[xy])`. -/
def satIn (f : GraphFragment) (sat : List Bool) (xy : Nat) : Option Bool := do
  let b ← rd f.backArc xy
  rd sat b

/-- nested_dissection.cpp:214-247 `BlockingFlow::get_source_cut`. -/
def getSourceCut (f : GraphFragment) (w : Flow) : Option CutSide := do
  check w.finished
  let s ← sideStart f w.isSource
  let s ← sideLoop f (satOut w.sat) (f.nodeCount + 1) s
  some ⟨s.count, w.intensity, s.side⟩

/-- nested_dissection.cpp:249-283 `BlockingFlow::get_target_cut`. -/
def getTargetCut (f : GraphFragment) (w : Flow) : Option CutSide := do
  check w.finished
  let s ← sideStart f w.isTarget
  let s ← sideLoop f (satIn f w.sat) (f.nodeCount + 1) s
  some ⟨s.count, w.intensity, s.side⟩

/-- nested_dissection.cpp:292-305, the variables of one of the two sides; `pierce` holds the potential
piercing nodes in use, last one first. -/
structure GrowState where
  reach : List Bool
  count : Nat
  stack : List Nat
  pierce : List Nat

/-- nested_dissection.cpp:312-320, 331-339, body of the loop over the arcs. -/
def growArc (f : GraphFragment) (isSat : Nat → Option Bool) (s : GrowState) (xy : Nat) : Option GrowState := do
  let y ← rd f.head xy
  let b ← isSat xy
  if b then do
    let pierce ← Scc.pushCap f.arcCount s.pierce y
    some { s with pierce := pierce }
  else do
    let c ← rd s.reach y
    if !c then do
      let reach ← wr s.reach y true
      let stack ← Scc.pushCap f.nodeCount s.stack y
      some { s with reach := reach, stack := stack }
    else some s

/-- nested_dissection.cpp:308-325, 327-344 `enlarge_source_side`, `enlarge_target_side` with the
assertions in lines 324, 343. -/
def growLoop (f : GraphFragment) (isSat : Nat → Option Bool) : Nat → GrowState → Option GrowState
  | 0, _ => none
  | fuel + 1, s =>
    match s.stack with
    | [] => do
      check (s.count == s.reach.count true)
      some s
    | x :: rest => do
      let b ← rd f.firstOut x
      let e ← rd f.firstOut (x + 1)
      let s ← forRange b e { s with count := s.count + 1, stack := rest } (growArc f isSat)
      growLoop f isSat fuel s

/-- nested_dissection.cpp:346-356: the sources or targets are put on the stack. -/
def growStart (f : GraphFragment) (start : List Bool) : Option GrowState := do
  let stack ← forRange 0 f.nodeCount [] fun stack x => do
    let b ← rd start x
    if b then Scc.pushCap f.nodeCount stack x else some stack
  some ⟨start, 0, stack, []⟩

/-- nested_dissection.cpp:369-379, 387-397: the next piercing node that is on no side, with the remaining
ones; `none` inside if there is none. -/
def nextPierce (a b : List Bool) : List Nat → Option (Option (Nat × List Nat))
  | [] => some none
  | y :: rest => do
    let p ← rd a y
    if p then nextPierce a b rest
    else do
      let q ← rd b y
      if q then nextPierce a b rest else some (some (y, rest))

/-- nested_dissection.cpp:366-403: the loop. -/
def balancedLoop (f : GraphFragment) (sat : List Bool) (intensity : Nat) :
    Nat → GrowState → GrowState → Option CutSide
  | 0, _, _ => none
  | fuel + 1, s, t =>
    if s.count ≤ t.count then do
      match ← nextPierce s.reach t.reach s.pierce with
      | none => some ⟨s.count, intensity, s.reach⟩
      | some (y, rest) => do
        let reach ← wr s.reach y true
        let stack ← Scc.pushCap f.nodeCount s.stack y
        let s ← growLoop f (satOut sat) (f.nodeCount + 1) ⟨reach, s.count, stack, rest⟩
        balancedLoop f sat intensity fuel s t
    else do
      match ← nextPierce s.reach t.reach t.pierce with
      | none => some ⟨t.count, intensity, t.reach⟩
      | some (y, rest) => do
        let reach ← wr t.reach y true
        let stack ← Scc.pushCap f.nodeCount t.stack y
        let t ← growLoop f (satIn f sat) (f.nodeCount + 1) ⟨reach, t.count, stack, rest⟩
        balancedLoop f sat intensity fuel s t

/-- nested_dissection.cpp:285-406 `BlockingFlow::get_balanced_cut`. -/
def getBalancedCut (f : GraphFragment) (w : Flow) : Option CutSide := do
  check w.finished
  let s ← growStart f w.isSource
  let s ← growLoop f (satOut w.sat) (f.nodeCount + 1) s
  let t ← growStart f w.isTarget
  let t ← growLoop f (satIn f w.sat) (f.nodeCount + 1) t
  balancedLoop f w.sat w.intensity (f.nodeCount + 1) s t

/-- nested_dissection.cpp:476-482 `pick_smaller_side`. -/
def pickSmallerSide (c : CutSide) : CutSide :=
  let n := c.isNodeOnSide.length
  if c.nodeOnSideCount ≥ add32 n 1 / 2 then
    ⟨sub32 n c.nodeOnSideCount, c.cutSize, c.isNodeOnSide.map not⟩
  else c

end Nd
end RK
