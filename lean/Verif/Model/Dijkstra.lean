import Verif.Model.IdQueue
import Verif.Model.TimestampFlags
/-! # Model of dijkstra.h

The object stores pointers to the graph vectors; the model stores the vectors. -/
namespace RK

/-- dijkstra.h:156-158, the graph a `Dijkstra` object points to. -/
structure DijkstraGraph where
  firstOut : List Nat
  tail : List Nat
  head : List Nat
deriving Repr, DecidableEq

/-- dijkstra.h:149-158, the members; `graph = none` is `first_out == nullptr`. -/
structure Dijkstra where
  tentative : List Nat
  predecessor : List Nat
  wasPopped : TimestampFlags
  queue : MinIDQueue
  graph : Option DijkstraGraph
deriving Repr, DecidableEq

/-- A weight functor: `get_weight(arc, departure_time)`, `none` if the call has undefined behaviour. -/
abbrev WeightFn := Nat → Nat → Option Nat

/-- dijkstra.h:161-173 `ScalarGetWeight`. -/
def scalarGetWeight (weight : List Nat) : WeightFn := fun arc _ => rd weight arc

namespace Dijkstra

/-- dijkstra.h:23-26, 37-40, the asserts on the graph. -/
def checkGraph (g : DijkstraGraph) : Option Unit := do
  let front ← rd g.firstOut 0
  check (decide (front = 0))
  let back ← rd g.firstOut (g.firstOut.length - 1)
  check (decide (back = g.tail.length))
  check (decide (back = g.head.length))

/-- dijkstra.h:13, default constructor. The flags and the queue are default constructed. -/
def null : Dijkstra := ⟨[], [], TimestampFlags.new 0, MinIDQueue.new 0, none⟩

/-- dijkstra.h:15-29, constructor. -/
def new (g : DijkstraGraph) : Option Dijkstra := do
  checkGraph g
  let n := g.firstOut.length - 1
  some ⟨List.replicate n 0, List.replicate n 0, TimestampFlags.new n, MinIDQueue.new n, some g⟩

/-- dijkstra.h:31-35 `reset()`. -/
def reset (d : Dijkstra) : Option Dijkstra := do
  let q ← d.queue.clear
  some { d with queue := q, wasPopped := d.wasPopped.resetAll }

/-- `std::vector::resize(n)` -/
def resizeVec (v : List Nat) (n : Nat) : List Nat := v.take n ++ List.replicate (n - v.length) 0

/-- dijkstra.h:37-60 `reset(first_out, tail, head)`. -/
def resetGraph (d : Dijkstra) (g : DijkstraGraph) : Option Dijkstra := do
  checkGraph g
  let fresh : Dijkstra :=
    let n := g.firstOut.length - 1
    { tentative := resizeVec d.tentative n, predecessor := resizeVec d.predecessor n,
      wasPopped := TimestampFlags.new n, queue := MinIDQueue.new n, graph := some g }
  match d.graph with
  | some old =>
    if g.firstOut.length = old.firstOut.length then do
      let q ← d.queue.clear
      some { d with graph := some g, queue := q, wasPopped := d.wasPopped.resetAll }
    else some fresh
  | none => some fresh

/-- dijkstra.h:62-68 `add_source`. -/
def addSource (d : Dijkstra) (id time : Nat) : Option Dijkstra := do
  let g ← d.graph
  check (decide (id < g.firstOut.length - 1))
  let t ← wr d.tentative id time
  let p ← wr d.predecessor id invalidId
  let q ← d.queue.push ⟨id, time⟩
  some { d with tentative := t, predecessor := p, queue := q }

/-- dijkstra.h:70-72 `is_finished`. -/
def isFinished (d : Dijkstra) : Bool := d.queue.empty

/-- dijkstra.h:74-77 `was_node_reached`. -/
def wasNodeReached (d : Dijkstra) (x : Nat) : Option Bool := do
  let g ← d.graph
  check (decide (x < g.firstOut.length - 1))
  d.wasPopped.isSet x

/-- dijkstra.h:92-105, body of the loop over the arcs; the state is (queue, predecessor_arc). -/
def relaxArc (g : DijkstraGraph) (popped : TimestampFlags) (getWeight : WeightFn) (key : Nat)
    (s : MinIDQueue × List Nat) (a : Nat) : Option (MinIDQueue × List Nat) := do
  let y ← rd g.head a
  let b ← popped.isSet y
  if b then some s
  else do
    let w ← getWeight a key
    if w < infWeight then do
      let c ← s.1.containsId y
      if c then do
        let (q, dec) ← s.1.decreaseKey ⟨y, add32 key w⟩
        if dec then do
          let p ← wr s.2 y a
          some (q, p)
        else some (q, s.2)
      else do
        let q ← s.1.push ⟨y, add32 key w⟩
        let p ← wr s.2 y a
        some (q, p)
    else some s

/-- dijkstra.h:84-108 `settle`; returns the new object, the node and the distance. -/
def settle (d : Dijkstra) (getWeight : WeightFn) : Option (Dijkstra × Nat × Nat) := do
  check (!d.isFinished)
  let g ← d.graph
  let (q, e) ← d.queue.pop
  let t ← wr d.tentative e.id e.key
  let popped ← d.wasPopped.set e.id
  let b ← rd g.firstOut e.id
  let f ← rd g.firstOut (e.id + 1)
  let (q, p) ← forRange b f (q, d.predecessor) (relaxArc g popped getWeight e.key)
  some ({ d with tentative := t, predecessor := p, wasPopped := popped, queue := q }, e.id, e.key)

/-- dijkstra.h:110-116 `get_distance_to`. -/
def getDistanceTo (d : Dijkstra) (x : Nat) : Option Nat := do
  let g ← d.graph
  check (decide (x < g.firstOut.length - 1))
  let b ← d.wasPopped.isSet x
  if b then rd d.tentative x else some infWeight

/-- dijkstra.h:125-129, the loop of `get_node_path_to`, `path` in reverse order of pushing. -/
def nodePathLoop (g : DijkstraGraph) (pred : List Nat) : Nat → Nat → List Nat → Option (List Nat)
  | 0, _, _ => none
  | fuel + 1, x, path => do
    let p ← rd pred x
    if p ≠ invalidId then do
      let y ← rd g.tail p
      nodePathLoop g pred fuel y (x :: path)
    else some (x :: path)

/-- dijkstra.h:118-133 `get_node_path_to`. A path visits every node at most once, more iterations of
the loop mean that it does not terminate. -/
def getNodePathTo (d : Dijkstra) (x : Nat) : Option (List Nat) := do
  let g ← d.graph
  check (decide (x < g.firstOut.length - 1))
  let b ← d.wasNodeReached x
  if b then nodePathLoop g d.predecessor g.firstOut.length x [] else some []

/-- dijkstra.h:140-143, the loop of `get_arc_path_to`. -/
def arcPathLoop (g : DijkstraGraph) (pred : List Nat) : Nat → Nat → List Nat → Option (List Nat)
  | 0, _, _ => none
  | fuel + 1, x, path => do
    let p ← rd pred x
    if p ≠ invalidId then do
      let y ← rd g.tail p
      arcPathLoop g pred fuel y (p :: path)
    else some path

/-- dijkstra.h:135-147 `get_arc_path_to`. -/
def getArcPathTo (d : Dijkstra) (x : Nat) : Option (List Nat) := do
  let g ← d.graph
  check (decide (x < g.firstOut.length - 1))
  let b ← d.wasNodeReached x
  if b then arcPathLoop g d.predecessor g.firstOut.length x [] else some []

/-- The usual client loop `while(!dij.is_finished()) dij.settle(get_weight);` (e.g.
run_dijkstra.cpp); `fuel` bounds the number of rounds. -/
def runLoop (getWeight : WeightFn) : Nat → Dijkstra → Option Dijkstra
  | 0, _ => none
  | fuel + 1, d =>
    if d.isFinished then some d
    else do
      let (d, _) ← d.settle getWeight
      runLoop getWeight fuel d

end Dijkstra
end RK
