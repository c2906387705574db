import Verif.Model.Verify
import Verif.Model.InverseVector
import Verif.Model.Dijkstra
import Verif.Model.ChCheck
import Verif.Model.ChFile
import Verif.Model.ChQuery
/-!
# Model of the command line tools `/repo/src/run_dijkstra.cpp`, `compute_contraction_hierarchy.cpp`,
`run_contraction_hierarchy_query.cpp`

The vectors are given as they have been loaded, the result is the vector (or file) that is saved. `error` is the
exception that ends the tool with a message before anything is saved. Not modelled: the time measurements apart from the
division by the number of queries, the output on the terminal, the evaluation of the command line.
-/
namespace RK

/-- min_max.h:47-61 `max_element_of`: asserts that the vector is not empty; otherwise reads position 0 of an empty
vector. -/
def maxElementOf : List Nat → Option Nat
  | [] => none
  | x :: l => some (l.foldl (fun m y => if y > m then y else m) x)

/-- run_dijkstra.cpp:93-97, the loop of one query; `fuel` bounds the number of rounds. -/
def searchUntil (weight : List Nat) (target : Nat) : Nat → Dijkstra → Option Dijkstra
  | 0, _ => none
  | fuel + 1, d =>
    if d.isFinished then some d
    else do
      let (d, x, _) ← d.settle (scalarGetWeight weight)
      if x = target then some d
      else searchUntil weight target fuel d

/-- run_dijkstra.cpp:92-98, query `i`. Every round settles another node, so more rounds than nodes mean that the loop
does not end. -/
def dijkstraQuery (nodeCount : Nat) (weight source target : List Nat) (r : Dijkstra × List Nat) (i : Nat) :
    Option (Dijkstra × List Nat) := do
  let s ← rd source i
  let d ← r.1.reset
  let d ← d.addSource s 0
  let t ← rd target i
  let d ← searchUntil weight t (nodeCount + 1) d
  let k ← d.getDistanceTo t
  let distance ← wr r.2 i k
  some (d, distance)

/-- run_dijkstra.cpp:55-62 and compute_contraction_hierarchy.cpp:51-60 (which checks `head.empty()` first). -/
def checkToolInput (firstOut head weight : List Nat) : Res Unit := do
  let front ← Res.ofOption firstOut.head?
  Res.require (decide (front = 0))
  let back ← Res.ofOption firstOut.getLast?
  Res.require (decide (back = head.length))
  let m ← Res.ofOption (maxElementOf head)
  Res.require (decide (m < firstOut.length - 1))
  Res.require (decide (weight.length = head.length))

/-- run_dijkstra.cpp:47-111: the vector saved to `distance_file`. The average (line 109) divides by `query_count`. -/
def toolRunDijkstra (firstOut head weight source target : List Nat) : Res (List Nat) := do
  checkIfGraphIsValid firstOut head
  let tail ← Res.ofOption (invertInverseVector firstOut)
  checkToolInput firstOut head weight
  let d ← Res.ofOption (Dijkstra.new ⟨firstOut, tail, head⟩)
  Res.require (decide (source.length = target.length))
  let (_, distance) ← Res.ofOption (forRange 0 source.length (d, List.replicate source.length 0)
    (dijkstraQuery (firstOut.length - 1) weight source target))
  let _ ← Res.ofOption (check (decide (source.length ≠ 0)))
  .ok distance

/-- compute_contraction_hierarchy.cpp:45-65: the file written. The default of `max_pop_count` is 500
(contraction_hierarchy.h:20). `junkF` and `junkB` are the contents of uninitialised memory, `pad` the padding bytes of the
header, see `Ch.build` and `saveCh`. -/
def toolComputeCh (asserts hardened : Bool) (junkF junkB : Nat → Word) (pad : List Byte) (disk : Disk)
    (firstOut head weight : List Nat) : Res (List Byte) := do
  checkIfGraphIsValid firstOut head
  Res.require (decide (head ≠ []))
  checkToolInput firstOut head weight
  let tail ← Res.ofOption (invertInverseVector firstOut)
  let ch ← Res.ofOption (Ch.build asserts (firstOut.length - 1) tail head weight 500 junkF junkB)
  let fine ← Res.ofOption (checkCh ch)
  Res.require fine
  saveCh hardened pad disk ch

/-- run_contraction_hierarchy_query.cpp:60, query `i`. -/
def chToolQuery (source target : List Nat) (r : ChQuery × List Nat) (i : Nat) : Option (ChQuery × List Nat) := do
  let q ← r.1.reset
  let s ← rd source i
  let q ← q.addSource s 0
  let t ← rd target i
  let q ← q.addTarget t 0
  let q ← q.run
  let k ← q.getDistance
  let distance ← wr r.2 i k
  some (q, distance)

/-- run_contraction_hierarchy_query.cpp:34-72: the vector saved to `distance_file`. The average (line 70) divides by
`query_count`. -/
def toolRunChQuery (hardened : Bool) (chFile : Option (List Byte)) (source target : List Nat) : Res (List Nat) := do
  let ch ← loadCh hardened chFile
  let (_, distance) ← Res.ofOption (forRange 0 source.length (ChQuery.new ch, List.replicate source.length 0)
    (chToolQuery source target))
  let _ ← Res.ofOption (check (decide (source.length ≠ 0)))
  .ok distance

end RK
