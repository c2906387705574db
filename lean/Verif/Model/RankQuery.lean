import Verif.Model.Verify
import Verif.Model.InverseVector
import Verif.Model.Dijkstra
import Verif.Spec.RankQuery
/-!
# Model of `/repo/src/generate_dijkstra_rank_test_queries.cpp`

The four vectors that grow in parallel are one list of rows. The random numbers are a parameter: the list of the drawn
source nodes.
-/
namespace RK
open Spec

/-- generate_dijkstra_rank_test_queries.cpp:79-93, the search from `s`; `n` and `r` are the local variables. A shift by 32
or more is undefined. Every round settles another node, so more rounds than nodes mean that the loop does not end. -/
def rankLoop (weight : List Nat) (s : Nat) : Nat → Dijkstra → Nat → Nat → List RankQuery → Option (Dijkstra × List RankQuery)
  | 0, _, _, _, _ => none
  | fuel + 1, d, n, r, rows =>
    if d.isFinished then some (d, rows)
    else do
      let (d, x, k) ← d.settle (scalarGetWeight weight)
      let n := n + 1
      check (decide (r < 32))
      if n = 2 ^ r then
        rankLoop weight s fuel d n (r + 1) (if r > 5 then rows ++ [⟨s, x, r, k⟩] else rows)
      else rankLoop weight s fuel d n r rows

/-- generate_dijkstra_rank_test_queries.cpp:71-94, the loop over the drawn sources. -/
def rankQueriesFrom (nodeCount : Nat) (weight : List Nat) : List Nat → Dijkstra → List RankQuery → Option (Dijkstra × List RankQuery)
  | [], d, rows => some (d, rows)
  | s :: drawn, d, rows => do
    let d ← d.reset
    let d ← d.addSource s 0
    let (d, rows) ← rankLoop weight s (nodeCount + 1) d 0 0 rows
    rankQueriesFrom nodeCount weight drawn d rows

/-- generate_dijkstra_rank_test_queries.cpp:51-103: the rows of the files. A distribution on 0 .. -1 is undefined. -/
def toolRankQueries (firstOut head weight drawn : List Nat) : Res (List RankQuery) := do
  checkIfGraphIsValid firstOut head
  let tail ← Res.ofOption (invertInverseVector firstOut)
  let nodeCount := firstOut.length - 1
  let _ ← Res.ofOption (check (decide (nodeCount ≠ 0)))
  let d ← Res.ofOption (Dijkstra.new ⟨firstOut, tail, head⟩)
  let (_, rows) ← Res.ofOption (rankQueriesFrom nodeCount weight drawn d [])
  .ok rows

end RK
