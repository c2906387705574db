import Verif.Res
import Verif.Model.Sort
/-!
# Model of `/repo/src/verify.cpp`

The checks that the command line tools apply to the vectors they have read. `error` is the exception.
`std::is_sorted` on `unsigned` is `isSortedUsingLess` (no element is smaller than its predecessor).
-/
namespace RK

/-- A loop over a vector that throws at the first element with the property `bad` (verify.cpp:19-21, 48-50, 75-83). -/
def throwIfAny (bad : Nat → Bool) : List Nat → Res Unit
  | [] => .ok ()
  | x :: l => do
    Res.require (!bad x)
    throwIfAny bad l

/-- A loop `for(i = first; i < first + count; ++i)` over checks. -/
def checkEach (f : Nat → Res Unit) : Nat → Nat → Res Unit
  | 0, _ => .ok ()
  | count + 1, first => do
    f first
    checkEach f count (first + 1)

/-- verify.cpp:8-22 `check_if_graph_is_valid`. `front` and `back` of an empty vector are undefined. -/
def checkIfGraphIsValid (firstOut head : List Nat) : Res Unit := do
  let front ← Res.ofOption firstOut.head?
  Res.require (decide (front = 0))
  let back ← Res.ofOption firstOut.getLast?
  Res.require (decide (back = head.length))
  let nodeCount := firstOut.length - 1
  Res.require (isSortedUsingLess firstOut)
  throwIfAny (fun x => decide (x ≥ nodeCount)) head

/-- The elements of `v` from position `b` to position `e - 1`; undefined if this is not a range of `v`. -/
def subrange (v : List Nat) (b e : Nat) : Option (List Nat) :=
  if b ≤ e ∧ e ≤ v.length then some ((v.take e).drop b) else none

/-- verify.cpp:24-51 `check_if_arc_ipp_are_valid`. -/
def checkIfArcIppAreValid (period : Nat) (firstIpp departure travel : List Nat) : Res Unit := do
  let front ← Res.ofOption firstIpp.head?
  Res.require (decide (front = 0))
  let back ← Res.ofOption firstIpp.getLast?
  Res.require (decide (back = departure.length))
  Res.require (isSortedUsingLess firstIpp)
  checkEach (fun i => do
    let a ← Res.ofOption (rd firstIpp (i - 1))
    let b ← Res.ofOption (rd firstIpp i)
    Res.require (decide (a ≠ b))) (firstIpp.length - 1) 1
  Res.require (decide (travel.length = departure.length))
  checkEach (fun a => do
    let b ← Res.ofOption (rd firstIpp a)
    let e ← Res.ofOption (rd firstIpp (a + 1))
    let times ← Res.ofOption (subrange departure b e)
    Res.require (isSortedUsingLess times)) (firstIpp.length - 1) 0
  throwIfAny (fun x => decide (x ≥ period)) departure

/-- verify.cpp:53-64 `check_if_td_graph_is_valid`. If `first_ipp_of_arc` is empty then `size()-1` is 2^64-1. -/
def checkIfTdGraphIsValid (period : Nat) (firstOut head firstIpp departure travel : List Nat) : Res Unit := do
  checkIfGraphIsValid firstOut head
  Res.require (decide (head.length = (firstIpp.length + 18446744073709551615) % 18446744073709551616))
  checkIfArcIppAreValid period firstIpp departure travel

/-- verify.cpp:69-91 `check_if_sst_queries_are_valid`. -/
def checkIfSstQueriesAreValid (period nodeCount : Nat) (source sourceTime target rank : List Nat) : Res Unit := do
  throwIfAny (fun x => decide (x ≥ nodeCount)) source
  throwIfAny (fun x => decide (x ≥ nodeCount)) target
  throwIfAny (fun x => decide (x ≥ period)) sourceTime
  Res.require (decide (sourceTime.length = source.length))
  Res.require (decide (target.length = source.length))
  Res.require (decide (rank.length = source.length))

end RK
