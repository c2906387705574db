import Verif.Model.ChQuery
import Verif.Model.Permutation
import Verif.Model.Sort
/-! # Model of `check_contraction_hierarchy_for_errors` (contraction_hierarchy.cpp:1189-1287) -/
namespace RK

/-- A check that throws an exception if it fails: `some false`. -/
def andThen (b : Bool) (next : Option Bool) : Option Bool := if b then next else some false

/-- contraction_hierarchy.cpp:1200-1216 (and 1219-1236) without the sizes of line 1195 (1197): sizes and range of the
vectors of one direction. `max_element_of(head) >= node_count` is modelled as "some element is at least node_count". -/
def checkSide (n : Nat) (s : ChSide) (next : Option Bool) : Option Bool := do
  let m ← s.firstOut.getLast?
  let z ← s.firstOut.head?
  andThen (decide (z = 0)) <|
  andThen (isSortedUsingLess s.firstOut) <|
  andThen (decide (s.head.length = m)) <|
  andThen (decide (s.weight.length = m)) <|
  andThen (decide (s.first.length = m)) <|
  andThen (decide (s.second.length = m)) <|
  andThen (decide (s.isOriginal.size = m)) <|
  andThen (s.head.all fun y => decide (y < n)) next

/-- contraction_hierarchy.cpp:1239-1243 (and 1244-1248), the arcs `a, ..., a+k-1` of `x` lead upwards. -/
def checkUpArcs (head : List Nat) (x : Nat) : Nat → Nat → Option Bool
  | 0, _ => some true
  | k + 1, a => do
    let y ← rd head a
    andThen (!decide (y ≤ x)) (checkUpArcs head x k (a + 1))

/-- contraction_hierarchy.cpp:1239-1243 (and 1244-1248), all arcs of `x`. -/
def checkUpNode (s : ChSide) (x : Nat) : Option Bool := do
  let b ← rd s.firstOut x
  let e ← rd s.firstOut (x + 1)
  checkUpArcs s.head x (e - b) b

/-- A loop of checks: `a, ..., a+k-1`. -/
def checkLoop (f : Nat → Option Bool) : Nat → Nat → Option Bool
  | 0, _ => some true
  | k + 1, a => do
    let b ← f a
    andThen b (checkLoop f k (a + 1))

/-- contraction_hierarchy.cpp:1252-1266 (`isForward`) and 1270-1284, loop body. -/
def checkUnpack (n : Nat) (fwd bwd : ChSide) (isForward : Bool) (a : Nat) : Option Bool := do
  let s := if isForward then fwd else bwd
  let o ← s.isOriginal.isSet a
  let i ← rd s.first a
  let j ← rd s.second a
  if !o then
    andThen (!decide (i ≥ bwd.head.length)) <|
    andThen (!decide (j ≥ fwd.head.length)) <|
    andThen (!decide ((if isForward then j else i) ≥ a)) <| do
      let w ← rd s.weight a
      let w1 ← rd bwd.weight i
      let w2 ← rd fwd.weight j
      some (decide (w = add32 w1 w2))
  else
    andThen (!decide (i = invalidId)) <|
    some (!decide (j ≥ n))

/-- contraction_hierarchy.cpp:1238-1285, the loops. The counts of lines 1200 and 1219 are the sizes of the head vectors
(1206, 1225). -/
def checkArcs (ch : Ch) : Option Bool := do
  let n := ch.rank.length
  let b ← checkLoop (fun x => do
    let b ← checkUpNode ch.forward x
    andThen b (checkUpNode ch.backward x)) n 0
  andThen b <| do
    let b ← checkLoop (checkUnpack n ch.forward ch.backward true) ch.forward.head.length 0
    andThen b <| checkLoop (checkUnpack n ch.forward ch.backward false) ch.backward.head.length 0

/-- contraction_hierarchy.cpp:1189-1287 `check_contraction_hierarchy_for_errors`: `some true` if it returns, `some false`
if it throws. `invert_permutation` asserts that its argument is a permutation; without assertions it writes out of
bounds or leaves positions unset if it is not. -/
def checkCh (ch : Ch) : Option Bool := do
  let inv ← invertPermutation ch.order
  andThen (decide (ch.rank = inv)) <|
  andThen (decide (ch.forward.firstOut.length = add32 ch.rank.length 1)) <|
  andThen (decide (ch.backward.firstOut.length = add32 ch.rank.length 1)) <|
  checkSide ch.rank.length ch.forward <|
  checkSide ch.rank.length ch.backward <|
  checkArcs ch

end RK
