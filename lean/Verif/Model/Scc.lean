import Verif.Basic
/-! # Model of strongly_connected_component.cpp

The two preallocated vectors `dfs_stack`, `scc_stack` with their `_top` counters are modelled by the
list of the live entries, top of the stack first, together with the capacity `n`: pushing beyond the
capacity and popping from an empty stack are undefined behaviour (`none`). -/
namespace RK

/-- strongly_connected_component.cpp:9-28, the local variables. -/
structure SccState where
  dfs : List Nat          -- dfs_stack[0..dfs_stack_top), top first
  stk : List Nat          -- scc_stack[0..scc_stack_top), top first
  inStk : List Bool       -- in_scc_stack
  nextOut : List Nat
  pos : List Nat          -- dfs_pos
  cnt : Nat               -- next_preorder_id
  low : List Nat          -- low_link
  inComp : List Bool      -- in_component
  compOf : List Nat       -- result.component_of
  compCount : Nat         -- result.component_count

namespace Scc

/-- `stack[top++] = x` on a vector of size `cap`. -/
def pushCap (cap : Nat) (stack : List Nat) (x : Nat) : Option (List Nat) :=
  if stack.length < cap then some (x :: stack) else none

/-- strongly_connected_component.cpp:9-28, initial values. -/
def init (firstOut : List Nat) (n : Nat) : SccState where
  dfs := []
  stk := []
  inStk := List.replicate n false
  nextOut := firstOut
  pos := List.replicate n invalidId
  cnt := 0
  low := List.replicate n 0
  inComp := List.replicate n false
  compOf := List.replicate n 0
  compCount := 0

/-- strongly_connected_component.cpp:36-42. -/
def discover (n : Nat) (s : SccState) (x : Nat) : Option SccState := do
  let p ← rd s.pos x
  if p = invalidId then do
    let pos ← wr s.pos x s.cnt
    let low ← wr s.low x s.cnt
    let inStk ← wr s.inStk x true
    let stk ← pushCap n s.stk x
    some { s with pos := pos, low := low, cnt := s.cnt + 1, inStk := inStk, stk := stk }
  else some s

/-- strongly_connected_component.cpp:46-47, `y = head[next_out[x]]`; the new `low_link`. -/
def mergeLow (s : SccState) (x y : Nat) : Option (List Nat) := do
  let b ← rd s.inStk y
  if b then do
    let lx ← rd s.low x
    let ly ← rd s.low y
    wr s.low x (min lx ly)
  else some s.low

/-- strongly_connected_component.cpp:46-48, the loop body, `a = next_out[x]`, `y = head[a]`. -/
def scanOne (s : SccState) (x a y : Nat) : Option SccState := do
  let low ← mergeLow s x y
  let nextOut ← wr s.nextOut x (a + 1)
  some { s with low := low, nextOut := nextOut }

/-- strongly_connected_component.cpp:45-49, the loop; the first argument bounds the number of
iterations. -/
def scan (head : List Nat) (x xEnd : Nat) : Nat → SccState → Option SccState
  | 0, _ => none
  | fuel + 1, s => do
    let a ← rd s.nextOut x
    if a ≠ xEnd then do
      let y ← rd head a
      let py ← rd s.pos y
      if py ≠ invalidId then do
        let s ← scanOne s x a y
        scan head x xEnd fuel s
      else some s
    else some s

/-- strongly_connected_component.cpp:54-59, the do-while loop. -/
def popComponent (x id : Nat) : List Nat → SccState → Option SccState
  | [], _ => none
  | z :: stk, s => do
    let inStk ← wr s.inStk z false
    let compOf ← wr s.compOf z id
    let inComp ← wr s.inComp z true
    let s := { s with stk := stk, inStk := inStk, compOf := compOf, inComp := inComp }
    if z ≠ x then popComponent x id stk s else some s

/-- strongly_connected_component.cpp:34-64, one iteration of the loop over the DFS stack. -/
def step (firstOut head : List Nat) (n : Nat) (s : SccState) : Option SccState :=
  match s.dfs with
  | [] => none
  | x :: dfs => do
    let s ← discover n { s with dfs := dfs } x
    let xEnd ← rd firstOut (x + 1)
    let s ← scan head x xEnd (head.length + 1) s
    let a ← rd s.nextOut x
    if a = xEnd then do
      let px ← rd s.pos x
      let lx ← rd s.low x
      if px = lx then
        popComponent x s.compCount s.stk { s with compCount := s.compCount + 1 }
      else some s
    else do
      let y ← rd head a
      let py ← rd s.pos y
      if py = invalidId then do
        let dfs ← pushCap n s.dfs x
        let dfs ← pushCap n dfs y
        some { s with dfs := dfs }
      else some s

/-- strongly_connected_component.cpp:33-65; every iteration discovers or leaves a node, more than
`fuel` of them mean nontermination. -/
def dfsLoop (firstOut head : List Nat) (n : Nat) : Nat → SccState → Option SccState
  | 0, _ => none
  | fuel + 1, s => if s.dfs ≠ [] then (step firstOut head n s).bind (dfsLoop firstOut head n fuel) else some s

/-- strongly_connected_component.cpp:31-67, body of the loop over the roots. -/
def root (firstOut head : List Nat) (n : Nat) (s : SccState) (r : Nat) : Option SccState := do
  let b ← rd s.inComp r
  if !b then do
    let dfs ← pushCap n s.dfs r
    let s ← dfsLoop firstOut head n (2 * n + 1) { s with dfs := dfs }
    check (s.stk.isEmpty)
    some s
  else some s

/-- strongly_connected_component.cpp:6-71 `compute_strongly_connected_components`, returns
(component_of, component_count). -/
def compute (firstOut head : List Nat) : Option (List Nat × Nat) := do
  check (!firstOut.isEmpty)
  let n := firstOut.length - 1
  let s ← forRange 0 n (init firstOut n) (root firstOut head n)
  some (s.compOf, s.compCount)

/-- strongly_connected_component.cpp:81-83 -/
def componentSizes (n : Nat) (compOf : List Nat) (count : Nat) : Option (List Nat) :=
  forRange 0 n (List.replicate count 0) fun size x => do
    let c ← rd compOf x
    let k ← rd size c
    wr size c (k + 1)

/-- strongly_connected_component.cpp:85-89 -/
def largest (size : List Nat) (count : Nat) : Option Nat :=
  forRange 1 count 0 fun l i => do
    let a ← rd size l
    let b ← rd size i
    some (if a < b then i else l)

/-- strongly_connected_component.cpp:74-96 `compute_largest_strongly_connected_component` -/
def computeLargest (firstOut head : List Nat) : Option (List Bool) := do
  check (!firstOut.isEmpty)
  let n := firstOut.length - 1
  let result := List.replicate n false
  if n > 0 then do
    let (compOf, count) ← compute firstOut head
    let size ← componentSizes n compOf count
    let l ← largest size count
    forRange 0 n result fun result x => do
      let c ← rd compOf x
      wr result x (decide (c = l))
  else some result

end Scc
end RK
