import Verif.Basic
/-!
# Model of `/repo/include/routingkit/id_queue.h`

Positions of children are computed with 32-bit wrap-around (`mul32`, `add32`) as in the code.
-/
namespace RK

/-- id_queue.h:11-14 `IDKeyPair`. -/
structure IDKeyPair where
  id : Nat
  key : Nat
deriving Repr, DecidableEq, Inhabited

/-- id_queue.h:173-176, the data members of `MinIDQueue`. -/
structure MinIDQueue where
  idPos : List Nat
  heap : List IDKeyPair
  heapSize : Nat
deriving Repr, DecidableEq

namespace MinIDQueue

/-- id_queue.h:20 `tree_arity`. -/
def treeArity : Nat := 4

/-- id_queue.h:24-27 constructor. -/
def new (idCount : Nat) : MinIDQueue :=
  { idPos := List.replicate idCount invalidId, heap := List.replicate idCount ⟨0, 0⟩, heapSize := 0 }

/-- id_queue.h:30-32 `empty`. -/
def empty (q : MinIDQueue) : Bool := q.heapSize == 0

/-- id_queue.h:35-37 `size`. -/
def size (q : MinIDQueue) : Nat := q.heapSize

/-- id_queue.h:40-42 `id_count`. -/
def idCount (q : MinIDQueue) : Nat := q.idPos.length

/-- id_queue.h:45-48 `contains_id`. -/
def containsId (q : MinIDQueue) (id : Nat) : Option Bool := do
  check (decide (id < q.idCount))
  let p ← rd q.idPos id
  some (p != invalidId)

/-- id_queue.h:51-55 `clear`. -/
def clear (q : MinIDQueue) : Option MinIDQueue := do
  let idPos ← forRange 0 q.heapSize q.idPos fun idPos i => do
    let e ← rd q.heap i
    wr idPos e.id invalidId
  some { q with idPos := idPos, heapSize := 0 }

/-- id_queue.h:66-70 `get_key`. -/
def getKey (q : MinIDQueue) (id : Nat) : Option Nat := do
  check (decide (id < q.idCount))
  let p ← rd q.idPos id
  check (p != invalidId)
  let e ← rd q.heap p
  some e.key

/-- id_queue.h:73-76 `peek`. -/
def peek (q : MinIDQueue) : Option IDKeyPair := do
  check (!q.empty)
  rd q.heap 0

/-- The two swaps of id_queue.h:145-146 and 167-168: swap the heap entries at `i` and `j` and then the
positions stored for their ids. -/
def swapEntries (q : MinIDQueue) (i j : Nat) : Option MinIDQueue := do
  let a ← rd q.heap i
  let b ← rd q.heap j
  let heap ← wr q.heap i b
  let heap ← wr heap j a
  -- now heap[i] = b and heap[j] = a
  let pb ← rd q.idPos b.id
  let pa ← rd q.idPos a.id
  let idPos ← wr q.idPos b.id pa
  let idPos ← wr idPos a.id pb
  some { q with heap := heap, idPos := idPos }

/-- id_queue.h:141-150 `move_up_in_tree`; the first argument bounds the number of iterations. -/
def moveUp : Nat → MinIDQueue → Nat → Option MinIDQueue
  | 0, _, _ => none
  | fuel + 1, q, pos =>
    if pos ≠ 0 then do
      let parent := (pos - 1) / treeArity
      let ep ← rd q.heap parent
      let e ← rd q.heap pos
      let q ← if ep.key > e.key then swapEntries q pos parent else some q
      moveUp fuel q parent
    else some q

/-- id_queue.h:157-162, search for the smallest child among the positions `[firstChild+1, last)`. -/
def smallestChild (heap : List IDKeyPair) (firstChild last : Nat) : Option Nat :=
  forRange (firstChild + 1) last firstChild fun s c => do
    let es ← rd heap s
    let ec ← rd heap c
    some (if es.key > ec.key then c else s)

/-- id_queue.h:152-171 `move_down_in_tree`; the first argument bounds the number of iterations. -/
def moveDown : Nat → MinIDQueue → Nat → Option MinIDQueue
  | 0, _, _ => none
  | fuel + 1, q, pos =>
    let firstChild := add32 (mul32 treeArity pos) 1
    if firstChild ≥ q.heapSize then some q
    else do
      let last := min (add32 (add32 (mul32 treeArity pos) treeArity) 1) q.heapSize
      let s ← smallestChild q.heap firstChild last
      let es ← rd q.heap s
      let e ← rd q.heap pos
      if es.key ≥ e.key then some q
      else do
        let q ← swapEntries q pos s
        moveDown fuel q s

/-- id_queue.h:79-89 `pop`. -/
def pop (q : MinIDQueue) : Option (MinIDQueue × IDKeyPair) := do
  check (!q.empty)
  let n := q.heapSize - 1
  let a ← rd q.heap 0
  let b ← rd q.heap n
  let heap ← wr q.heap 0 b
  let heap ← wr heap n a
  let e0 ← rd heap 0
  let en ← rd heap n
  let idPos ← wr q.idPos e0.id 0
  let idPos ← wr idPos en.id invalidId
  let q ← moveDown (n + 1) { idPos := idPos, heap := heap, heapSize := n } 0
  let r ← rd q.heap n
  some (q, r)

/-- id_queue.h:93-102 `push`. -/
def push (q : MinIDQueue) (p : IDKeyPair) : Option MinIDQueue := do
  check (decide (p.id < q.idCount))
  let c ← q.containsId p.id
  check (!c)
  let pos := q.heapSize
  let heap ← wr q.heap pos p
  let idPos ← wr q.idPos p.id pos
  moveUp (pos + 1) { idPos := idPos, heap := heap, heapSize := pos + 1 } pos

/-- id_queue.h:107-120 `decrease_key`; returns the new queue and whether the key was changed. -/
def decreaseKey (q : MinIDQueue) (p : IDKeyPair) : Option (MinIDQueue × Bool) := do
  check (decide (p.id < q.idCount))
  let c ← q.containsId p.id
  check c
  let pos ← rd q.idPos p.id
  let e ← rd q.heap pos
  if e.key > p.key then do
    let heap ← wr q.heap pos { e with key := p.key }
    let q ← moveUp (pos + 1) { q with heap := heap } pos
    some (q, true)
  else some (q, false)

/-- id_queue.h:125-138 `increase_key`. -/
def increaseKey (q : MinIDQueue) (p : IDKeyPair) : Option (MinIDQueue × Bool) := do
  check (decide (p.id < q.idCount))
  let c ← q.containsId p.id
  check c
  let pos ← rd q.idPos p.id
  let e ← rd q.heap pos
  if e.key < p.key then do
    let heap ← wr q.heap pos { e with key := p.key }
    let q ← moveDown (q.heapSize + 1) { q with heap := heap } pos
    some (q, true)
  else some (q, false)

end MinIDQueue
end RK
