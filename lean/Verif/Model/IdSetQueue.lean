import Verif.Basic
/-! Model of include/routingkit/id_set_queue.h. -/
namespace RK

/-- id_set_queue.h:98-105 `smallest_two_power_no_smaller_than`, the loop with the current `y`. `none`
if the shift overflows to 0 (assertion at line 102; without assertions the loop never ends). -/
def smallestTwoPowerLoop : Nat → Nat → Nat → Option Nat
  | 0, _, _ => none
  | fuel + 1, x, y => do
    if y < x then
      let y := (y * 2) % u32
      check (y != 0)
      smallestTwoPowerLoop fuel x y
    else
      some y

/-- id_set_queue.h:98-105. -/
def smallestTwoPower (x : Nat) : Option Nat := smallestTwoPowerLoop 33 x 1

/-- id_set_queue.h:225-228, the members. -/
structure IDSetMinQueue where
  maxNumberOfIds : Nat
  minId : Nat
  offset : Nat
  data : List Bool
deriving Repr, DecidableEq

namespace IDSetMinQueue

/-- id_set_queue.h:111-116 constructor. The array size is computed in 32 bit arithmetic. -/
def new (n : Nat) : Option IDSetMinQueue := do
  let offset ← smallestTwoPower n
  some ⟨n, invalidId, offset, List.replicate (add32 (add32 n offset) (n % 2)) false⟩

/-- id_set_queue.h:137-149, the loop of `push`: set bits on the way to the root. -/
def pushLoop : Nat → List Bool → Nat → Option (List Bool)
  | 0, _, _ => none
  | fuel + 1, data, x => do
    let b ← rd data x
    check (!b)
    let data ← wr data x true
    if x = 1 then some data
    else
      let x := x / 2
      let b ← rd data x
      if b then some data else pushLoop fuel data x

/-- id_set_queue.h:124-150 `push`. -/
def push (q : IDSetMinQueue) (id : Nat) : Option IDSetMinQueue := do
  check (decide (id < q.maxNumberOfIds))
  let q := { q with minId := if q.minId = invalidId then id else min q.minId id }
  let x := add32 id q.offset
  let b ← rd q.data x
  if b then some q
  else
    let data ← pushLoop (x + 1) q.data x
    some { q with data := data }

/-- id_set_queue.h:153-156 `contains`. -/
def contains (q : IDSetMinQueue) (id : Nat) : Option Bool := do
  check (decide (id < q.maxNumberOfIds))
  rd q.data (add32 q.offset id)

/-- id_set_queue.h:159-161 `empty`. -/
def empty (q : IDSetMinQueue) : Bool := q.minId == invalidId

/-- id_set_queue.h:165-167 `peek`. -/
def peek (q : IDSetMinQueue) : Nat := q.minId

/-- id_set_queue.h:178-198, first loop of `pop`: clear bits on the way up. Returns the array and the
node at which the loop was left by `break`, or `none` as node if the root was reached. -/
def popUp : Nat → List Bool → Nat → Option (List Bool × Option Nat)
  | 0, _, _ => none
  | fuel + 1, data, x => do
    let b ← rd data x
    check b
    let data ← wr data x false
    if x = 1 then some (data, none)
    else if x % 2 = 0 then do
      let c ← rd data (x + 1)
      if c then some (data, some x) else popUp fuel data (x / 2)
    else do
      let c ← rd data (x - 1)
      check (!c)
      popUp fuel data (x / 2)

/-- id_set_queue.h:203-211, second loop of `pop`: walk down to the smallest set leaf. -/
def popDown : Nat → List Bool → Nat → Nat → Option Nat
  | 0, _, _, _ => none
  | fuel + 1, data, offset, x =>
    if x ≥ offset then some x
    else do
      let x := 2 * x
      let b ← rd data x
      let x := if b then x else x + 1
      let b ← rd data x
      check b
      popDown fuel data offset x

/-- id_set_queue.h:171-215 `pop`. `x ^ 1` is written `x + 1` for even and `x - 1` for odd `x`. -/
def pop (q : IDSetMinQueue) : Option (IDSetMinQueue × Nat) := do
  check (!q.empty)
  let ret := q.minId
  let x := add32 q.minId q.offset
  let (data, r) ← popUp (x + 1) q.data x
  match r with
  | none => some ({ q with data := data, minId := invalidId }, ret)
  | some x => do
    check (decide (x % 2 = 0))
    let x := x + 1
    let b ← rd data x
    check b
    let x ← popDown (q.offset + 1) data q.offset x
    some ({ q with data := data, minId := x - q.offset }, ret)

/-- id_set_queue.h:218-221 `clear`. -/
def clearLoop : Nat → IDSetMinQueue → Option IDSetMinQueue
  | 0, _ => none
  | fuel + 1, q =>
    if !q.empty then do
      let (q, _) ← q.pop
      clearLoop fuel q
    else some q

/-- id_set_queue.h:218-221 `clear`: at most `id_count` elements are popped. -/
def clear (q : IDSetMinQueue) : Option IDSetMinQueue := clearLoop (q.maxNumberOfIds + 1) q

end IDSetMinQueue
end RK
