import Verif.Model.Sort
/-!
# Model of `/repo/include/routingkit/inverse_vector.h`
-/
namespace RK

/-- inverse_vector.h:33-34 `while(pos < v.size() && v[pos] < i) ++pos;`; `n` bounds the number of
iterations (`v.size() - pos`). -/
def advanceWhileLess (v : List Nat) (i : Nat) : Nat → Nat → Option Nat
  | 0, pos => some pos
  | n + 1, pos => do
    let x ← rd v pos
    if x < i then advanceWhileLess v i n (pos + 1) else some pos

/-- inverse_vector.h:20-40 `invert_vector`. `max_element_of(v) < element_count` (assert, line 27) is
"all elements are smaller". -/
def invertVector (v : List Nat) (elementCount : Nat) : Option (List Nat) :=
  let index := List.replicate (elementCount + 1) 0
  if v = [] then some index
  else do
    check (isSortedUsingLess v)
    check (v.all fun x => decide (x < elementCount))
    let index ← wr index 0 0
    let r ← forRange 0 elementCount (index, 0) fun (index, pos) i => do
      let pos ← advanceWhileLess v i (v.length - pos) pos
      let index ← wr index i pos
      some (index, pos)
    wr r.1 elementCount v.length

/-- inverse_vector.h:42-53 `invert_inverse_vector`. -/
def invertInverseVector (sortedIndex : List Nat) : Option (List Nat) := do
  let back ← sortedIndex.getLast?
  let v := List.replicate back 0
  forRange 0 (sortedIndex.length - 1) v fun v i => do
    let b ← rd sortedIndex i
    let e ← rd sortedIndex (i + 1)
    forRange b e v fun v j => wr v j i

end RK
