import Verif.Basic
/-!
# Model of `/repo/include/routingkit/min_max.h` and of `/repo/src/compare_vector.cpp`

The element type is arbitrary: `lt` is its operator `<`, `ne` its operator `!=`; `x > y` is `lt y x`. Vectors have fewer
than 2^32 elements.
-/
namespace RK

/-- min_max.h:9-13 `min_to`: the new value of `x`. -/
def minToValue {α : Type} (lt : α → α → Bool) (x y : α) : α := if lt y x then y else x

/-- min_max.h:15-19 `max_to`. -/
def maxToValue {α : Type} (lt : α → α → Bool) (x y : α) : α := if lt x y then y else x

/-- min_max.h:21-29 `first_min_element_position_of`. -/
def firstMinPos {α : Type} (lt : α → α → Bool) (v : List α) : Option Nat := do
  check (decide (v ≠ []))
  forRange 1 v.length 0 fun pos i => do
    let a ← rd v i
    let b ← rd v pos
    some (if lt a b then i else pos)

/-- min_max.h:31-34 `min_element_of`. -/
def minElementOf {α : Type} (lt : α → α → Bool) (v : List α) : Option α := do
  let pos ← firstMinPos lt v
  rd v pos

/-- min_max.h:36-42 `min_element_of` with a value for the empty vector. -/
def minElementOr {α : Type} (lt : α → α → Bool) (v : List α) (emptyValue : α) : Option α :=
  if v = [] then some emptyValue else minElementOf lt v

/-- min_max.h:45-53 `first_max_element_position_of`. -/
def firstMaxPos {α : Type} (lt : α → α → Bool) (v : List α) : Option Nat := do
  check (decide (v ≠ []))
  forRange 1 v.length 0 fun pos i => do
    let a ← rd v i
    let b ← rd v pos
    some (if lt b a then i else pos)

/-- min_max.h:55-58 `max_element_of`. -/
def maxElement {α : Type} (lt : α → α → Bool) (v : List α) : Option α := do
  let pos ← firstMaxPos lt v
  rd v pos

/-- min_max.h:60-66 `max_element_of` with a value for the empty vector. -/
def maxElementOr {α : Type} (lt : α → α → Bool) (v : List α) (emptyValue : α) : Option α :=
  if v = [] then some emptyValue else maxElement lt v

/-- What compare_vector.cpp:15-46 prints. -/
inductive CompareReport where
  /-- `vector1` has only `n1` elements while `vector2` has `n2` -/
  | shorter1 (n1 n2 : Nat)
  /-- `vector2` has only `n2` elements while `vector1` has `n1` -/
  | shorter2 (n2 n1 : Nat)
  /-- the vectors are the same and have `n` elements -/
  | same (n : Nat)
  /-- the numbers of elements that are smaller in `vector1`, smaller in `vector2`, the same, different, the size and the first
  difference -/
  | differ (smaller1 smaller2 same different size first : Nat)
deriving Repr, DecidableEq

/-- compare_vector.cpp:20-23, the variables of the loop. -/
structure CompareState where
  smaller1 : Nat
  smaller2 : Nat
  first : Nat

/-- compare_vector.cpp:25-32, the body of the loop. -/
def compareStep {α : Type} (lt ne : α → α → Bool) (v1 v2 : List α) (s : CompareState) (i : Nat) : Option CompareState := do
  let a ← rd v1 i
  let b ← rd v2 i
  some ⟨if lt a b then s.smaller1 + 1 else s.smaller1, if lt b a then s.smaller2 + 1 else s.smaller2,
    if ne a b && decide (s.first = 4294967295) then i else s.first⟩

/-- compare_vector.cpp:10-50 `compare_num_data`. The number of equal elements (line 40) is a difference of type `size_t`. -/
def compareNumData {α : Type} (lt ne : α → α → Bool) (v1 v2 : List α) : Option CompareReport :=
  if v1.length < v2.length then some (.shorter1 v1.length v2.length)
  else if v2.length < v1.length then some (.shorter2 v2.length v1.length)
  else do
    let s ← forRange 0 v1.length ⟨0, 0, 4294967295⟩ (compareStep lt ne v1 v2)
    if s.smaller1 = 0 ∧ s.smaller2 = 0 then some (.same v1.length)
    else some (.differ s.smaller1 s.smaller2 ((v1.length + 2 * 2 ^ 64 - s.smaller1 - s.smaller2) % 2 ^ 64)
      ((s.smaller1 + s.smaller2) % u32) v1.length s.first)

/-- What compare_vector.cpp:56-78 prints. -/
inductive StringReport where
  | shorter1 (n1 n2 : Nat)
  | shorter2 (n2 n1 : Nat)
  | same (n : Nat)
  | differ (same different size : Nat)
deriving Repr, DecidableEq

/-- compare_vector.cpp:52-80 `compare_string_data`; `eq` is `==`. -/
def compareStringData {α : Type} (eq : α → α → Bool) (v1 v2 : List α) : Option StringReport :=
  if v1.length < v2.length then some (.shorter1 v1.length v2.length)
  else if v2.length < v1.length then some (.shorter2 v2.length v1.length)
  else do
    let n ← forRange 0 v1.length 0 fun n i => do
      let a ← rd v1 i
      let b ← rd v2 i
      some (if eq a b then n + 1 else n)
    if n = v1.length then some (.same v1.length)
    else some (.differ n (v1.length - n) v1.length)

end RK
