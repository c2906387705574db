import Verif.Model.Sort
/-! # The overloads of `/repo/include/routingkit/sort.h` for vectors that may be consumed

A vector whose elements may have been moved from is a list of `Option`: `none` is an element in an unspecified state.
Using such an element is `none` of the whole call. The result is a pair: what is returned, and the argument afterwards. -/
namespace RK

variable {α : Type}

/-- sort.h:74-78 `stable_sort_using_comparator(std::vector<T>&&, ...)`: the argument is moved to the result as a whole. -/
def stableSortUsingComparatorMove (v : List α) (isLess : α → α → Bool) : List α × List (Option α) :=
  (v.mergeSort fun l r => !isLess r l, [])

/-- sort.h:99-103 `sort_using_comparator(std::vector<T>&&, ...)`. -/
def sortUsingComparatorMove (stdSort : SortFn) (v : List α) (isLess : α → α → Bool) : List α × List (Option α) :=
  (stdSort α isLess v, [])

/-- sort.h:284-289, one round of the loop: the element is read for its key, then moved to its place. -/
def moveToBucket (keyCount : Nat) (getKey : α → Nat) (s : List (Option α) × List α × List Nat) (i : Nat) :
    Option (List (Option α) × List α × List Nat) := do
  let slot ← rd s.1 i
  let x ← slot
  let k := getKey x
  check (decide (k ≤ keyCount))
  let pos ← rd s.2.2 k
  let r ← wr s.2.1 pos x
  let v ← wr s.1 i none
  let keyPos ← wr s.2.2 k (pos + 1)
  some (v, r, keyPos)

/-- sort.h:277-296 `detail::maybe_stable_sort_using_key(std::vector<T>&&, ...)`. In lines 291 and 293 `v` has a name, so
the overloads that copy are called. -/
def maybeStableSortUsingKeyMove [Inhabited α] (stdSort : SortFn) (isStable : Bool) (v : List α)
    (keyCount : Nat) (getKey : α → Nat) : Option (List α × List (Option α)) :=
  if keyCount / bucketSortMinKeyToElementRatio ≤ v.length then do
    let keyPos ← computeKeyPos v keyCount getKey
    let s ← forRange 0 v.length (v.map some, List.replicate v.length default, keyPos) (moveToBucket keyCount getKey)
    some (s.2.1, s.1)
  else if isStable then
    some (stableSortUsingComparator v (compareByKey getKey), v.map some)
  else
    some (sortUsingComparator stdSort v (compareByKey getKey), v.map some)

/-- sort.h:304-307 `sort_using_key(std::vector<T>&&, ...)`. -/
def sortUsingKeyMove [Inhabited α] (stdSort : SortFn) (v : List α) (keyCount : Nat) (getKey : α → Nat) :
    Option (List α × List (Option α)) :=
  maybeStableSortUsingKeyMove stdSort false v keyCount getKey

/-- sort.h:314-317 `stable_sort_using_key(std::vector<T>&&, ...)`. -/
def stableSortUsingKeyMove [Inhabited α] (v : List α) (keyCount : Nat) (getKey : α → Nat) :
    Option (List α × List (Option α)) :=
  maybeStableSortUsingKeyMove noStdSort true v keyCount getKey

end RK
