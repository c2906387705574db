import Verif.Model.Permutation
/-!
# Model of `/repo/include/routingkit/sort.h`

`std::stable_sort` is modelled by `List.mergeSort` (the result of a stable sort by a strict weak
order is unique).  `std::sort` is a parameter: the theorems quantify over every function that
satisfies the contract of the C++ standard (`Spec.StdSort`).
The overloads that take rvalue vectors (74-78, 99-103, 277-296, 304-317) compute the same result.
The positions counted in `key_pos` are bounded by `v.size()`, which fits into `unsigned`, hence plain
`Nat` arithmetic.  The asserts of `CompareByKey` (sort.h:159-161: keys are smaller than `key_count`)
are a precondition of all functions; they are not re-checked in the comparator branches.
-/
namespace RK

variable {α : Type}

/-- sort.h:55-65 `compute_stable_sort_permutation_using_comparator`
(the indices `l`, `r` are always in bounds as they come from the identity permutation). -/
def computeStableSortPermutationUsingComparator [Inhabited α] (v : List α) (isLess : α → α → Bool) :
    Option (List Nat) := do
  let p ← identityPermutation v.length
  some (p.mergeSort fun l r => !isLess (v.getD r default) (v.getD l default))

/-- sort.h:67-72 `stable_sort_using_comparator`. -/
def stableSortUsingComparator (v : List α) (isLess : α → α → Bool) : List α :=
  v.mergeSort fun l r => !isLess r l

/-- Type of a candidate implementation of `std::sort(begin, end, less)`. -/
abbrev SortFn := (α : Type) → (α → α → Bool) → List α → List α

/-- sort.h:80-90 `compute_sort_permutation_using_comparator`. -/
def computeSortPermutationUsingComparator [Inhabited α] (stdSort : SortFn) (v : List α)
    (isLess : α → α → Bool) : Option (List Nat) := do
  let p ← identityPermutation v.length
  some (stdSort Nat (fun l r => isLess (v.getD l default) (v.getD r default)) p)

/-- sort.h:92-97 `sort_using_comparator`. -/
def sortUsingComparator (stdSort : SortFn) (v : List α) (isLess : α → α → Bool) : List α :=
  stdSort α isLess v

/-- sort.h:106-112 `is_sorted_using_comparator`. -/
def isSortedUsingComparator (isLess : α → α → Bool) : List α → Bool
  | a :: b :: l => if isLess b a then false else isSortedUsingComparator isLess (b :: l)
  | _ => true

/-- sort.h:115-118 `compute_inverse_sort_permutation_using_comparator`. -/
def computeInverseSortPermutationUsingComparator [Inhabited α] (stdSort : SortFn) (v : List α)
    (isLess : α → α → Bool) : Option (List Nat) := do
  let p ← computeSortPermutationUsingComparator stdSort v isLess
  invertPermutation p

/-- sort.h:120-123 `compute_inverse_stable_sort_permutation_using_comparator`. -/
def computeInverseStableSortPermutationUsingComparator [Inhabited α] (v : List α)
    (isLess : α → α → Bool) : Option (List Nat) := do
  let p ← computeStableSortPermutationUsingComparator v isLess
  invertPermutation p

/-- sort.h:132-137, the counting loop of `compute_key_pos`. -/
def countKeys (v : List α) (keyCount : Nat) (getKey : α → Nat) : Option (List Nat) :=
  forRange 0 v.length (List.replicate keyCount 0) fun keyPos i => do
    let x ← rd v i
    let k := getKey x
    check (decide (k ≤ keyCount))
    let c ← rd keyPos k
    wr keyPos k (c + 1)

/-- sort.h:130-145 `detail::compute_key_pos`. -/
def computeKeyPos (v : List α) (keyCount : Nat) (getKey : α → Nat) : Option (List Nat) := do
  let keyPos ← countKeys v keyCount getKey
  let r ← forRange 0 keyCount (keyPos, 0) fun (keyPos, sum) i => do
    let c ← rd keyPos i
    let tmp := sum + c
    let keyPos ← wr keyPos i sum
    some (keyPos, tmp)
  some r.1

/-- sort.h:157-164 `CompareByKey::operator()`. -/
def compareByKey (getKey : α → Nat) (l r : α) : Bool := decide (getKey l < getKey r)

/-- sort.h:128 `bucket_sort_min_key_to_element_ratio`. -/
def bucketSortMinKeyToElementRatio : Nat := 16

/-- sort.h:189-210 `detail::compute_maybe_stable_sort_permutation_using_key<is_stable>`. -/
def computeMaybeStableSortPermutationUsingKey [Inhabited α] (stdSort : SortFn) (isStable : Bool)
    (v : List α) (keyCount : Nat) (getKey : α → Nat) : Option (List Nat) :=
  if keyCount / bucketSortMinKeyToElementRatio ≤ v.length then do
    let p := List.replicate v.length 0
    let keyPos ← computeKeyPos v keyCount getKey
    let r ← forRange 0 v.length (p, keyPos) fun (p, keyPos) i => do
      let x ← rd v i
      let k := getKey x
      check (decide (k ≤ keyCount))
      let pos ← rd keyPos k
      let p ← wr p pos i
      let keyPos ← wr keyPos k (pos + 1)
      some (p, keyPos)
    some r.1
  else if isStable then
    computeStableSortPermutationUsingComparator v (compareByKey getKey)
  else
    computeSortPermutationUsingComparator stdSort v (compareByKey getKey)

/-- sort.h:222-242 `detail::compute_inverse_maybe_stable_sort_permutation_using_key<is_stable>`. -/
def computeInverseMaybeStableSortPermutationUsingKey [Inhabited α] (stdSort : SortFn)
    (isStable : Bool) (v : List α) (keyCount : Nat) (getKey : α → Nat) : Option (List Nat) :=
  if keyCount / bucketSortMinKeyToElementRatio ≤ v.length then do
    let p := List.replicate v.length 0
    let keyPos ← computeKeyPos v keyCount getKey
    let r ← forRange 0 v.length (p, keyPos) fun (p, keyPos) i => do
      let x ← rd v i
      let k := getKey x
      check (decide (k ≤ keyCount))
      let pos ← rd keyPos k
      let p ← wr p i pos
      let keyPos ← wr keyPos k (pos + 1)
      some (p, keyPos)
    some r.1
  else if isStable then
    computeInverseStableSortPermutationUsingComparator v (compareByKey getKey)
  else
    computeInverseSortPermutationUsingComparator stdSort v (compareByKey getKey)

/-- sort.h:255-274 `detail::maybe_stable_sort_using_key<is_stable>`. -/
def maybeStableSortUsingKey [Inhabited α] (stdSort : SortFn) (isStable : Bool) (v : List α)
    (keyCount : Nat) (getKey : α → Nat) : Option (List α) :=
  if keyCount / bucketSortMinKeyToElementRatio ≤ v.length then do
    let keyPos ← computeKeyPos v keyCount getKey
    let r : List α := List.replicate v.length default
    let r ← forRange 0 v.length (r, keyPos) fun (r, keyPos) i => do
      let x ← rd v i
      let k := getKey x
      check (decide (k ≤ keyCount))
      let pos ← rd keyPos k
      let r ← wr r pos x
      let keyPos ← wr keyPos k (pos + 1)
      some (r, keyPos)
    some r.1
  else if isStable then
    some (stableSortUsingComparator v (compareByKey getKey))
  else
    some (sortUsingComparator stdSort v (compareByKey getKey))

/-- Used where the result does not depend on `std::sort` (the stable variants never call it). -/
def noStdSort : SortFn := fun _ _ l => l

/-- sort.h:213-215 `compute_sort_permutation_using_key`. -/
def computeSortPermutationUsingKey [Inhabited α] (stdSort : SortFn) (v : List α) (keyCount : Nat)
    (getKey : α → Nat) : Option (List Nat) :=
  computeMaybeStableSortPermutationUsingKey stdSort false v keyCount getKey

/-- sort.h:218-220 `compute_stable_sort_permutation_using_key`. -/
def computeStableSortPermutationUsingKey [Inhabited α] (v : List α) (keyCount : Nat)
    (getKey : α → Nat) : Option (List Nat) :=
  computeMaybeStableSortPermutationUsingKey noStdSort true v keyCount getKey

/-- sort.h:245-247 `compute_inverse_sort_permutation_using_key`. -/
def computeInverseSortPermutationUsingKey [Inhabited α] (stdSort : SortFn) (v : List α)
    (keyCount : Nat) (getKey : α → Nat) : Option (List Nat) :=
  computeInverseMaybeStableSortPermutationUsingKey stdSort false v keyCount getKey

/-- sort.h:250-252 `compute_inverse_stable_sort_permutation_using_key`. -/
def computeInverseStableSortPermutationUsingKey [Inhabited α] (v : List α) (keyCount : Nat)
    (getKey : α → Nat) : Option (List Nat) :=
  computeInverseMaybeStableSortPermutationUsingKey noStdSort true v keyCount getKey

/-- sort.h:299-302 `sort_using_key`. -/
def sortUsingKey [Inhabited α] (stdSort : SortFn) (v : List α) (keyCount : Nat)
    (getKey : α → Nat) : Option (List α) :=
  maybeStableSortUsingKey stdSort false v keyCount getKey

/-- sort.h:309-312 `stable_sort_using_key`. -/
def stableSortUsingKey [Inhabited α] (v : List α) (keyCount : Nat)
    (getKey : α → Nat) : Option (List α) :=
  maybeStableSortUsingKey noStdSort true v keyCount getKey

/-- sort.h:320-326 `is_sorted_using_key`. -/
def isSortedUsingKey (getKey : α → Nat) (v : List α) : Bool :=
  isSortedUsingComparator (compareByKey getKey) v

/-- sort.h:373-376 `is_sorted_using_less` on `unsigned`. -/
def isSortedUsingLess (v : List Nat) : Bool :=
  isSortedUsingComparator (fun l r => decide (l < r)) v

end RK
