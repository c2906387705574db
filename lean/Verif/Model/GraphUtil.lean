import Verif.Model.Sort
/-!
# Model of `/repo/src/graph_util.cpp`
-/
namespace RK

/-- graph_util.cpp:21-23, the scan loop of `find_arc_or_return_invalid` over `n` arcs from `xy`. -/
def findArcLoop (head : List Nat) (y : Nat) : Nat → Nat → Option Nat
  | 0, _ => some invalidId
  | n + 1, xy => do
    let h ← rd head xy
    if h = y then some xy else findArcLoop head y n (xy + 1)

/-- graph_util.cpp:17-25 `find_arc_or_return_invalid`. -/
def findArcOrReturnInvalid (firstOut head : List Nat) (x y : Nat) : Option Nat := do
  check (decide (x < firstOut.length - 1))
  check (decide (y < firstOut.length - 1))
  let b ← rd firstOut x
  let e ← rd firstOut (x + 1)
  findArcLoop head y (e - b) b

/-- graph_util.cpp:11-15 `find_arc`. -/
def findArc (firstOut head : List Nat) (x y : Nat) : Option Nat := do
  let ret ← findArcOrReturnInvalid firstOut head x y
  check (decide (ret ≠ invalidId))
  some ret

/-- `std::lower_bound(begin+lo, begin+lo+n, y)` as binary search (used at graph_util.cpp:43);
returns the first position whose element is not smaller than `y`, or `lo+n`. -/
def lowerBound (head : List Nat) (y : Nat) (lo n : Nat) : Option Nat :=
  if h : n = 0 then some lo
  else do
    let x ← rd head (lo + n / 2)
    if x < y then lowerBound head y (lo + n / 2 + 1) (n - n / 2 - 1)
    else lowerBound head y lo (n / 2)
termination_by n
decreasing_by all_goals omega

/-- graph_util.cpp:33-49 `find_arc_or_return_invalid_given_sorted_head`. -/
def findArcOrReturnInvalidGivenSortedHead (firstOut head : List Nat) (x y : Nat) : Option Nat := do
  check (decide (x < firstOut.length - 1))
  check (decide (y < firstOut.length - 1))
  let b ← rd firstOut x
  let e ← rd firstOut (x + 1)
  check (decide (b ≤ e ∧ e ≤ head.length))
  check (isSortedUsingLess ((head.drop b).take (e - b)))
  let pos ← lowerBound head y b (e - b)
  if pos = e then some invalidId
  else do
    let h ← rd head pos
    if h ≠ y then some invalidId else some pos

/-- graph_util.cpp:27-31 `find_arc_given_sorted_head`. -/
def findArcGivenSortedHead (firstOut head : List Nat) (x y : Nat) : Option Nat := do
  let ret ← findArcOrReturnInvalidGivenSortedHead firstOut head x y
  check (decide (ret ≠ invalidId))
  some ret

/-- graph_util.cpp:55-61, the inner loop of `convert_node_path_to_arc_path`: searches among `n` arcs
from `xy`; running past the last arc fails the assert in line 56. -/
def convertScan (head : List Nat) (y : Nat) : Nat → Nat → Option Nat
  | 0, _ => none
  | n + 1, xy => do
    let h ← rd head xy
    if h = y then some xy else convertScan head y n (xy + 1)

/-- graph_util.cpp:52-66 `convert_node_path_to_arc_path`. -/
def convertNodePathToArcPath (firstOut head : List Nat) (path : List Nat) : Option (List Nat) :=
  if path = [] then some path
  else do
    let path ← forRange 0 (path.length - 1) path fun path i => do
      let x ← rd path i
      let b ← rd firstOut x
      let e ← rd firstOut (x + 1)
      let y ← rd path (i + 1)
      let xy ← convertScan head y (e - b) b
      wr path i xy
    some path.dropLast

/-- graph_util.cpp:72-73, the loop `for(i=path.size()-1; i>1; --i)`; `n` is `i-1`. -/
def convertArcPathLoop (head : List Nat) : Nat → List Nat → Option (List Nat)
  | 0, path => some path
  | n + 1, path => do
    let a ← rd path (n + 1)
    let h ← rd head a
    let path ← wr path (n + 2) h
    convertArcPathLoop head n path

/-- graph_util.cpp:69-77 `convert_arc_path_to_node_path`. The initial `i` is `path.size()-1` after
the resize, so the loop of line 72 runs for `i = len, len-1, …, 2` where `len` is the number of
arcs. -/
def convertArcPathToNodePath (source : Nat) (head : List Nat) (path : List Nat) :
    Option (List Nat) :=
  if path = [] then some path
  else do
    let len := path.length
    let path := path ++ [0]
    let path ← convertArcPathLoop head (len - 1) path
    wr path 0 source

/-- graph_util.cpp:106-118
`compute_sort_permutation_first_by_left_then_by_right_and_apply_sort_to_left`;
returns the permutation and the new `a`. -/
def computeSortPermutationFirstByLeftThenByRightAndApplySortToLeft (aCount : Nat) (a : List Nat)
    (bCount : Nat) (b : List Nat) : Option (List Nat × List Nat) := do
  let p ← computeStableSortPermutationUsingKey b bCount (fun x => x)
  let a ← applyPermutation p a
  let q ← computeStableSortPermutationUsingKey a aCount (fun x => x)
  let a ← applyPermutation q a
  check (isSortedUsingLess a)
  let r ← chainPermutation p q
  some (r, a)

/-- graph_util.cpp:120-132
`compute_inverse_sort_permutation_first_by_left_then_by_right_and_apply_sort_to_left`. -/
def computeInverseSortPermutationFirstByLeftThenByRightAndApplySortToLeft (aCount : Nat)
    (a : List Nat) (bCount : Nat) (b : List Nat) : Option (List Nat × List Nat) := do
  let p ← computeInverseStableSortPermutationUsingKey b bCount (fun x => x)
  let a ← applyInversePermutation p a
  let q ← computeInverseStableSortPermutationUsingKey a aCount (fun x => x)
  let a ← applyInversePermutation q a
  check (isSortedUsingLess a)
  let r ← chainPermutation q p
  some (r, a)

/-- graph_util.cpp:94-104 `compute_sort_permutation_first_by_left_then_by_right`. `asserts` tells
whether the code is compiled with asserts: line 102 asserts that the *input* `a` is sorted. -/
def computeSortPermutationFirstByLeftThenByRight (asserts : Bool) (aCount : Nat) (a : List Nat)
    (bCount : Nat) (b : List Nat) : Option (List Nat) := do
  let p ← computeStableSortPermutationUsingKey b bCount (fun x => x)
  let a' ← applyPermutation p a
  let q ← computeStableSortPermutationUsingKey a' aCount (fun x => x)
  check (!asserts || isSortedUsingLess a)
  chainPermutation p q

/-- graph_util.cpp:82-92 `compute_inverse_sort_permutation_first_by_left_then_by_right`. -/
def computeInverseSortPermutationFirstByLeftThenByRight (asserts : Bool) (aCount : Nat)
    (a : List Nat) (bCount : Nat) (b : List Nat) : Option (List Nat) := do
  let p ← computeInverseStableSortPermutationUsingKey b bCount (fun x => x)
  let a' ← applyInversePermutation p a
  let q ← computeInverseStableSortPermutationUsingKey a' aCount (fun x => x)
  check (!asserts || isSortedUsingLess a)
  chainPermutation q p

/-- graph_util.cpp:142-148
`compute_sort_permutation_first_by_tail_then_by_head_and_apply_sort_to_tail`. -/
def computeSortPermutationFirstByTailThenByHeadAndApplySortToTail (nodeCount : Nat)
    (tail head : List Nat) : Option (List Nat × List Nat) :=
  computeSortPermutationFirstByLeftThenByRightAndApplySortToLeft nodeCount tail nodeCount head

/-- graph_util.cpp:134-140
`compute_inverse_sort_permutation_first_by_tail_then_by_head_and_apply_sort_to_tail`. -/
def computeInverseSortPermutationFirstByTailThenByHeadAndApplySortToTail (nodeCount : Nat)
    (tail head : List Nat) : Option (List Nat × List Nat) :=
  computeInverseSortPermutationFirstByLeftThenByRightAndApplySortToLeft nodeCount tail nodeCount head

/-- graph_util.cpp:158-164 `compute_sort_permutation_first_by_tail_then_by_head`. -/
def computeSortPermutationFirstByTailThenByHead (asserts : Bool) (nodeCount : Nat)
    (tail head : List Nat) : Option (List Nat) :=
  computeSortPermutationFirstByLeftThenByRight asserts nodeCount tail nodeCount head

/-- graph_util.cpp:150-156 `compute_inverse_sort_permutation_first_by_tail_then_by_head`. -/
def computeInverseSortPermutationFirstByTailThenByHead (asserts : Bool) (nodeCount : Nat)
    (tail head : List Nat) : Option (List Nat) :=
  computeInverseSortPermutationFirstByLeftThenByRight asserts nodeCount tail nodeCount head

end RK
