import Verif.Res
import Verif.Model.InverseVector
import Verif.Model.Permutation
/-!
# Model of `/repo/src/randomly_permute_nodes.cpp`

Reading and writing of the vector files is modelled in `Model/VectorIO`; here the vectors are arguments and results.
-/
namespace RK

/-- randomly_permute_nodes.cpp:63-80. `nodePerm` is the result of `random_permutation` (permutation.h:155-160), see
`randomPermutation`: it is an arbitrary permutation here. -/
def permuteNodesOf (stdSort : SortFn) (n : Nat) (nodePerm firstOut head : List Nat) (weights : List (List Nat)) :
    Option (List Nat × List Nat × List (List Nat)) := do
  let tail ← invertInverseVector firstOut
  let tail ← inplaceApplyPermutationToElementsOf nodePerm tail
  let head ← inplaceApplyPermutationToElementsOf nodePerm head
  let p ← computeInverseSortPermutationUsingKey stdSort head n (fun x => x)
  let tail ← applyInversePermutation p tail
  let q ← computeInverseStableSortPermutationUsingKey tail n (fun x => x)
  let tail ← applyInversePermutation q tail
  let p ← chainPermutation q p
  let head ← applyInversePermutation p head
  let weights ← weights.mapM (applyInversePermutation p)
  let firstOut ← invertVector tail n
  some (firstOut, head, weights)

/-- randomly_permute_nodes.cpp:44-80, the new `first_out`, `head` and weight vectors. `max_element_of(head) >= node_count`
is "some element is not smaller". -/
def permuteNodes (stdSort : SortFn) (nodePerm firstOut head : List Nat) (weights : List (List Nat)) :
    Res (List Nat × List Nat × List (List Nat)) := do
  let n := firstOut.length - 1
  let m := head.length
  let front ← Res.ofOption firstOut.head?
  Res.require (decide (front = 0))
  let back ← Res.ofOption firstOut.getLast?
  Res.require (decide (back = m))
  Res.require (decide (head ≠ []))
  Res.require (head.all fun x => decide (x < n))
  Res.require (weights.all fun w => decide (w.length = m))
  Res.ofOption (permuteNodesOf stdSort n nodePerm firstOut head weights)

end RK
