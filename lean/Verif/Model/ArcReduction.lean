import Verif.Model.GraphUtil
/-!
# Model of the arc reduction of `/repo/src/contraction_hierarchy.cpp` (lines 17-81)

Logging (22-26, 77-80) has no effect on the result and is not modelled.
-/
namespace RK

/-- The four parallel vectors `tail`, `head`, `weight`, `input_arc_id`
(contraction_hierarchy.cpp:18). -/
structure ArcCols where
  tail : List Nat
  head : List Nat
  weight : List Nat
  id : List Nat
deriving Repr, DecidableEq

namespace ArcCols

/-- contraction_hierarchy.cpp:42-45 and 57-60: copies row `src` to row `dst` in all four vectors. -/
def copyRow (a : ArcCols) (dst src : Nat) : Option ArcCols := do
  let t ← rd a.tail src
  let tail ← wr a.tail dst t
  let h ← rd a.head src
  let head ← wr a.head dst h
  let w ← rd a.weight src
  let weight ← wr a.weight dst w
  let i ← rd a.id src
  let id ← wr a.id dst i
  some ⟨tail, head, weight, id⟩

/-- contraction_hierarchy.cpp:40-48, body of the loop-removal loop; the state is `(out, vectors)`. -/
def loopStep (s : Nat × ArcCols) (i : Nat) : Option (Nat × ArcCols) := do
  let t ← rd s.2.tail i
  let h ← rd s.2.head i
  if t ≠ h then do
    let a ← s.2.copyRow s.1 i
    some (s.1 + 1, a)
  else some s

/-- contraction_hierarchy.cpp:36-50: removes loops, returns the new `arc_count`. -/
def removeLoops (a : ArcCols) (arcCount : Nat) : Option (Nat × ArcCols) :=
  if arcCount ≠ 0 then forRange 0 arcCount (0, a) loopStep else some (arcCount, a)

/-- contraction_hierarchy.cpp:62-66, the `else` branch: keep the lighter one of two parallel arcs. -/
def mergeRow (a : ArcCols) (out i : Nat) : Option ArcCols := do
  let wi ← rd a.weight i
  let wo ← rd a.weight (out - 1)
  if wi < wo then do
    let weight ← wr a.weight (out - 1) wi
    let x ← rd a.id i
    let id ← wr a.id (out - 1) x
    some { a with weight := weight, id := id }
  else some a

/-- contraction_hierarchy.cpp:56-68, body of the multi-arc removal loop. -/
def multiStep (s : Nat × ArcCols) (i : Nat) : Option (Nat × ArcCols) := do
  let t0 ← rd s.2.tail (i - 1)
  let t1 ← rd s.2.tail i
  let h0 ← rd s.2.head (i - 1)
  let h1 ← rd s.2.head i
  if t0 ≠ t1 ∨ h0 ≠ h1 then do
    let a ← s.2.copyRow s.1 i
    some (s.1 + 1, a)
  else do
    let a ← s.2.mergeRow s.1 i
    some (s.1, a)

/-- contraction_hierarchy.cpp:52-70: removes multi arcs, returns the new `arc_count`. -/
def removeMulti (a : ArcCols) (arcCount : Nat) : Option (Nat × ArcCols) :=
  if arcCount ≠ 0 then forRange 1 arcCount (1, a) multiStep else some (arcCount, a)

/-- contraction_hierarchy.cpp:72-75: cuts all vectors to `arc_count` elements. -/
def truncate (a : ArcCols) (arcCount : Nat) : ArcCols :=
  ⟨a.tail.take arcCount, a.head.take arcCount, a.weight.take arcCount, a.id.take arcCount⟩

/-- contraction_hierarchy.cpp:17-81 `sort_arcs_and_remove_multi_and_loop_arcs`. -/
def sortAndReduce (nodeCount : Nat) (a : ArcCols) : Option ArcCols := do
  let (p, tail) ←
    computeInverseSortPermutationFirstByTailThenByHeadAndApplySortToTail nodeCount a.tail a.head
  let head ← applyInversePermutation p a.head
  let weight ← applyInversePermutation p a.weight
  let id ← applyInversePermutation p a.id
  let (n, a) ← removeLoops ⟨tail, head, weight, id⟩ head.length
  let (n, a) ← removeMulti a n
  some (a.truncate n)

end ArcCols
end RK
