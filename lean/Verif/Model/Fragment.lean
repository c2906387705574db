import Verif.Model.GraphUtil
import Verif.Model.InverseVector
import Verif.Model.Filter
import Verif.Model.IdMapper
import Verif.Model.Scc
/-! # Model of nested_dissection.cpp: fragments, components, separators, dissection orders

Bit vectors that are only read and written bit by bit (`cut`, separators) are modelled by the list of
their bits; C10 and C11 prove that `BitVector` implements these operations.  The filter of the arcs in
`compute_separator_decomposition` uses the model of `BitVector` itself.  Log messages and timers are
not modelled.  `assert_fragment_is_valid` (nested_dissection.cpp:15-39) is empty: everything in it is
commented out. -/
namespace RK

/-- nested_dissection.h:14-28 `GraphFragment`. -/
structure GraphFragment where
  globalNodeId : List Nat
  firstOut : List Nat
  tail : List Nat
  head : List Nat
  backArc : List Nat
deriving DecidableEq, Repr

namespace GraphFragment

/-- nested_dissection.h:21-23 -/
def nodeCount (f : GraphFragment) : Nat := f.globalNodeId.length

/-- nested_dissection.h:25-27 -/
def arcCount (f : GraphFragment) : Nat := f.tail.length

end GraphFragment

namespace Nd

/-- Subtraction of two C++ `unsigned` values (wraps modulo 2^32). -/
def sub32 (a b : Nat) : Nat := (a + (u32 - b % u32)) % u32

/-- nested_dissection.cpp:46-49, the number of arcs that are no loops. -/
def countNonLoops (tail head : List Nat) : Option Nat :=
  forRange 0 head.length 0 fun k i => do
    let x ← rd tail i
    let y ← rd head i
    some (if x ≠ y then k + 1 else k)

/-- nested_dissection.cpp:58-66, body of the loop that fills the arrays; the state is
`(j, fragment.tail, fragment.head, fragment.back_arc)`. -/
def fillArc (tail head : List Nat) (m : Nat) (s : Nat × List Nat × List Nat × List Nat) (i : Nat) :
    Option (Nat × List Nat × List Nat × List Nat) := do
  let (j, t, h, b) := s
  let x ← rd tail i
  let y ← rd head i
  if x ≠ y then do
    let t ← wr t j x
    let t ← wr t (add32 j m) y
    let h ← wr h j y
    let h ← wr h (add32 j m) x
    let b ← wr b j (add32 j m)
    let b ← wr b (add32 j m) j
    some (j + 1, t, h, b)
  else some s

/-- nested_dissection.cpp:71-75 and 653-657: sort the arcs by tail and then by head, renumber the back
arcs and compute `first_out`; returns `(tail, head, back_arc, first_out)`. -/
def sortArcs (n : Nat) (tail head back : List Nat) :
    Option (List Nat × List Nat × List Nat × List Nat) := do
  let (p, tail) ← computeInverseSortPermutationFirstByTailThenByHeadAndApplySortToTail n tail head
  let head ← applyInversePermutation p head
  let back ← applyInversePermutation p back
  let back ← inplaceApplyPermutationToElementsOf p back
  let firstOut ← invertVector tail n
  some (tail, head, back, firstOut)

/-- nested_dissection.cpp:41-83 `make_graph_fragment`. The array sizes `2*non_loop_arc_count` are
computed modulo 2^32 (lines 51-53), so are the indices. -/
def makeGraphFragment (n : Nat) (tail head : List Nat) : Option GraphFragment := do
  let m ← countNonLoops tail head
  let size := mul32 2 m
  let (_, t, h, b) ← forRange 0 head.length
    (0, List.replicate size 0, List.replicate size 0, List.replicate size 0) (fillArc tail head m)
  let (t, h, b, fo) ← sortArcs n t h b
  let ids ← identityPermutation n
  some ⟨ids, fo, t, h, b⟩

/-! ### Connected components -/

/-- nested_dissection.cpp:618-624, the local variables of the search; `stack` holds
`stack[0..stack_end)`, top first. -/
structure CompState where
  comp : List Nat
  count : Nat
  inv : List Nat
  stack : List Nat
  pos : Nat

/-- nested_dissection.cpp:633-639, body of the loop over the arcs of `x`. -/
def compArc (f : GraphFragment) (s : CompState) (xy : Nat) : Option CompState := do
  let y ← rd f.head xy
  let c ← rd s.comp y
  if c = invalidId then do
    let stack ← Scc.pushCap f.nodeCount s.stack y
    let comp ← wr s.comp y s.count
    some { s with stack := stack, comp := comp }
  else some s

/-- nested_dissection.cpp:631-639, one iteration of the loop over the stack. -/
def compPop (f : GraphFragment) (x : Nat) (rest : List Nat) (s : CompState) : Option CompState := do
  let inv ← wr s.inv x s.pos
  let s := { s with stack := rest, inv := inv, pos := s.pos + 1 }
  let b ← rd f.firstOut x
  let e ← rd f.firstOut (x + 1)
  forRange b e s (compArc f)

/-- nested_dissection.cpp:630-640; more than `fuel` iterations mean nontermination. -/
def compLoop (f : GraphFragment) : Nat → CompState → Option CompState
  | 0, _ => none
  | fuel + 1, s =>
    match s.stack with
    | [] => some s
    | x :: rest => (compPop f x rest s).bind (compLoop f fuel)

/-- nested_dissection.cpp:626-642, body of the loop over the roots. -/
def compRoot (f : GraphFragment) (s : CompState) (r : Nat) : Option CompState := do
  let c ← rd s.comp r
  if c = invalidId then do
    let comp ← wr s.comp r s.count
    let stack ← Scc.pushCap f.nodeCount [] r
    let s ← compLoop f (f.nodeCount + 1) { s with comp := comp, stack := stack }
    some { s with count := s.count + 1 }
  else some s

/-- nested_dissection.cpp:618-644, the search. -/
def searchComponents (f : GraphFragment) : Option CompState :=
  forRange 0 f.nodeCount
    ⟨List.replicate f.nodeCount invalidId, 0, List.replicate f.nodeCount 0, [], 0⟩ (compRoot f)

/-- nested_dissection.cpp:618-658: number the nodes such that components are contiguous; returns the
renumbered fragment and `component`. -/
def renumber (f : GraphFragment) : Option (GraphFragment × List Nat) := do
  let s ← searchComponents f
  let tail ← inplaceApplyPermutationToElementsOf s.inv f.tail
  let head ← inplaceApplyPermutationToElementsOf s.inv f.head
  let ids ← applyInversePermutation s.inv f.globalNodeId
  let comp ← applyInversePermutation s.inv s.comp
  let (tail, head, back, fo) ← sortArcs f.nodeCount tail head f.backArc
  some (⟨ids, fo, tail, head, back⟩, comp)

/-- `std::vector<unsigned>(v.begin()+b, v.begin()+e)`; `none` unless the range lies in the vector. -/
def slice (v : List Nat) (b e : Nat) : Option (List Nat) := do
  check (decide (b ≤ e) && decide (e ≤ v.length))
  some ((v.drop b).take (e - b))

/-- `assert(max_element_of(v) < k)`, not evaluated for an empty vector (lines 676, 683, 690). -/
def assertBelow (v : List Nat) (k : Nat) : Option Unit := check (v.all fun x => decide (x < k))

/-- nested_dissection.cpp:664-700 `generate_part`; the result is the part. -/
def generatePart (f : GraphFragment) (nb ne ab ae : Nat) : Option GraphFragment := do
  let tail ← slice f.tail ab ae
  let tail := tail.map fun x => sub32 x nb
  assertBelow tail (sub32 ne nb)
  let head ← slice f.head ab ae
  let head := head.map fun x => sub32 x nb
  assertBelow head (sub32 ne nb)
  let back ← slice f.backArc ab ae
  let back := back.map fun x => sub32 x ab
  assertBelow back (sub32 ae ab)
  let ids ← slice f.globalNodeId nb ne
  let fo ← invertVector tail (sub32 ne nb)
  some ⟨ids, fo, tail, head, back⟩

/-- nested_dissection.cpp:710-713: skip the arcs of the current component. -/
def skipArcs (f : GraphFragment) (comp : List Nat) (cur : Nat) : Nat → Nat → Option Nat
  | 0, _ => none
  | fuel + 1, ae =>
    if ae ≠ f.arcCount then do
      let x ← rd f.tail ae
      let c ← rd comp x
      if c = cur then do
        let y ← rd f.head ae
        let d ← rd comp y
        check (c == d)
        skipArcs f comp cur fuel (ae + 1)
      else some ae
    else some ae

/-- nested_dissection.cpp:702-707, the local variables of the last loop except
`component_node_end`, and `part_list`. -/
structure ScanState where
  nb : Nat
  ab : Nat
  ae : Nat
  cur : Nat
  parts : List GraphFragment

/-- nested_dissection.cpp:709-719, loop body, `ne` is `component_node_end`. -/
def scanNode (f : GraphFragment) (comp : List Nat) (s : ScanState) (ne : Nat) : Option ScanState := do
  let c ← rd comp ne
  if c ≠ s.cur then do
    let ae ← skipArcs f comp s.cur (f.arcCount + 1) s.ae
    let part ← generatePart f s.nb ne s.ab ae
    some ⟨ne, ae, ae, c, s.parts ++ [part]⟩
  else some s

/-- nested_dissection.cpp:612-724 `decompose_graph_fragment_into_connected_components`. For an empty
fragment the variable `component_node_end` is still 1 at the end. -/
def decompose (f : GraphFragment) : Option (List GraphFragment) := do
  let (g, comp) ← renumber f
  let s ← forRange 1 f.nodeCount ⟨0, 0, 0, 0, []⟩ (scanNode g comp)
  let part ← generatePart g s.nb (max 1 f.nodeCount) s.ab g.arcCount
  some (s.parts ++ [part])

/-! ### Separators -/

/-- nested_dissection.cpp:732-736, loop body. -/
def sepArc (f : GraphFragment) (cut : List Bool) (small : Bool) (sep : List Bool) (xy : Nat) :
    Option (List Bool) := do
  let x ← rd f.tail xy
  let y ← rd f.head xy
  let cx ← rd cut x
  if cx = small then do
    let cy ← rd cut y
    if cy ≠ small then wr sep y true else some sep
  else some sep

/-- nested_dissection.cpp:726-738 `derive_separator_from_cut`. -/
def deriveSeparatorFromCut (f : GraphFragment) (cut : List Bool) : Option (List Bool) :=
  let small := decide (cut.countP id ≤ f.nodeCount / 2)
  forRange 0 f.arcCount (List.replicate f.nodeCount false) (sepArc f cut small)

/-! ### Nested dissection -/

/-- nested_dissection.h:78-83 `SeparatorDecomposition::Node`. -/
structure DecompNode where
  leftChild : Nat
  rightSibling : Nat
  first : Nat
  last : Nat
deriving DecidableEq, Repr

/-- nested_dissection.h:77-87 `SeparatorDecomposition`. -/
structure Decomp where
  tree : List DecompNode
  order : List Nat
deriving DecidableEq, Repr

/-- nested_dissection.cpp:788-793: which arcs of the part remain. -/
def remainingArcs (part : GraphFragment) (sep : List Bool) : Option (List Bool) :=
  (List.range part.arcCount).mapM fun a => do
    let x ← rd part.tail a
    let sx ← rd sep x
    if sx then some false else do
      let y ← rd part.head a
      let sy ← rd sep y
      some (!sy)

/-- nested_dissection.cpp:788-805: remove the arcs incident to separator nodes. -/
def removeSeparator (part : GraphFragment) (sep : List Bool) (junk : Nat → Word) :
    Option GraphFragment := do
  let bits ← remainingArcs part sep
  let f ← BitVector.make part.arcCount (fun a => bits.getD a false) junk
  let tail ← inplaceKeep f part.tail
  let head ← inplaceKeep f part.head
  let back ← inplaceKeep f part.backArc
  let map ← LocalIDMapper.new f
  let back ← back.mapM map.toLocal
  let fo ← invertVector tail part.nodeCount
  some ⟨part.globalNodeId, fo, tail, head, back⟩

/-- nested_dissection.cpp:756-759, the local variables. -/
structure DecompState where
  pred : Nat
  orderBegin : Nat
  orderEnd : Nat
  tree : List DecompNode
  order : List Nat

/-- nested_dissection.cpp:821-826: the indices of a sub-decomposition are shifted. -/
def shiftNode (k o : Nat) (x : DecompNode) : DecompNode :=
  ⟨if x.leftChild ≠ 0 then x.leftChild + k else x.leftChild,
   if x.rightSibling ≠ 0 then x.rightSibling + k else x.rightSibling,
   x.first + o, x.last + o⟩

/-- nested_dissection.cpp:820-835: append the decomposition of a part. -/
def addPart (s : DecompState) (sub : Decomp) : Option DecompState := do
  let k := s.tree.length
  let node ← rd s.tree s.pred
  let tree ← wr s.tree s.pred
    (if s.pred = 0 then { node with leftChild := k } else { node with rightSibling := k })
  let order ← forRange 0 sub.order.length s.order fun o i => do
    let x ← rd sub.order i
    wr o (s.orderBegin + i) x
  some ⟨k, s.orderBegin + sub.order.length, s.orderEnd, tree ++ sub.tree.map (shiftNode k s.orderBegin), order⟩

/-- nested_dissection.cpp:772-837, body of the loop over the parts; `sub` is the recursive call,
`sep` is `compute_separator`. -/
def decompPart (sep : GraphFragment → Option (List Bool)) (junk : Nat → Word)
    (sub : GraphFragment → Option Decomp) (s : DecompState) (part : GraphFragment) :
    Option DecompState := do
  check (part.nodeCount != 0)
  if part.nodeCount = 1 then do
    let x ← rd part.globalNodeId 0
    check (s.orderEnd != 0)
    let order ← wr s.order (s.orderEnd - 1) x
    some { s with orderEnd := s.orderEnd - 1, order := order }
  else do
    let bits ← sep part
    let rest ← removeSeparator part bits junk
    let d ← sub rest
    addPart s d

/-- nested_dissection.cpp:740-842 `compute_separator_decomposition`; the number is the permitted
depth of the recursion, a deeper recursion is `none`.  `compute_separator` may itself be undefined. -/
def separatorDecomposition (sep : GraphFragment → Option (List Bool)) (junk : Nat → Word) :
    Nat → GraphFragment → Option Decomp
  | 0, _ => none
  | depth + 1, f => do
    if f.nodeCount = 1 then some ⟨[⟨0, 0, 0, 1⟩], f.globalNodeId⟩
    else do
      let parts ← decompose f
      let s ← forEach parts
        ⟨0, 0, f.nodeCount, [⟨0, 0, 0, f.nodeCount⟩], List.replicate f.nodeCount 0⟩
        (decompPart sep junk (separatorDecomposition sep junk depth))
      let root ← rd s.tree 0
      let tree ← wr s.tree 0 { root with first := s.orderBegin }
      some ⟨tree, s.order⟩

/-- nested_dissection.cpp:844-849 `compute_nested_node_dissection_order`. -/
def nestedDissectionOrder (sep : GraphFragment → Option (List Bool)) (junk : Nat → Word) (depth : Nat)
    (f : GraphFragment) : Option (List Nat) :=
  (separatorDecomposition sep junk depth f).map (·.order)

end Nd
end RK
