import Verif.Model.GraphUtil
import Verif.Model.InverseVector
import Verif.Model.Filter
import Verif.Model.IdMapper
/-!
# Model of src/customizable_contraction_hierarchy.cpp, lines 22-655: building the topology

Log messages, timers, `shrink_to_fit` and the statistics that are only logged (303, 419-449, 480-503,
520-525) are not modelled; what remains of `log_message` is whether it is callable (line 453 calls it
unconditionally) and the division by the node count in line 445. A thrown exception is `none`.
Loop counters and sizes are `Nat`: they are bounded by vector sizes below 2^32, except where the code
computes `2*input_arc_count`.
-/
namespace RK

/-! ### The chordal supergraph -/

/-- `std::sort` on a vector of `unsigned` (the result of sorting numbers is unique): insertion of one
element. -/
def insertNat (x : Nat) : List Nat → List Nat
  | [] => [x]
  | y :: l => if x ≤ y then x :: y :: l else y :: insertNat x l

/-- `std::sort(begin, end)` on a vector of `unsigned`. -/
def sortNats : List Nat → List Nat
  | [] => []
  | x :: l => insertNat x (sortNats l)

/-- `std::unique(begin, end)` followed by a resize: of equal neighbours only one remains. -/
def uniqueAdj : List Nat → List Nat
  | [] => []
  | [a] => [a]
  | a :: b :: l => if a = b then uniqueAdj (b :: l) else a :: uniqueAdj (b :: l)

/-- `std::merge`, one side: emit the elements of the second list that are smaller than `a`. -/
def mergeInto (a : Nat) (as : List Nat) (rest : List Nat → List Nat) : List Nat → List Nat
  | [] => a :: as
  | b :: bs => if b < a then b :: mergeInto a as rest bs else a :: rest (b :: bs)

/-- `std::merge` of two sorted vectors of `unsigned`. -/
def mergeNats : List Nat → List Nat → List Nat
  | [] => fun bs => bs
  | a :: as => mergeInto a as (mergeNats as)

/-- customizable_contraction_hierarchy.cpp:27-32: every node gets the list of its upward neighbours. -/
def chordalInit (n : Nat) (tail head : List Nat) : Option (List (List Nat)) :=
  forRange 0 tail.length (List.replicate n []) fun nodes i => do
    let t ← rd tail i
    let h ← rd head i
    if t < h then do
      let l ← rd nodes t
      wr nodes t (l ++ [h])
    else some nodes

/-- customizable_contraction_hierarchy.cpp:34-38: sort the neighbours and remove duplicates. -/
def chordalSort (n : Nat) (nodes : List (List Nat)) : Option (List (List Nat)) :=
  forRange 0 n nodes fun nodes x => do
    let l ← rd nodes x
    wr nodes x (uniqueAdj (sortNats l))

/-- The callback of lines 291-299: append the arc; the exception of line 295 is `none`. -/
def pushUpArc (x : Nat) (arcs : List Nat × List Nat) (y : Nat) : Option (List Nat × List Nat) := do
  check (decide (arcs.1.length ≠ invalidId))
  some (arcs.1 ++ [x], arcs.2 ++ [y])

/-- customizable_contraction_hierarchy.cpp:41-55, loop body: hand the upward neighbours over to the
lowest of them, then report the arcs. The maximum degree is only logged. -/
def chordalStep (s : List (List Nat) × (List Nat × List Nat)) (x : Nat) :
    Option (List (List Nat) × (List Nat × List Nat)) := do
  let l ← rd s.1 x
  match l with
  | [] => some s
  | low :: rest => do
    let ll ← rd s.1 low
    let nodes ← wr s.1 low (uniqueAdj (mergeNats rest ll))
    let l ← rd nodes x
    let arcs ← forEach l s.2 (pushUpArc x)
    some (nodes, arcs)

/-- customizable_contraction_hierarchy.cpp:26-57 `compute_chordal_supergraph` with the callback of the
constructor; returns `up_tail` and `up_head`. -/
def chordalSupergraph (n : Nat) (tail head : List Nat) : Option (List Nat × List Nat) := do
  let nodes ← chordalInit n tail head
  let nodes ← chordalSort n nodes
  let s ← forRange 0 n (nodes, ([], [])) chordalStep
  some s.2

/-- customizable_contraction_hierarchy.h:34-66, the members. -/
structure Cch where
  order : List Nat
  rank : List Nat
  parent : List Nat
  upFirstOut : List Nat
  upHead : List Nat
  upTail : List Nat
  downFirstOut : List Nat
  downHead : List Nat
  downToUp : List Nat
  inputToCch : List Nat
  inputUp : BitVector
  hasInput : BitVector
  hasInputMap : LocalIDMapper
  fwdInput : List Nat
  bwdInput : List Nat
  hasExtra : BitVector
  hasExtraMap : LocalIDMapper
  firstExtraFwd : List Nat
  firstExtraBwd : List Nat
  extraFwd : List Nat
  extraBwd : List Nat

/-- customizable_contraction_hierarchy.h:22 -/
def Cch.nodeCount (c : Cch) : Nat := c.rank.length

/-- customizable_contraction_hierarchy.h:26 -/
def Cch.inputArcCount (c : Cch) : Nat := c.inputToCch.length

/-- customizable_contraction_hierarchy.h:30 -/
def Cch.cchArcCount (c : Cch) : Nat := c.upHead.length

/-! ### Enumerating triangles

The three enumerators walk over two sorted ranges and report common elements. The callbacks do not change
the topology, so the model first collects all triangles and then folds over them; an aborted enumeration
is a search for the first fitting triangle. -/

/-- The loops of lines 76-88, 105-117 and 134-146: all `(i, j, z)` with `ha[i] = hb[j] = z`, in increasing
order. -/
def joinLoop (ha hb : List Nat) : Nat → Nat → Nat → Nat → Nat → Option (List (Nat × Nat × Nat))
  | 0, _, _, _, _ => none
  | fuel + 1, i, ie, j, je =>
    if i ≠ ie ∧ j ≠ je then do
      let x ← rd ha i
      let y ← rd hb j
      if x < y then joinLoop ha hb fuel (i + 1) ie j je
      else if x > y then joinLoop ha hb fuel i ie (j + 1) je
      else do
        let r ← joinLoop ha hb fuel (i + 1) ie (j + 1) je
        some ((i, j, x) :: r)
    else some []

/-- Every round advances one of the two positions. -/
def join (ha hb : List Nat) (i ie j je : Nat) : Option (List (Nat × Nat × Nat)) :=
  joinLoop ha hb ((ie - i) + (je - j) + 1) i ie j je

/-- A triangle as it is passed to the callbacks (without the nodes). -/
structure Tri where
  bottom : Nat
  mid : Nat
  top : Nat
deriving Repr, DecidableEq

/-- customizable_contraction_hierarchy.cpp:68-95 `forall_upper_triangles_of_arc`; only the up graph is
needed. -/
def upperTriangles (upFirstOut upHead upTail : List Nat) (xy : Nat) : Option (List Tri) := do
  let x ← rd upTail xy
  let y ← rd upHead xy
  let xe ← rd upFirstOut (x + 1)
  let yb ← rd upFirstOut y
  let ye ← rd upFirstOut (y + 1)
  let l ← join upHead upHead (xy + 1) xe yb ye
  some (l.map fun t => ⟨xy, t.1, t.2.1⟩)

/-- `cch.down_to_up[...]` for one reported pair of lines 112 and 141. -/
def Cch.downUp (c : Cch) (d : Nat) : Option Nat := rd c.downToUp d

/-- Lines 111-112: the pair (position in the up range of x, position in the down range of y). -/
def Cch.midTri (c : Cch) (xy : Nat) (t : Nat × Nat × Nat) : Option Tri := do
  let top ← c.downUp t.2.1
  some ⟨t.1, xy, top⟩

/-- customizable_contraction_hierarchy.cpp:97-124 `forall_intermediate_triangles_of_arc`. -/
def Cch.intermediateTriangles (c : Cch) (xy : Nat) : Option (List Tri) := do
  let x ← rd c.upTail xy
  let y ← rd c.upHead xy
  let xb ← rd c.upFirstOut x
  let yb ← rd c.downFirstOut y
  let ye ← rd c.downFirstOut (y + 1)
  let l ← join c.upHead c.downHead xb xy yb ye
  l.mapM (c.midTri xy)

/-- Lines 140-141: the pair (position in the down range of x, position in the down range of y). -/
def Cch.lowTri (c : Cch) (xy : Nat) (t : Nat × Nat × Nat) : Option (Tri × Nat) := do
  let b ← c.downUp t.1
  let m ← c.downUp t.2.1
  some (⟨b, m, xy⟩, t.2.2)

/-- customizable_contraction_hierarchy.cpp:126-153 `forall_lower_triangles_of_arc`; each triangle comes with
its bottom node. -/
def Cch.lowerTriangles (c : Cch) (x y xy : Nat) : Option (List (Tri × Nat)) := do
  let xb ← rd c.downFirstOut x
  let xe ← rd c.downFirstOut (x + 1)
  let yb ← rd c.downFirstOut y
  let ye ← rd c.downFirstOut (y + 1)
  let l ← join c.downHead c.downHead xb xe yb ye
  l.mapM (c.lowTri xy)

/-! ### The constructor -/

/-- Lines 281-282: the first arc is kept unless it is a loop. -/
def markFirst (tail t h : List Nat) (filter : BitVector) : Option BitVector :=
  if tail.length ≠ 0 then do
    let t0 ← rd t 0
    let h0 ← rd h 0
    filter.setTo 0 (decide (t0 ≠ h0))
  else some filter

/-- Lines 268-287: make the graph symmetric, remove loops and parallel arcs. `2*input_arc_count` is computed
in 32 bits; if it wraps, the copies of lines 270-273 write beyond the vectors. -/
def symmetrize (n : Nat) (tail head : List Nat) (junk : Nat → Word) : Option (List Nat × List Nat) := do
  check (decide (mul32 2 tail.length = 2 * tail.length))
  let t := tail ++ head
  let h := head ++ tail
  let (p, t) ← computeInverseSortPermutationFirstByTailThenByHeadAndApplySortToTail n t h
  let h ← applyInversePermutation p h
  let filter ← BitVector.newUninit (2 * tail.length) junk
  let filter ← markFirst tail t h filter
  let filter ← forRange 1 (2 * tail.length) filter fun filter i => do
    let ti ← rd t i
    let hi ← rd h i
    let tp ← rd t (i - 1)
    let hp ← rd h (i - 1)
    filter.setTo i (decide ((hi ≠ hp ∨ ti ≠ tp) ∧ ti ≠ hi))
  let t ← inplaceKeep filter t
  let h ← inplaceKeep filter h
  some (t, h)

/-- Lines 289-314: `up_first_out`, `up_head`, `up_tail`. -/
def buildUp (n : Nat) (tail head : List Nat) : Option (List Nat × List Nat × List Nat) := do
  let (t, h) ← chordalSupergraph n tail head
  let (p, t) ← computeInverseSortPermutationFirstByTailThenByHeadAndApplySortToTail n t h
  let h ← applyInversePermutation p h
  let fo ← invertVector t n
  some (fo, h, t)

/-- Lines 343-346 and 368-371: advance to the arc from `x` to `y`. -/
def seekArc (upTail upHead : List Nat) (x y : Nat) : Nat → Nat → Option Nat
  | 0, _ => none
  | fuel + 1, a => do
    let t ← rd upTail a
    let h ← rd upHead a
    if x ≠ t ∨ y ≠ h then do
      check (decide (a < upHead.length))
      seekArc upTail upHead x y fuel (a + 1)
    else some a

/-- Lines 341-354, loop body: the arcs which lead upward, and the loops. The state is
(`cch_up_arc`, `input_arc_to_cch_arc`, `is_input_arc_upward`). -/
def mapUpStep (upTail upHead tail head ids : List Nat) (s : Nat × List Nat × BitVector) (i : Nat) :
    Option (Nat × List Nat × BitVector) := do
  let t ← rd tail i
  let h ← rd head i
  if t < h then do
    let a ← seekArc upTail upHead t h (upTail.length + 1) s.1
    let id ← rd ids i
    let m ← wr s.2.1 id a
    let u ← s.2.2.set id
    some (a, m, u)
  else if t = h then do
    let id ← rd ids i
    let m ← wr s.2.1 id invalidId
    some (s.1, m, s.2.2)
  else some s

/-- Lines 366-374, loop body: the arcs which lead downward (here tail and head are swapped). -/
def mapDownStep (upTail upHead tail head ids : List Nat) (s : Nat × List Nat) (i : Nat) :
    Option (Nat × List Nat) := do
  let t ← rd tail i
  let h ← rd head i
  if t < h then do
    let a ← seekArc upTail upHead t h (upTail.length + 1) s.1
    let id ← rd ids i
    let m ← wr s.2 id a
    some (a, m)
  else some s

/-- Lines 332-376: `input_arc_to_cch_arc` and `is_input_arc_upward`; `tail`, `head` are the sorted input
arcs, `ids` their positions in the input. -/
def mapInput (n : Nat) (upTail upHead tail head ids : List Nat) : Option (List Nat × BitVector) := do
  let up ← BitVector.null.resize tail.length false
  if upTail.length = 0 then some (List.replicate tail.length invalidId, up)
  else do
    let (_, m, up) ← forRange 0 tail.length (0, List.replicate tail.length 0, up)
      (mapUpStep upTail upHead tail head ids)
    let (p, tail') ← computeInverseSortPermutationFirstByTailThenByHeadAndApplySortToTail n head tail
    let head' ← applyInversePermutation p tail
    let ids' ← applyInversePermutation p ids
    let (_, m) ← forRange 0 tail.length (0, m) (mapDownStep upTail upHead tail' head' ids')
    some (m, up)

/-- Lines 391-396, loop body. -/
def parentStep (fo head : List Nat) (parent : List Nat) (x : Nat) : Option (List Nat) := do
  let b ← rd fo x
  let e ← rd fo (x + 1)
  if b ≠ e then do
    let y ← rd head b
    wr parent x y
  else wr parent x invalidId

/-- Lines 390-396: `elimination_tree_parent`. -/
def elimTree (n : Nat) (fo head : List Nat) : Option (List Nat) :=
  forRange 0 n (List.replicate n 0) (parentStep fo head)

/-- Lines 469-477, loop body: mark the arcs with an input arc. -/
def markInput (inputToCch : List Nat) (up : BitVector) (s : BitVector × BitVector) (i : Nat) :
    Option (BitVector × BitVector) := do
  let a ← rd inputToCch i
  if a ≠ invalidId then do
    let u ← up.isSet i
    if u then (s.1.set a).map fun f => (f, s.2) else (s.2.set a).map fun b => (s.1, b)
  else some s

/-- Lines 493-496 and 498-501 for one direction: `c[top] |= b[bottom] && c[mid]`. -/
def spread (c b : BitVector) (t : Tri) : Option BitVector := do
  let o ← c.isSet t.top
  if !o then do
    let x ← b.isSet t.bottom
    if x then do
      let y ← c.isSet t.mid
      if y then c.set t.top else some c
    else some c
  else some c

/-- Lines 485-505, the callback. -/
def spreadTri (s : BitVector × BitVector) (t : Tri) : Option (BitVector × BitVector) := do
  let f ← spread s.1 s.2 t
  let b ← spread s.2 f t
  some (f, b)

/-- Lines 482-507, loop body. -/
def spreadArc (fo head tail : List Nat) (s : BitVector × BitVector) (a : Nat) :
    Option (BitVector × BitVector) := do
  let ts ← upperTriangles fo head tail a
  forEach ts s spreadTri

/-- Lines 516-518, loop body for one element. -/
def relabel (m : LocalIDMapper) (x : Nat) : Option Nat :=
  if x ≠ invalidId then m.toLocal x else some x

/-- The up graph and the mapping of the input arcs. -/
structure UpGraph where
  firstOut : List Nat
  head : List Nat
  tail : List Nat
  inputToCch : List Nat

/-- Lines 465-528: remove the arcs whose weight is always infinite. -/
def filterUp (n : Nat) (g : UpGraph) (up : BitVector) : Option UpGraph := do
  let f ← BitVector.new g.head.length false
  let b ← BitVector.new g.head.length false
  let (f, b) ← forRange 0 g.inputToCch.length (f, b) (markInput g.inputToCch up)
  let (f, b) ← forRange 0 g.head.length (f, b) (spreadArc g.firstOut g.head g.tail)
  let keep ← f.copy
  let keep ← keep.orEq b
  let head ← keepElementIf keep g.head
  let tail ← keepElementIf keep g.tail
  let fo ← invertVector tail n
  let map ← LocalIDMapper.new keep
  let m ← g.inputToCch.mapM (relabel map)
  some ⟨fo, head, tail, m⟩

/-- Lines 536-543: `down_first_out`, `down_head`, `down_to_up`. -/
def buildDown (n : Nat) (upHead upTail : List Nat) : Option (List Nat × List Nat × List Nat) := do
  let (p, t) ← computeSortPermutationFirstByTailThenByHeadAndApplySortToTail n upHead upTail
  let h ← applyPermutation p upTail
  let fo ← invertVector t n
  some (fo, h, p)

/-- Lines 560-562, loop body. -/
def markHasInput (inputToCch : List Nat) (v : BitVector) (i : Nat) : Option BitVector := do
  let a ← rd inputToCch i
  if a ≠ invalidId then v.set a else some v

/-- State of the loop of lines 575-599 for one direction. -/
structure ExtraState where
  /-- `forward_input_arc_of_cch` -/
  first : List Nat
  /-- `first_extra_forward_input_arc_of_cch` (CCH arc ids at this time) -/
  arcs : List Nat
  /-- `extra_forward_input_arc_of_cch` -/
  extra : List Nat

/-- Lines 580-587 and 589-596 for one direction. -/
def addInputArc (cchArc i inputArc : Nat) (has : BitVector) (s : ExtraState) :
    Option (BitVector × ExtraState) := do
  let f ← rd s.first i
  if f = invalidId then do
    let first ← wr s.first i inputArc
    some (has, { s with first := first })
  else do
    let has ← has.set cchArc
    some (has, { s with arcs := s.arcs ++ [cchArc], extra := s.extra ++ [inputArc] })

/-- Lines 575-599, loop body. -/
def extraStep (inputToCch : List Nat) (up : BitVector) (m : LocalIDMapper)
    (s : BitVector × ExtraState × ExtraState) (inputArc : Nat) :
    Option (BitVector × ExtraState × ExtraState) := do
  let a ← rd inputToCch inputArc
  if a ≠ invalidId then do
    let i ← m.toLocal a
    let u ← up.isSet inputArc
    if u then do
      let (has, f) ← addInputArc a i inputArc s.1 s.2.1
      some (has, f, s.2.2)
    else do
      let (has, b) ← addInputArc a i inputArc s.1 s.2.2
      some (has, s.2.1, b)
  else some s

/-- Lines 603-621 and 605-637 for one direction: `first_extra_..._input_arc_of_cch` and
`extra_..._input_arc_of_cch`. -/
def sortExtra (m : LocalIDMapper) (s : ExtraState) : Option (List Nat × List Nat) := do
  let keys ← s.arcs.mapM m.toLocal
  let p ← computeInverseStableSortPermutationUsingKey keys m.localIdCount (fun x => x)
  let sorted ← applyInversePermutation p keys
  let fo ← invertVector sorted m.localIdCount
  let extra ← applyInversePermutation p s.extra
  some (fo, extra)

/-- Lines 557-637: the mapping from CCH arcs to input arcs. `g` is the (possibly filtered) up graph. -/
def mapBack (order rank parent : List Nat) (g : UpGraph) (up : BitVector) (dn : List Nat × List Nat × List Nat)
    (junk : Nat → Nat → Word) : Option Cch := do
  let has ← BitVector.null.resizeUninit g.head.length (junk 1)
  let has ← has.resetAll
  let has ← forRange 0 g.inputToCch.length has (markHasInput g.inputToCch)
  let hm ← LocalIDMapper.new has
  let start : ExtraState := ⟨List.replicate hm.localIdCount invalidId, [], []⟩
  let ex ← BitVector.null.resizeUninit g.head.length (junk 2)
  let ex ← ex.resetAll
  let (ex, f, b) ← forRange 0 g.inputToCch.length (ex, start, start) (extraStep g.inputToCch up hm)
  let em ← LocalIDMapper.new ex
  let (ff, fe) ← sortExtra em f
  let (bf, be) ← sortExtra em b
  some { order := order, rank := rank, parent := parent,
         upFirstOut := g.firstOut, upHead := g.head, upTail := g.tail,
         downFirstOut := dn.1, downHead := dn.2.1, downToUp := dn.2.2,
         inputToCch := g.inputToCch, inputUp := up, hasInput := has, hasInputMap := hm,
         fwdInput := f.first, bwdInput := b.first, hasExtra := ex, hasExtraMap := em,
         firstExtraFwd := ff, firstExtraBwd := bf, extraFwd := fe, extraBwd := be }

/-- Lines 452-528: the optional filter. -/
def maybeFilter (filter : Bool) (n : Nat) (g : UpGraph) (up : BitVector) : Option UpGraph :=
  if filter then filterUp n g up else some g

/-- customizable_contraction_hierarchy.cpp:196-655, the constructor. `callable` tells whether
`log_message` is not empty: it is called unconditionally in line 453. With zero nodes the debug loop of
line 399 reads beyond the empty vector (and line 445 divides by zero when logging). -/
def Cch.build (order tail head : List Nat) (callable filter : Bool) (junk : Nat → Nat → Word) : Option Cch := do
  let n := order.length
  let rank ← invertPermutation order
  let tail ← applyPermutationToElementsOf rank tail
  let head ← applyPermutationToElementsOf rank head
  let (ids, tail) ← computeSortPermutationFirstByTailThenByHeadAndApplySortToTail n tail head
  let head ← applyPermutation ids head
  let (st, sh) ← symmetrize n tail head (junk 0)
  let (fo, upHead, upTail) ← buildUp n st sh
  let (m, up) ← mapInput n upTail upHead tail head ids
  let parent ← elimTree n fo upHead
  check (decide (n ≠ 0))
  check (filter || callable)
  let g ← maybeFilter filter n ⟨fo, upHead, upTail, m⟩ up
  let dn ← buildDown n g.head g.tail
  mapBack order rank parent g up dn junk

end RK
