import Verif.Model.Cch
import Verif.Model.IdSetQueue
/-!
# Model of src/customizable_contraction_hierarchy.cpp, lines 657-1041: customization

A metric holds pointers to the hierarchy and to the weights of the input arcs; they are dereferenced when
`customize` runs. In the model both are arguments of the functions, so that the caller may change the weights
between two calls. The `assert(cch == metric.cch)` checks (899, 974) compare pointers: in the model there is only one
hierarchy argument. Weights are C++ `unsigned`; sums wrap modulo 2^32 (`add32`).
-/
namespace RK

/-- customizable_contraction_hierarchy.h:83-84, the members `forward` and `backward`. -/
structure Metric where
  forward : List Nat
  backward : List Nat
deriving Repr, DecidableEq

/-- customizable_contraction_hierarchy.cpp:735-741, the constructors: zero-initialized vectors. -/
def Metric.new (c : Cch) : Metric := ⟨List.replicate c.cchArcCount 0, List.replicate c.cchArcCount 0⟩

/-- customizable_contraction_hierarchy.cpp:756-765 `reset(cch, input_weight)` (and 743-747, whose assert on the size is a
precondition): vectors of the right size are kept with their contents. -/
def Metric.resetCch (m : Metric) (c : Cch) : Metric :=
  if c.cchArcCount ≠ m.forward.length then Metric.new c else m

/-- min_max.h:10-13 `min_to(v[i], x)`. -/
def minTo (v : List Nat) (i x : Nat) : Option (List Nat) := do
  let y ← rd v i
  if x < y then wr v i x else some v

/-- Lines 665-668 and 670-673: the weight of the first input arc. -/
def initFirst (w first : List Nat) (i : Nat) : Option Nat := do
  let e ← rd first i
  if e ≠ invalidId then rd w e else some infWeight

/-- Lines 677-678 and 679-680: the further input arcs. -/
def initExtra (w fo extra : List Nat) (i a : Nat) (v : List Nat) : Option (List Nat) := do
  let lo ← rd fo i
  let hi ← rd fo (i + 1)
  forRange lo hi v fun v j => do
    let e ← rd extra j
    let x ← rd w e
    minTo v a x

/-- customizable_contraction_hierarchy.cpp:659-684 `extract_initial_metric_of_cch_arc`. `w` are the input weights. -/
def extractArc (c : Cch) (w : List Nat) (m : Metric) (a : Nat) : Option Metric := do
  let has ← c.hasInput.isSet a
  if !has then do
    let F ← wr m.forward a infWeight
    let B ← wr m.backward a infWeight
    some ⟨F, B⟩
  else do
    let i ← c.hasInputMap.toLocal a
    let f ← initFirst w c.fwdInput i
    let F ← wr m.forward a f
    let b ← initFirst w c.bwdInput i
    let B ← wr m.backward a b
    let ex ← c.hasExtra.isSet a
    if ex then do
      let i ← c.hasExtraMap.toLocal a
      let F ← initExtra w c.firstExtraFwd c.extraFwd i a F
      let B ← initExtra w c.firstExtraBwd c.extraBwd i a B
      some ⟨F, B⟩
    else some ⟨F, B⟩

/-- customizable_contraction_hierarchy.cpp:686-690 `extract_initial_metric`. -/
def extractAll (c : Cch) (w : List Nat) (m : Metric) : Option Metric :=
  forRange 0 c.cchArcCount m (extractArc c w)

/-- customizable_contraction_hierarchy.cpp:692-710 `LowerTriangleRelaxer`. -/
def relax (m : Metric) (t : Tri) : Option Metric := do
  let b ← rd m.backward t.bottom
  let f ← rd m.forward t.mid
  let F ← minTo m.forward t.top (add32 b f)
  let f ← rd F t.bottom
  let b ← rd m.backward t.mid
  let B ← minTo m.backward t.top (add32 f b)
  some ⟨F, B⟩

/-- customizable_contraction_hierarchy.cpp:712-731 `LowerTriangleInequalityVerifier` (debug builds). -/
def verifyTri (m : Metric) (_ : Unit) (t : Tri) : Option Unit := do
  let ft ← rd m.forward t.top
  let bb ← rd m.backward t.bottom
  let fm ← rd m.forward t.mid
  check (decide (ft ≤ add32 bb fm))
  let bt ← rd m.backward t.top
  let fb ← rd m.forward t.bottom
  let bm ← rd m.backward t.mid
  check (decide (bt ≤ add32 fb bm))

/-- Lines 800-803, 938-941 and 1036-1039 (debug builds). -/
def verifyArc (c : Cch) (m : Metric) (_ : Unit) (a : Nat) : Option Unit := do
  let l ← upperTriangles c.upFirstOut c.upHead c.upTail a
  forEach l () (verifyTri m)

/-- Lines 800-803, 938-941 and 1036-1039 (debug builds). -/
def verifyAll (c : Cch) (m : Metric) : Option Unit :=
  forRange 0 c.cchArcCount () (verifyArc c m)

/-- Lines 782-784, loop body: remember the arc from `x` to each of its upward neighbours. -/
def cacheArc (c : Cch) (cache : List Nat) (a : Nat) : Option (List Nat) := do
  let h ← rd c.upHead a
  wr cache h a

/-- Lines 792-797: the up arcs `lo + k - 1, …, lo` of `y` from the last to the first; stop at the first head that is
not above `x`. -/
def relaxUp (c : Cch) (cache : List Nat) (x yx lo : Nat) : Nat → Metric → Option Metric
  | 0, m => some m
  | k + 1, m => do
    let z ← rd c.upHead (lo + k)
    if z ≤ x then some m
    else do
      let t ← rd cache z
      let m ← relax m ⟨yx, lo + k, t⟩
      relaxUp c cache x yx lo k m

/-- Lines 788-797, loop body for one down arc of `x`. -/
def relaxDown (c : Cch) (cache : List Nat) (x : Nat) (m : Metric) (d : Nat) : Option Metric := do
  let yx ← rd c.downToUp d
  let y ← rd c.downHead d
  let lo ← rd c.upFirstOut y
  let hi ← rd c.upFirstOut (y + 1)
  relaxUp c cache x yx lo (hi - lo) m

/-- Lines 780-798, loop body for node `x`. The state is (`arc_id_cache`, metric). -/
def customizeNode (c : Cch) (s : List Nat × Metric) (x : Nat) : Option (List Nat × Metric) := do
  let b ← rd c.upFirstOut x
  let e ← rd c.upFirstOut (x + 1)
  let cache ← forRange b e s.1 (cacheArc c)
  let db ← rd c.downFirstOut x
  let de ← rd c.downFirstOut (x + 1)
  let m ← forRange db de s.2 (relaxDown c cache x)
  some (cache, m)

/-- customizable_contraction_hierarchy.cpp:773-805 `customize`. -/
def Metric.customize (c : Cch) (w : List Nat) (m : Metric) : Option Metric := do
  let m ← extractAll c w m
  let (_, m) ← forRange 0 c.nodeCount (List.replicate c.nodeCount 0, m) (customizeNode c)
  verifyAll c m
  some m

/-! ### Partial customization -/

/-- customizable_contraction_hierarchy.cpp:947-950, the constructor: the queue of arcs. -/
def partialNew (c : Cch) : Option IDSetMinQueue := IDSetMinQueue.new c.cchArcCount

/-- customizable_contraction_hierarchy.cpp:952-955 `reset()`. -/
def partialReset (q : IDSetMinQueue) : Option IDSetMinQueue := q.clear

/-- customizable_contraction_hierarchy.cpp:957-965 `reset(cch)`. -/
def partialResetCch (q : IDSetMinQueue) (c : Cch) : Option IDSetMinQueue :=
  if c.cchArcCount ≠ q.maxNumberOfIds then partialNew c else q.clear

/-- customizable_contraction_hierarchy.cpp:967-972 `update_arc`. -/
def updateArc (c : Cch) (q : IDSetMinQueue) (i : Nat) : Option IDSetMinQueue := do
  let xy ← rd c.inputToCch i
  if xy ≠ invalidId then q.push xy else some q

/-- The old and the new weights of the arc that is recomputed (lines 981-982 and 994-995). -/
structure OldNew where
  oldF : Nat
  oldB : Nat
  newF : Nat
  newB : Nat

/-- Lines 1000-1014, the callback for intermediate triangles. C++ evaluates the condition from left to right and stops
at the first alternative that holds; the model reads all weights. -/
def pushMid (m : Metric) (xy : Nat) (o : OldNew) (q : IDSetMinQueue) (t : Tri) : Option IDSetMinQueue := do
  check (t.mid == xy)
  let bb ← rd m.backward t.bottom
  let fb ← rd m.forward t.bottom
  let ft ← rd m.forward t.top
  let bt ← rd m.backward t.top
  if add32 bb o.oldF = ft ∨ add32 fb o.oldB = bt ∨ add32 bb o.newF < ft ∨ add32 fb o.newB < bt then q.push t.top
  else some q

/-- Lines 1018-1032, the callback for upper triangles. -/
def pushUpper (m : Metric) (xy : Nat) (o : OldNew) (q : IDSetMinQueue) (t : Tri) : Option IDSetMinQueue := do
  check (t.bottom == xy)
  let fm ← rd m.forward t.mid
  let bm ← rd m.backward t.mid
  let ft ← rd m.forward t.top
  let bt ← rd m.backward t.top
  if add32 fm o.oldB = ft ∨ add32 bm o.oldF = bt ∨ add32 fm o.newB < ft ∨ add32 bm o.newF < bt then q.push t.top
  else some q

/-- Lines 981-992: recompute the weights of the arc `xy`. -/
def recompute (c : Cch) (w : List Nat) (m : Metric) (xy : Nat) : Option Metric := do
  let F ← wr m.forward xy infWeight
  let B ← wr m.backward xy infWeight
  let m ← extractArc c w ⟨F, B⟩ xy
  let x ← rd c.upTail xy
  let y ← rd c.upHead xy
  let l ← c.lowerTriangles x y xy
  forEach l m fun m t => relax m t.1

/-- Lines 997-1033: enqueue the arcs that may be affected. -/
def enqueue (c : Cch) (m : Metric) (xy : Nat) (o : OldNew) (q : IDSetMinQueue) : Option IDSetMinQueue :=
  if o.oldF ≠ o.newF ∨ o.oldB ≠ o.newB then do
    let l ← c.intermediateTriangles xy
    let q ← forEach l q (pushMid m xy o)
    let l ← upperTriangles c.upFirstOut c.upHead c.upTail xy
    forEach l q (pushUpper m xy o)
  else some q

/-- Lines 978-1034, the loop. -/
def partialLoop (c : Cch) (w : List Nat) : Nat → IDSetMinQueue → Metric → Option (IDSetMinQueue × Metric)
  | 0, _, _ => none
  | fuel + 1, q, m =>
    if !q.empty then do
      let (q, xy) ← q.pop
      let oldF ← rd m.forward xy
      let oldB ← rd m.backward xy
      let m ← recompute c w m xy
      let newF ← rd m.forward xy
      let newB ← rd m.backward xy
      let q ← enqueue c m xy ⟨oldF, oldB, newF, newB⟩ q
      partialLoop c w fuel q m
    else some (q, m)

/-- customizable_contraction_hierarchy.cpp:974-1041 `customize` of a partial customization. The fuel is one more than the
number of arcs; C29 shows that it is never exhausted. -/
def partialCustomize (c : Cch) (w : List Nat) (q : IDSetMinQueue) (m : Metric) : Option (IDSetMinQueue × Metric) := do
  let (q, m) ← partialLoop c w (c.cchArcCount + 1) q m
  verifyAll c m
  some (q, m)

end RK
