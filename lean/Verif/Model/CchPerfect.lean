import Verif.Model.CchQuery
import Verif.Model.ChCheck
import Verif.Model.InverseVector
/-!
# Model of `build_contraction_hierarchy_using_perfect_witness_search` (customizable_contraction_hierarchy.cpp:1727-1891)

`asserts` tells whether assertions are compiled in (debug build).
-/
namespace RK

/-- The metric and the marks of lines 1730-1732. -/
structure PerfectState where
  metric : Metric
  keepF : BitVector
  keepB : BitVector

/-- Lines 1734-1736 and 1738-1740, loop body. -/
def dropInf (v : List Nat) (keep : BitVector) (a : Nat) : Option BitVector := do
  let x ← rd v a
  if x = infWeight then keep.reset a else some keep

/-- Lines 1749-1752, 1754-1757, 1759-1762 and 1764-1767: if `x` is less than `v[i]` then decrease it and unmark the
arc. -/
def improve (v : List Nat) (keep : BitVector) (i x : Nat) : Option (List Nat × BitVector) := do
  let y ← rd v i
  if y > x then do
    let v ← wr v i x
    let keep ← keep.reset i
    some (v, keep)
  else some (v, keep)

/-- Lines 1749-1752. -/
def perfect1 (t : Tri) (s : PerfectState) : Option PerfectState := do
  let f ← rd s.metric.forward t.mid
  let b ← rd s.metric.backward t.top
  let (F, K) ← improve s.metric.forward s.keepF t.bottom (add32 f b)
  some ⟨⟨F, s.metric.backward⟩, K, s.keepB⟩

/-- Lines 1754-1757. -/
def perfect2 (t : Tri) (s : PerfectState) : Option PerfectState := do
  let b ← rd s.metric.backward t.mid
  let f ← rd s.metric.forward t.top
  let (B, K) ← improve s.metric.backward s.keepB t.bottom (add32 b f)
  some ⟨⟨s.metric.forward, B⟩, s.keepF, K⟩

/-- Lines 1759-1762. -/
def perfect3 (t : Tri) (s : PerfectState) : Option PerfectState := do
  let f ← rd s.metric.forward t.bottom
  let g ← rd s.metric.forward t.top
  let (F, K) ← improve s.metric.forward s.keepF t.mid (add32 f g)
  some ⟨⟨F, s.metric.backward⟩, K, s.keepB⟩

/-- Lines 1764-1767. -/
def perfect4 (t : Tri) (s : PerfectState) : Option PerfectState := do
  let b ← rd s.metric.backward t.bottom
  let g ← rd s.metric.backward t.top
  let (B, K) ← improve s.metric.backward s.keepB t.mid (add32 b g)
  some ⟨⟨s.metric.forward, B⟩, s.keepF, K⟩

/-- Lines 1745-1769, the callback. -/
def perfectTri (s : PerfectState) (t : Tri) : Option PerfectState := do
  let s ← perfect1 t s
  let s ← perfect2 t s
  let s ← perfect3 t s
  perfect4 t s

/-- Lines 1743-1770, loop body. -/
def perfectArc (c : Cch) (s : PerfectState) (a : Nat) : Option PerfectState := do
  let l ← upperTriangles c.upFirstOut c.upHead c.upTail a
  forEach l s perfectTri

/-- Lines 1785-1792, the callback of the debug check; the last assertion compares with `backward[mid_arc]`, not
`backward[bottom_arc]`. -/
def perfectVerifyTri (m : Metric) (_ : Unit) (t : Tri) : Option Unit := do
  let fb ← rd m.forward t.bottom
  let bb ← rd m.backward t.bottom
  let fm ← rd m.forward t.mid
  let bm ← rd m.backward t.mid
  let ft ← rd m.forward t.top
  let bt ← rd m.backward t.top
  check (decide (ft ≤ add32 bb fm))
  check (decide (bt ≤ add32 fb bm))
  check (decide (fb ≤ add32 fm bt))
  check (decide (bb ≤ add32 bm ft))
  check (decide (fm ≤ add32 fb ft))
  check (decide (bm ≤ add32 bm bt))

/-- Lines 1774-1796, loop body. -/
def perfectVerifyArc (c : Cch) (m : Metric) (_ : Unit) (a : Nat) : Option Unit := do
  let l ← upperTriangles c.upFirstOut c.upHead c.upTail a
  forEach l () (perfectVerifyTri m)

/-- Lines 1773-1797 (debug builds). -/
def perfectVerify (asserts : Bool) (c : Cch) (m : Metric) : Option Unit :=
  if asserts then forRange 0 c.cchArcCount () (perfectVerifyArc c m) else some ()

/-- Lines 1728-1770: customize, then decrease all weights to distances; arcs whose weight decreases are unmarked. The
loop of lines 1742-1770 runs from the last arc to the first. -/
def perfectWeights (c : Cch) (w : List Nat) (m : Metric) : Option PerfectState := do
  let m ← m.customize c w
  let keepF ← BitVector.new c.cchArcCount true
  let keepB ← BitVector.new c.cchArcCount true
  let keepF ← forRange 0 c.cchArcCount keepF (dropInf m.forward)
  let keepB ← forRange 0 c.cchArcCount keepB (dropInf m.backward)
  forDown c.cchArcCount ⟨m, keepF, keepB⟩ (perfectArc c)

/-- Lines 1807-1812 and 1814-1819: one direction of the result; the unpacking vectors are filled later. -/
def perfectSide (c : Cch) (weight : List Nat) (keep : BitVector) (map : LocalIDMapper) : Option ChSide := do
  let head ← keepElementIf keep c.upHead
  let tail ← keepElementIf keep c.upTail
  let fo ← invertVector tail c.nodeCount
  let weight ← keepElementIf keep weight
  let bits ← BitVector.new head.length false
  some ⟨fo, head, weight, List.replicate map.localIdCount 0, List.replicate map.localIdCount 0, bits⟩

/-- The marks and the maps of lines 1804-1805. -/
structure PerfectMaps where
  keepF : BitVector
  keepB : BitVector
  mapF : LocalIDMapper
  mapB : LocalIDMapper

/-- Lines 1840-1841 (forward) and 1872-1873 (backward): does the lower triangle consist of kept arcs and have the
weight of its top arc? `none` is undefined behaviour. The code enumerates lower triangles lazily and stops at the first
that fits. -/
def perfectFits (m : Metric) (k : PerfectMaps) (isForward : Bool) (t : Tri) : Option Bool := do
  let x := if isForward then t.bottom else t.mid
  let y := if isForward then t.mid else t.bottom
  let kb ← k.keepB.isSet x
  if kb then do
    let kf ← k.keepF.isSet y
    if kf then do
      let b ← rd m.backward x
      let f ← rd m.forward y
      let v ← rd (if isForward then m.forward else m.backward) t.top
      some (decide (add32 b f = v))
    else some false
  else some false

/-- Lines 1830-1849 (and 1862-1881): the first triangle that fits. -/
def perfectFirst (m : Metric) (k : PerfectMaps) (isForward : Bool) : List (Tri × Nat) → Option (Option Tri)
  | [] => some none
  | t :: l => do
    let b ← perfectFits m k isForward t.1
    if b then some (some t.1) else perfectFirst m k isForward l

/-- Lines 1826-1828 and 1858-1860: the arc `e` of the input graph with head `h`. -/
def unpackInput (s : ChSide) (i e h : Nat) : Option ChSide := do
  let bits ← s.isOriginal.set i
  let first ← wr s.first i e
  let second ← wr s.second i h
  some { s with first := first, second := second, isOriginal := bits }

/-- Lines 1842-1843 and 1874-1875: the two parts of a shortcut. -/
def unpackParts (k : PerfectMaps) (s : ChSide) (i x y : Nat) : Option ChSide := do
  let p ← k.mapB.toLocal x
  let first ← wr s.first i p
  let q ← k.mapF.toLocal y
  let second ← wr s.second i q
  some { s with first := first, second := second }

/-- Lines 1830-1851 and 1862-1883: a shortcut. -/
def perfectShortcut (asserts : Bool) (c : Cch) (m : Metric) (k : PerfectMaps) (isForward : Bool) (s : ChSide) (i a : Nat) :
    Option ChSide := do
  let x ← rd c.upTail a
  let y ← rd c.upHead a
  let l ← c.lowerTriangles x y a
  let r ← perfectFirst m k isForward l
  match r with
  | some t => unpackParts k s i (if isForward then t.bottom else t.mid) (if isForward then t.mid else t.bottom)
  | none => do
    check (!asserts)
    some s

/-- Lines 1822-1853 (forward) and 1854-1885 (backward): the unpacking information of arc `a`. -/
def perfectUnpack (asserts : Bool) (c : Cch) (w : List Nat) (m : Metric) (k : PerfectMaps) (isForward : Bool) (s : ChSide)
    (a : Nat) : Option ChSide := do
  let kept ← (if isForward then k.keepF else k.keepB).isSet a
  if kept then do
    let i ← (if isForward then k.mapF else k.mapB).toLocal a
    let e ← if isForward then originalArc c w m.forward c.fwdInput c.firstExtraFwd c.extraFwd a
      else originalArc c w m.backward c.bwdInput c.firstExtraBwd c.extraBwd a
    if e ≠ invalidId then do
      let h ← rd (if isForward then c.upHead else c.upTail) a
      let h ← rd c.order h
      unpackInput s i e h
    else perfectShortcut asserts c m k isForward s i a
  else some s

/-- Lines 1799-1886: the hierarchy of the kept arcs. The loop of lines 1821-1886 treats both directions of an arc in turn;
since they write to different vectors, the model has one loop for each direction. -/
def perfectCh (asserts : Bool) (c : Cch) (w : List Nat) (s : PerfectState) : Option Ch := do
  let mapF ← LocalIDMapper.new s.keepF
  let mapB ← LocalIDMapper.new s.keepB
  let fwd ← perfectSide c s.metric.forward s.keepF mapF
  let bwd ← perfectSide c s.metric.backward s.keepB mapB
  let k : PerfectMaps := ⟨s.keepF, s.keepB, mapF, mapB⟩
  let fwd ← forRange 0 c.cchArcCount fwd (perfectUnpack asserts c w s.metric k true)
  let bwd ← forRange 0 c.cchArcCount bwd (perfectUnpack asserts c w s.metric k false)
  some ⟨c.rank, c.order, fwd, bwd⟩

/-- customizable_contraction_hierarchy.cpp:1727-1891 `build_contraction_hierarchy_using_perfect_witness_search`: the
hierarchy and the metric it leaves behind. `none`: undefined behaviour, a failed assertion or an exception. -/
def Metric.buildPerfect (asserts : Bool) (c : Cch) (w : List Nat) (m : Metric) : Option (Ch × Metric) := do
  let s ← perfectWeights c w m
  perfectVerify asserts c s.metric
  let ch ← perfectCh asserts c w s
  let b ← checkCh ch
  check b
  some (ch, s.metric)

end RK
