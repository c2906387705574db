import Verif.Model.OsmGraph
import Verif.Model.Sort
/-!
# Model of `load_osm_routing_graph_from_pbf` (src/osm_graph_builder.cpp:375-823): forbidden turns, and the whole function

The vectors of restrictions are compacted in place by the code (`*out = *in`, then `erase`); here a new list is built. The two
vectors `forbidden_from` and `forbidden_to` are a list of pairs until they are sorted. The loops over the arcs of a way read
`index_to_arc` each time; here the arcs are listed once.
-/
namespace RK.Osm

/-- An `OSMTurnRestriction` with local ids; the relation id is only used for messages. -/
structure LocalRestriction where
  category : RestrictionCategory
  direction : TurnDirection
  fromWay : Nat
  viaNode : Nat
  toWay : Nat
deriving DecidableEq, Repr

variable {fl : FloatOps} {σ : Type}

/-- Lines 396-427: the loop body; nothing if `has_error`. -/
def localRestriction (mp : Mappers) (x : TurnRestriction) : Option (Option LocalRestriction) := do
  let f ← mp.way.base.toLocalOr x.fromWay.toNat invalidId
  let f := f % u32
  let t ← mp.way.base.toLocalOr x.toWay.toNat invalidId
  let t := t % u32
  let missing := decide (x.viaNode = BitVec.allOnes 64)
  let v ← if missing then some invalidId else mp.routing.base.toLocalOr x.viaNode.toNat invalidId
  let v := v % u32
  if f = invalidId ∨ t = invalidId ∨ (missing = false ∧ v = invalidId) then some none
  else some (some ⟨x.category, x.direction, f, v, t⟩)

/-- Lines 385-430. -/
def localRestrictions (mp : Mappers) (l : List TurnRestriction) : Option (List LocalRestriction) :=
  forEach l [] fun acc x => do
    let r ← localRestriction mp x
    some (acc ++ r.toList)

/-- Lines 445-451 `add_forbidden_turn`. -/
def addForbidden (arcCount : Nat) (fb : List (Nat × Nat)) (a b : Nat) : Option (List (Nat × Nat)) := do
  check (a < arcCount)
  check (b < arcCount)
  some (fb ++ [(a, b)])

/-- Lines 460-461 and 604-605: the elements of `v` sorted, and where each key begins. -/
def groupBy (stdSort : SortFn) (v : List Nat) (keyCount : Nat) : Option (List Nat × List Nat) := do
  let index ← computeSortPermutationUsingKey stdSort v keyCount (fun x => x)
  let sorted ← applyPermutation index v
  let first ← invertVector sorted keyCount
  some (index, first)

/-- Lines 493, 498, 508, 518, 523, 534: the loops over the arcs of a way. -/
def group (g : List Nat × List Nat) (w : Nat) : Option (List Nat) := do
  let b ← rd g.2 w
  let e ← rd g.2 (w + 1)
  forRange b e [] fun acc i => do
    let a ← rd g.1 i
    some (acc ++ [a])

/-- The vectors which lines 487-577 and 607-783 only read. -/
structure TurnGraph where
  firstOut : List Nat
  tail : List Nat
  head : List Nat
  way : List Nat

/-- Lines 503-505 and 776-780: all turns from `a` at the node `v` but the one to `keep` are forbidden. -/
def forbidOthers (g : TurnGraph) (fb : List (Nat × Nat)) (a v keep : Nat) : Option (List (Nat × Nat)) := do
  let b ← rd g.firstOut v
  let e ← rd g.firstOut (v + 1)
  forRange b e fb fun fb o => if o ≠ keep then addForbidden g.head.length fb a o else some fb

/-- Lines 493-496, 508-511, 518-521 and 534-537. -/
def writeHeads {α : Type} (g : TurnGraph) (arcs : List Nat) (v : List α) (x : Nat → α) : Option (List α) :=
  forEach arcs v fun v a => do
    let h ← rd g.head a
    wr v h (x a)

/-- Lines 493-511: a mandatory restriction from a way to the same way, without a via node. -/
def goStraight (g : TurnGraph) (incoming : List Nat) (fb : List (Nat × Nat)) (arcs : List Nat) :
    Option (List Nat × List (Nat × Nat)) := do
  let incoming ← writeHeads g arcs incoming (fun a => a)
  let fb ← forEach arcs fb fun fb out => do
    let v ← rd g.tail out
    let a ← rd incoming v
    if a ≠ invalidId then forbidOthers g fb a v out else some fb
  let incoming ← writeHeads g arcs incoming (fun _ => invalidId)
  some (incoming, fb)

/-- Lines 515-537: the via node and the second via node. -/
def findVia (g : TurnGraph) (isHead : List Bool) (fromArcs toArcs : List Nat) : Option (List Bool × Nat × Nat) := do
  let isHead ← writeHeads g fromArcs isHead (fun _ => true)
  let r ← forEach toArcs (invalidId, invalidId) fun r a => do
    let v ← rd g.tail a
    let b ← rd isHead v
    if b then some (if r.1 ≠ invalidId then (r.1, v) else (v, r.2)) else some r
  let isHead ← writeHeads g fromArcs isHead (fun _ => false)
  some (isHead, r)

/-- The variables of lines 442-443, 474-475, and the vector of restrictions. -/
structure Repair where
  isHead : List Bool
  incoming : List Nat
  fb : List (Nat × Nat)
  out : List LocalRestriction

/-- Lines 488-577: the loop body. -/
def repairStep (g : TurnGraph) (byWay : List Nat × List Nat) (s : Repair) (x : LocalRestriction) : Option Repair := do
  if x.viaNode ≠ invalidId then some { s with out := s.out ++ [x] }
  else if x.fromWay = x.toWay ∧ x.category = .mandatory then do
    let arcs ← group byWay x.fromWay
    let r ← goStraight g s.incoming s.fb arcs
    some { s with incoming := r.1, fb := r.2 }
  else do
    let fromArcs ← group byWay x.fromWay
    let toArcs ← group byWay x.toWay
    let r ← findVia g s.isHead fromArcs toArcs
    let s := { s with isHead := r.1 }
    if r.2.1 = invalidId then some s
    else if r.2.2 ≠ invalidId then some s
    else some { s with out := s.out ++ [{ x with viaNode := r.2.1 }] }

/-- Lines 453-591. -/
def repair (stdSort : SortFn) (g : TurnGraph) (wayCount : Nat) (l : List LocalRestriction) : Option Repair := do
  let byWay ← groupBy stdSort g.way wayCount
  let nodeCount := g.firstOut.length - 1
  forEach l ⟨List.replicate nodeCount false, List.replicate nodeCount invalidId, [], []⟩ (repairStep g byWay)

/-- Lines 612-620 and 633-636: the arcs of the way `w` into the node `v`. -/
def fromCandidates (g : TurnGraph) (byHead : List Nat × List Nat) (v w : Nat) : Option (List Nat) := do
  let b ← rd byHead.2 v
  let e ← rd byHead.2 (v + 1)
  let l ← forRange b e [] fun acc i => do
    check (i < g.head.length)
    let a ← rd byHead.1 i
    check (a < g.head.length)
    let wa ← rd g.way a
    some (if wa = w then acc ++ [a] else acc)
  forEach l () fun _ a => do
    let h ← rd g.head a
    check (h = v)
  some l

/-- Lines 638-644 and 657-660: the arcs of the way `w` out of the node `v`. -/
def toCandidates (g : TurnGraph) (v w : Nat) : Option (List Nat) := do
  let b ← rd g.firstOut v
  let e ← rd g.firstOut (v + 1)
  let l ← forRange b e [] fun acc a => do
    check (a < g.head.length)
    let wa ← rd g.way a
    some (if wa = w then acc ++ [a] else acc)
  forEach l () fun _ a => do
    let h ← rd g.tail a
    check (h = v)
  some l

/-- The coordinates of a node. -/
def nodePoint (r : RoutingGraph fl) (v : Nat) : Option (fl.F × fl.F) := do
  let la ← rd r.latitude v
  let lo ← rd r.longitude v
  some (la, lo)

/-- The coordinates of a modelling node of an arc. -/
def modPoint (r : RoutingGraph fl) (i : Nat) : Option (fl.F × fl.F) := do
  let la ← rd r.modLat i
  let lo ← rd r.modLon i
  some (la, lo)

/-- Lines 688-695: the point before the via node. -/
def fromPoint (r : RoutingGraph fl) (tail : List Nat) (a : Nat) : Option (fl.F × fl.F) := do
  let b ← rd r.firstMod a
  let e ← rd r.firstMod (a + 1)
  if b = e then do
    let t ← rd tail a
    nodePoint r t
  else modPoint r (e - 1)

/-- Lines 700-708: the point behind the via node. -/
def toPoint (r : RoutingGraph fl) (a : Nat) : Option (fl.F × fl.F) := do
  let b ← rd r.firstMod a
  let e ← rd r.firstMod (a + 1)
  if b = e then do
    let h ← rd r.head a
    nodePoint r h
  else modPoint r b

/-- Lines 669-745: the number of candidates that fit to the direction, and the last of them. -/
def matching (r : RoutingGraph fl) (tail : List Nat) (x : LocalRestriction) (fs ts : List Nat) :
    Option (Nat × Option (Nat × Nat)) := do
  let via ← nodePoint r x.viaNode
  forEach fs (0, none) fun s f => do
    let fp ← fromPoint r tail f
    forEach ts s fun s t => do
      let tp ← toPoint r t
      some (if fl.fits x.direction via fp tp then (s.1 + 1, some (f, t)) else s)

/-- Lines 663-771: the turn that is meant; none if the restriction is ignored. -/
def resolve (r : RoutingGraph fl) (tail : List Nat) (x : LocalRestriction) (fs ts : List Nat) : Option (Option (Nat × Nat)) :=
  match fs, ts with
  | [f], [t] => some (some (f, t))
  | _, _ => do
    let m ← matching r tail x fs ts
    some (if m.1 = 1 then m.2 else none)

/-- Lines 608-782: the loop body. -/
def forbidStep (r : RoutingGraph fl) (g : TurnGraph) (byHead : List Nat × List Nat) (fb : List (Nat × Nat)) (x : LocalRestriction) :
    Option (List (Nat × Nat)) := do
  check (x.viaNode ≠ invalidId)
  check (x.fromWay ≠ invalidId)
  check (x.toWay ≠ invalidId)
  let fs ← fromCandidates g byHead x.viaNode x.fromWay
  if fs = [] then some fb
  else do
    let ts ← toCandidates g x.viaNode x.toWay
    if ts = [] then some fb
    else do
      let p ← resolve r g.tail x fs ts
      match p with
      | none => some fb
      | some (f, t) =>
        if x.category = .prohibitive then addForbidden g.head.length fb f t
        else forbidOthers g fb f x.viaNode t

/-- Lines 796-813: sorting, and removing duplicates. -/
def sortTurns (junk : Nat → Word) (arcCount : Nat) (fb : List (Nat × Nat)) : Option (List Nat × List Nat) := do
  let r ← computeInverseSortPermutationFirstByTailThenByHeadAndApplySortToTail arcCount (fb.map (·.1)) (fb.map (·.2))
  let ff := r.2
  let ft ← applyInversePermutation r.1 (fb.map (·.2))
  check (isSortedUsingLess ff)
  let dup ← BitVector.make ff.length (fun x =>
    if x = 0 then false else decide (rd ff (x - 1) = rd ff x) && decide (rd ft (x - 1) = rd ft x)) junk
  let ff ← inplaceRemove dup ff
  let ft ← inplaceRemove dup ft
  check (isSortedUsingLess ff)
  some (ff, ft)

/-- Lines 375-823. -/
def forbiddenTurns (stdSort : SortFn) (junk : Nat → Word) (mp : Mappers) (r : RoutingGraph fl) (tail : List Nat)
    (l : List TurnRestriction) : Option (RoutingGraph fl) := do
  if l = [] then some r
  else do
    let g : TurnGraph := ⟨r.firstOut, tail, r.head, r.way⟩
    let l ← localRestrictions mp l
    let s ← repair stdSort g (mp.way.base.localIdCount % u32) l
    let byHead ← groupBy stdSort r.head (r.firstOut.length - 1)
    let fb ← forEach s.out s.fb (forbidStep r g byHead)
    let t ← sortTurns junk r.head.length fb
    some { r with forbiddenFrom := t.1, forbiddenTo := t.2 }

/-- Lines 291-829: what follows the scan. -/
def finishGraph (stdSort : SortFn) (junk : Nat → Word) (geo : Geometry) (mp : Mappers) (s : Scan fl σ) :
    Option (RoutingGraph fl × σ) := do
  let g ← sortGraph geo mp s
  let r ← forbiddenTurns stdSort junk mp g.1 g.2 s.restrictions
  some (r, s.user)

/-- osm_graph_builder.cpp:116-830 `load_osm_routing_graph_from_pbf`. `k` are the schedules of the reader, `stdSort` is
`std::sort`, `junk` is the content of new memory. -/
def loadGraph (fl : FloatOps) (debug : Bool) (inflate : List Byte → Option (List Byte)) (own : Bool) (k : Nat → Nat)
    (stdSort : SortFn) (junk : Nat → Word) (m : IdMapping) (cb : WayCallback σ) (user : σ) (decoder : Option RestrictionDecoder)
    (assumeOrdered : Bool) (geo : Geometry) (file : List Byte) : Res (RoutingGraph fl × σ) := do
  Res.ofOption (assertMapping debug m)
  let geo := wantedGeometry decoder geo
  let mp ← Res.ofOption (Mappers.new m)
  let s ← (orderedRead inflate own ⟨true, true, decoder.isSome⟩ assumeOrdered k file).run (Scan.start mp user)
    (scanEvent geo mp cb decoder)
  Res.ofOption (finishGraph stdSort junk geo mp s)

end RK.Osm
