import Verif.Model.OsmMapping
import Verif.Model.IdMapper
import Verif.Model.Filter
import Verif.Model.GraphUtil
import Verif.Model.InverseVector
import Verif.Model.Permutation
/-!
# Model of `load_osm_routing_graph_from_pbf` (src/osm_graph_builder.cpp:116-370): arcs, distances, geometry, coordinates

The forbidden turns (lines 375-823) are in Model/OsmTurns. Floating point numbers are an abstract structure. Log messages and
`reserve` are not modelled. A capacity is unlimited; sizes which are stored in `unsigned` are reduced modulo 2^32.
-/
namespace RK.Osm

/-- The operations on floating point numbers that are used; `F` is `float`, `D` is `double`. -/
structure FloatOps where
  F : Type
  D : Type
  /-- The value of new elements of a vector. -/
  zero : F
  /-- The conversion of a coordinate in nanodegrees. -/
  ofCoord : Int → F
  /-- geo_dist.h `geo_dist(lat, lon, lat, lon)` -/
  geoDist : F → F → F → F → D
  zeroD : D
  add : D → D → D
  /-- The conversion from `double` to `unsigned`; undefined if the number is not in the range. -/
  toUnsigned : D → Option Nat
  /-- Lines 673-742: the turn from the second over the first to the third point fits to the direction. -/
  fits : TurnDirection → F × F → F × F → F × F → Bool

/-- osm_graph_builder.h:58-62 `OSMRoadGeometry`. -/
inductive Geometry where
  | none
  | uncompressed
  | firstAndLast
deriving DecidableEq, Repr

/-- The variables that are changed during the scan of the file: those of lines 142, 143, 195, 211-214, and the variables of
the callback. -/
structure Scan (fl : FloatOps) (σ : Type) where
  user : σ
  tail : List Nat
  head : List Nat
  geoDistance : List Nat
  way : List Nat
  anti : List Bool
  firstMod : List Nat
  modLat : List fl.F
  modLon : List fl.F
  lat : List fl.F
  lon : List fl.F
  scratchLat : List fl.F
  scratchLon : List fl.F
  restrictions : List TurnRestriction

/-- Lines 152-154. -/
structure Mappers where
  modelling : IDMapper
  routing : IDMapper
  way : IDMapper

variable {fl : FloatOps} {σ : Type}

/-- Lines 183-191: what is stored of the geometry of an arc if only the first and last nodes are wanted. -/
def firstAndLast {α : Type} (l : List α) : Option (List α) :=
  if l.length = 1 then do
    let a ← l.head?
    some [a]
  else if l ≠ [] then do
    let a ← l.head?
    let b ← l.getLast?
    some [a, b]
  else some []

/-- Lines 161-193 `on_new_arc`; its last two arguments are always the scratch vectors. -/
def onNewArc (geo : Geometry) (s : Scan fl σ) (x y dist way : Nat) (anti : Bool) : Option (Scan fl σ) :=
  let s := { s with tail := s.tail ++ [x], head := s.head ++ [y], geoDistance := s.geoDistance ++ [dist],
                    way := s.way ++ [way], anti := s.anti ++ [anti] }
  match geo with
  | .none => some s
  | .uncompressed => some { s with firstMod := s.firstMod ++ [s.modLat.length % u32],
                                   modLat := s.modLat ++ s.scratchLat, modLon := s.modLon ++ s.scratchLon }
  | .firstAndLast => do
    let la ← firstAndLast s.scratchLat
    let lo ← firstAndLast s.scratchLon
    some { s with firstMod := s.firstMod ++ [s.modLat.length % u32], modLat := s.modLat ++ la, modLon := s.modLon ++ lo }

/-- Lines 222-228, the callback for nodes. -/
def scanNode (mp : Mappers) (s : Scan fl σ) (id : Nat) (lat lon : Int) : Option (Scan fl σ) := do
  let m ← mp.modelling.base.toLocalOr id invalidId
  let m := m % u32
  if m = invalidId then some s
  else do
    let la ← wr s.lat m (fl.ofCoord lat)
    let lo ← wr s.lon m (fl.ofCoord lon)
    some { s with lat := la, lon := lo }

/-- Lines 269-270: `std::reverse`. -/
def reverseScratch (s : Scan fl σ) : Scan fl σ :=
  { s with scratchLat := s.scratchLat.reverse, scratchLon := s.scratchLon.reverse }

/-- Lines 261-275, the switch. -/
def addArcs (geo : Geometry) (dir : WayDirection) (s : Scan fl σ) (last cur : Nat) (dist : fl.D) (way : Nat) : Option (Scan fl σ) :=
  match dir with
  | .onlyForwards => do
    let d ← fl.toUnsigned dist
    onNewArc geo s last cur d way false
  | .openInBoth => do
    let d ← fl.toUnsigned dist
    let s ← onNewArc geo s last cur d way false
    onNewArc geo (reverseScratch s) cur last d way true
  | .onlyBackwards => do
    let d ← fl.toUnsigned dist
    onNewArc geo (reverseScratch s) cur last d way true
  | .closed => none

/-- Lines 234-237, the local variables, and those of the scan. -/
structure WayScan (fl : FloatOps) (σ : Type) where
  prev : Nat
  last : Nat
  dist : fl.D
  scan : Scan fl σ

/-- Lines 246-249. -/
def pushScratch (geo : Geometry) (s : Scan fl σ) (la lo : fl.F) : Scan fl σ :=
  if geo = .none then s else { s with scratchLat := s.scratchLat ++ [la], scratchLon := s.scratchLon ++ [lo] }

/-- Lines 256-259; the vectors are not empty because of lines 246-249. -/
def popScratch (geo : Geometry) (s : Scan fl σ) : Scan fl σ :=
  if geo = .none then s else { s with scratchLat := s.scratchLat.dropLast, scratchLon := s.scratchLon.dropLast }

/-- Lines 240-281, the loop body for the node `x`. -/
def wayStep (geo : Geometry) (mp : Mappers) (dir : WayDirection) (way : Nat) (st : WayScan fl σ) (x : Nat) :
    Option (WayScan fl σ) := do
  let cur ← mp.modelling.base.toLocal x
  let cur := cur % u32
  let la ← rd st.scan.lat cur
  let lo ← rd st.scan.lon cur
  let pla ← rd st.scan.lat st.prev
  let plo ← rd st.scan.lon st.prev
  let dist := fl.add st.dist (fl.geoDist la lo pla plo)
  let s := pushScratch geo st.scan la lo
  let r ← mp.routing.base.toLocalOr x invalidId
  let r := r % u32
  if r = invalidId then some ⟨cur, st.last, dist, s⟩
  else do
    let s ← addArcs geo dir (popScratch geo s) st.last r dist way
    some ⟨cur, r, fl.zeroD, { s with scratchLat := [], scratchLon := [] }⟩

/-- The callback of the user for ways; it may have a state, and undefined behaviour. -/
abbrev WayCallback (σ : Type) := σ → Word → Nat → Tags → Option (σ × WayDirection)

/-- Lines 229-285, the callback for ways. -/
def scanWay (geo : Geometry) (mp : Mappers) (cb : WayCallback σ) (s : Scan fl σ) (id : Word) (nodes : List Nat) (tags : Tags) :
    Option (Scan fl σ) := do
  let w ← mp.way.base.toLocalOr id.toNat invalidId
  let w := w % u32
  if w = invalidId then some s
  else do
    let r ← cb s.user id w tags
    let s := { s with user := r.1 }
    if r.2 = .closed then some s
    else do
      let n0 ← nodes.head?
      let prev ← mp.modelling.base.toLocal n0
      let last ← mp.routing.base.toLocal n0
      let st ← forEach nodes.tail ⟨prev % u32, last % u32, fl.zeroD, s⟩ (wayStep geo mp r.2 w)
      some st.scan

/-- The decoder of turn restrictions: the restrictions that it passes to its callback. -/
abbrev RestrictionDecoder := Word → List Member → Tags → Option (List TurnRestriction)

/-- Lines 198-209, the callback for relations. -/
def scanRelation (decoder : Option RestrictionDecoder) (s : Scan fl σ) (id : Word) (members : List Member) (tags : Tags) :
    Option (Scan fl σ) :=
  match decoder with
  | none => some s
  | some f => do
    let l ← f id members tags
    some { s with restrictions := s.restrictions ++ l }

/-- Lines 220-289: the callbacks. -/
def scanEvent (geo : Geometry) (mp : Mappers) (cb : WayCallback σ) (decoder : Option RestrictionDecoder) (s : Scan fl σ) :
    OsmEvent → Option (Scan fl σ)
  | .node id lat lon _ => scanNode mp s id.toNat lat lon
  | .way id nodes tags => scanWay geo mp cb s id (nodes.map (·.toNat)) (tagsOf tags)
  | .relation id members tags => scanRelation decoder s id members (tagsOf tags)

/-- Lines 211-214 and 142-143: the variables before the scan. -/
def Scan.start (mp : Mappers) (user : σ) : Scan fl σ :=
  let n := mp.modelling.base.localIdCount
  ⟨user, [], [], [], [], [], [], [], [], List.replicate n fl.zero, List.replicate n fl.zero, [], [], []⟩

/-- osm_graph_builder.h:64-88 `OSMRoutingGraph`. -/
structure RoutingGraph (fl : FloatOps) where
  firstOut : List Nat
  head : List Nat
  way : List Nat
  geoDistance : List Nat
  latitude : List fl.F
  longitude : List fl.F
  anti : List Bool
  forbiddenFrom : List Nat
  forbiddenTo : List Nat
  firstMod : List Nat
  modLat : List fl.F
  modLon : List fl.F

/-- Lines 327-336: the elements from `first` to `last`. -/
def slice {α : Type} (v : List α) (first last : Nat) : Option (List α) := do
  check (first ≤ last)
  check (last ≤ v.length)
  some ((v.drop first).take (last - first))

/-- Lines 321-337, the loop body; a number that does not fit into `int` gives a negative offset. -/
def geometryStep (firstMod : List Nat) (modLat modLon : List fl.F) (r : List Nat × List fl.F × List fl.F) (old : Nat) :
    Option (List Nat × List fl.F × List fl.F) := do
  let first ← rd firstMod old
  let last ← rd firstMod (old + 1)
  check (first < 2147483648)
  check (last < 2147483648)
  let la ← slice modLat first last
  let lo ← slice modLon first last
  some (r.1 ++ [r.2.1.length % u32], r.2.1 ++ la, r.2.2 ++ lo)

/-- Lines 309-344: the geometry in the new order of the arcs. -/
def sortGeometry (geo : Geometry) (p firstMod : List Nat) (modLat modLon : List fl.F) :
    Option (List Nat × List fl.F × List fl.F) := do
  if geo = .none then some (firstMod, modLat, modLon)
  else do
    let firstMod := firstMod ++ [modLat.length % u32]
    let newToOld ← invertPermutation p
    let r ← forEach newToOld ([], [], []) (geometryStep firstMod modLat modLon)
    some (r.1 ++ [r.2.1.length % u32], r.2.1, r.2.2)

/-- Lines 354-356: the modelling nodes which are routing nodes. -/
def markRouting (mp : Mappers) : Option BitVector := do
  let v ← BitVector.new mp.modelling.base.localIdCount false
  forRange 0 mp.routing.base.localIdCount v fun v r => do
    let g ← mp.routing.toGlobal r
    let m ← mp.modelling.base.toLocal g
    v.set m

/-- Lines 299-367: sorting, and the coordinates. The second component is the sorted vector `tail`. -/
def sortGraph (geo : Geometry) (mp : Mappers) (s : Scan fl σ) : Option (RoutingGraph fl × List Nat) := do
  let nodeCount := mp.routing.base.localIdCount % u32
  let r ← computeInverseSortPermutationFirstByTailThenByHeadAndApplySortToTail nodeCount s.tail s.head
  let head ← applyInversePermutation r.1 s.head
  let geoDistance ← applyInversePermutation r.1 s.geoDistance
  let way ← applyInversePermutation r.1 s.way
  let anti ← applyInversePermutation r.1 s.anti
  let firstOut ← invertVector r.2 nodeCount
  let g ← sortGeometry geo r.1 s.firstMod s.modLat s.modLon
  let isRouting ← markRouting mp
  let latitude ← keepElementIf isRouting s.lat
  let longitude ← keepElementIf isRouting s.lon
  some (⟨firstOut, head, way, geoDistance, latitude, longitude, anti, [], [], g.1, g.2.1, g.2.2⟩, r.2)

/-- Line 132: the assertion, in debug builds. -/
def assertMapping (debug : Bool) (m : IdMapping) : Option Unit :=
  if debug then do
    let v ← m.modelling.copy
    let v ← v.orEq m.routing
    let b ← v.eq m.modelling
    check b
  else some ()

/-- Lines 138-140. -/
def wantedGeometry (decoder : Option RestrictionDecoder) (geo : Geometry) : Geometry :=
  if decoder.isSome ∧ geo = .none then .firstAndLast else geo

/-- Lines 152-154. -/
def Mappers.new (m : IdMapping) : Option Mappers := do
  let modelling ← IDMapper.new m.modelling
  let routing ← IDMapper.new m.routing
  let way ← IDMapper.new m.ways
  some ⟨modelling, routing, way⟩

end RK.Osm
