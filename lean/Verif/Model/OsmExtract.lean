import Verif.Model.OsmSimple
import Verif.Model.IdMapper
/-!
# Model of the command line tool `/repo/src/osm_extract.cpp`

The file is read twice and is the same both times, see `Model/OsmSimple.lean`. The result is what is saved and what is
printed about the slowest arc. Not modelled: the evaluation of the command line (files without name are not written) and the
log. Writing vectors is modelled in `Model/VectorIO.lean`.
-/
namespace RK.Osm

/-- osm_extract.cpp:126-136, the vectors that are saved. -/
structure ExtractFiles (fl : FloatOps) where
  firstOut : List Nat
  head : List Nat
  geoDistance : List Nat
  travelTime : List Nat
  way : List Nat
  wayName : List (List Byte)
  waySpeed : List Nat
  latitude : List fl.F
  longitude : List fl.F
  osmNode : BitVector
  osmWay : BitVector

/-- osm_extract.cpp:115-119, what is printed. -/
structure ExtractReport where
  arc : Nat
  travelTime : Nat
  geoDistance : Nat
  speed : Nat
  osmWay : Nat
deriving Repr, DecidableEq

/-- osm_extract.cpp:85-89, the callback for ways; the state is `way_speed` and `way_name`. -/
def extractCallback : WayCallback (List Nat × List (List Byte)) := fun u _ w t => do
  let v ← waySpeed t
  let speeds ← wr u.1 w v
  let names ← wr u.2 w (wayName t)
  some ((speeds, names), carDirection t)

/-- osm_extract.cpp:104-111: `max_arc`. -/
def slowestArc (travelTime : List Nat) (arcCount : Nat) : Option Nat := do
  let s ← forRange 0 arcCount (invalidId, 0) fun s a => do
    let t ← rd travelTime a
    some (if t ≥ s.2 then (a, t) else s)
  some s.1

/-- osm_extract.cpp:103-120: the report about the slowest arc. -/
def slowestReport (ways : BitVector) (travelTime geoDistance way speed : List Nat) (arcCount : Nat) : Option ExtractReport := do
  let arc ← slowestArc travelTime arcCount
  let mapper ← IDMapper.new ways
  let t ← rd travelTime arc
  let d ← rd geoDistance arc
  let w ← rd way arc
  let v ← rd speed w
  let id ← mapper.toGlobal w
  some ⟨arc, t, d, v, id⟩

/-- osm_extract.cpp:69-136. The travel times (lines 96-101) are computed as in osm_simple.cpp:52-57. -/
def toolExtract (fl : FloatOps) (debug : Bool) (inflate : List Byte → Option (List Byte)) (own own' : Bool) (k : Nat) (k' : Nat → Nat)
    (stdSort : SortFn) (junk : Nat → Word) (file : List Byte) : Res (ExtractFiles fl × ExtractReport) := do
  let m ← loadMapping inflate own k none (fun _ t => usedByCars t) false file
  let n ← Res.ofOption m.ways.populationCount
  let r ← loadGraph fl debug inflate own' k' stdSort junk m extractCallback (List.replicate (n % u32) 0, List.replicate (n % u32) [])
    none false .none file
  let tt ← Res.ofOption (travelTimes r.1.geoDistance r.1.way r.2.1)
  let rep ← Res.ofOption (slowestReport m.ways tt r.1.geoDistance r.1.way r.2.1 r.1.head.length)
  Res.ok (⟨r.1.firstOut, r.1.head, r.1.geoDistance, tt, r.1.way, r.2.2, r.2.1, r.1.latitude, r.1.longitude, m.routing, m.ways⟩, rep)

end RK.Osm
