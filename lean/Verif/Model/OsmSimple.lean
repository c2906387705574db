import Verif.Model.OsmTurns
import Verif.Model.OsmProfile
/-!
# Model of src/osm_simple.cpp

The file is read twice and is the same both times. `own`, `k` and `own'`, `k'` are the schedules of the two readers. The
parameter `file_is_ordered_even_though_file_header_says_that_it_is_unordered` of the three functions is not used by them.
Messages are not modelled.
-/
namespace RK.Osm

/-- osm_simple.h:10-28 `SimpleOSMCarRoutingGraph`. -/
structure CarGraph (fl : FloatOps) where
  firstOut : List Nat
  head : List Nat
  travelTime : List Nat
  geoDistance : List Nat
  latitude : List fl.F
  longitude : List fl.F
  forbiddenFrom : List Nat
  forbiddenTo : List Nat

/-- osm_simple.h:37-52 `SimpleOSMPedestrianRoutingGraph`. -/
structure PedestrianGraph (fl : FloatOps) where
  firstOut : List Nat
  head : List Nat
  geoDistance : List Nat
  latitude : List fl.F
  longitude : List fl.F

/-- osm_simple.h:61-77 `SimpleOSMBicycleRoutingGraph`. -/
structure BicycleGraph (fl : FloatOps) where
  firstOut : List Nat
  head : List Nat
  geoDistance : List Nat
  latitude : List fl.F
  longitude : List fl.F
  comfort : List Nat

/-- osm_simple.cpp:33-36, the callback for ways; the state is `way_speed`. -/
def carCallback : WayCallback (List Nat) := fun speeds _ w t => do
  let v ← waySpeed t
  let speeds ← wr speeds w v
  some (speeds, carDirection t)

/-- osm_simple.cpp:128-131, the callback for ways; the state is `comfort_level`, with elements of 8 bits. -/
def bicycleCallback : WayCallback (List Nat) := fun comfort _ w t => do
  let comfort ← wr comfort w (bicycleComfort t % 256)
  some (comfort, bicycleDirection t)

/-- osm_simple.cpp:85-87, the callback for ways. -/
def pedestrianCallback : WayCallback Unit := fun _ _ _ _ => some ((), .openInBoth)

/-- osm_simple.cpp:11-64 `simple_load_osm_car_routing_graph_from_pbf`. -/
def simpleCar (fl : FloatOps) (debug : Bool) (inflate : List Byte → Option (List Byte)) (own own' : Bool) (k : Nat) (k' : Nat → Nat)
    (stdSort : SortFn) (junk : Nat → Word) (all : Bool) (file : List Byte) : Res (CarGraph fl) := do
  let m ← loadMapping inflate own k none (fun _ t => usedByCars t) all file
  let n ← Res.ofOption m.ways.populationCount
  let r ← loadGraph fl debug inflate own' k' stdSort junk m carCallback (List.replicate (n % u32) 0) (some decodeRestrictions) false .none file
  let tt ← Res.ofOption (travelTimes r.1.geoDistance r.1.way r.2)
  Res.ofOption (check (!debug || isSortedUsingLess r.1.forbiddenFrom))
  Res.ok ⟨r.1.firstOut, r.1.head, tt, r.1.geoDistance, r.1.latitude, r.1.longitude, r.1.forbiddenFrom, r.1.forbiddenTo⟩

/-- osm_simple.cpp:66-102 `simple_load_osm_pedestrian_routing_graph_from_pbf`. -/
def simplePedestrian (fl : FloatOps) (debug : Bool) (inflate : List Byte → Option (List Byte)) (own own' : Bool) (k : Nat) (k' : Nat → Nat)
    (stdSort : SortFn) (junk : Nat → Word) (all : Bool) (file : List Byte) : Res (PedestrianGraph fl) := do
  let m ← loadMapping inflate own k none (fun _ t => usedByPedestrians t) all file
  let r ← loadGraph fl debug inflate own' k' stdSort junk m pedestrianCallback () none false .none file
  Res.ok ⟨r.1.firstOut, r.1.head, r.1.geoDistance, r.1.latitude, r.1.longitude⟩

/-- osm_simple.cpp:147-149, the comfort levels of the arcs. -/
def arcComfort (comfort way : List Nat) (arcCount : Nat) : Option (List Nat) :=
  forRange 0 arcCount (List.replicate arcCount 0) fun l a => do
    let w ← rd way a
    let c ← rd comfort w
    wr l a c

/-- osm_simple.cpp:105-152 `simple_load_osm_bicycle_routing_graph_from_pbf`. -/
def simpleBicycle (fl : FloatOps) (debug : Bool) (inflate : List Byte → Option (List Byte)) (own own' : Bool) (k : Nat) (k' : Nat → Nat)
    (stdSort : SortFn) (junk : Nat → Word) (all : Bool) (file : List Byte) : Res (BicycleGraph fl) := do
  let m ← loadMapping inflate own k none (fun _ t => usedByBicycles t) all file
  let n ← Res.ofOption m.ways.populationCount
  let r ← loadGraph fl debug inflate own' k' stdSort junk m bicycleCallback (List.replicate (n % u32) 0) none false .none file
  let comfort ← Res.ofOption (arcComfort r.2 r.1.way r.1.head.length)
  Res.ok ⟨r.1.firstOut, r.1.head, r.1.geoDistance, r.1.latitude, r.1.longitude, comfort⟩

end RK.Osm
