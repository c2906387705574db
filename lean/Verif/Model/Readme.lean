import Verif.Model.OsmSimple
import Verif.Model.InverseVector
import Verif.Model.ChQuery
import Verif.Model.ChBuild
import Verif.Model.VpTree
/-!
# Model of the example program in README.md:24-69

The standard input is a list of pairs of positions (reading decimal numbers as `float` is not modelled), the standard output is a list
of answers (the fixed text and the time that a query took are left out). Distances between positions are as in `Model/VpTree`.
-/
namespace RK

/-- README.md:46-67, what is printed for a pair of positions. -/
inductive RouteAnswer where
  /-- line 47 -/
  | noSource
  /-- line 52 -/
  | noTarget
  /-- lines 62-67 -/
  | route (source target distance : Nat) (path : List Nat)
deriving DecidableEq, Repr

section
variable {P D : Type} [AddCommGroup D] [LinearOrder D]

/-- README.md:45-67, the body of the loop; `radius` is 1000 in the program. -/
def answerPair (dist : P → P → D) (radius : D) (index : GeoIndex P) (q : ChQuery) (p : P × P) : Option (ChQuery × RouteAnswer) := do
  let source ← index.nearest dist p.1 radius
  if source.id = invalidId then some (q, .noSource)
  else do
    let target ← index.nearest dist p.2 radius
    if target.id = invalidId then some (q, .noTarget)
    else do
      let q ← q.reset
      let q ← q.addSource source.id 0
      let q ← q.addTarget target.id 0
      let q ← q.run
      let distance ← q.getDistance
      let path ← q.getNodePath
      some (q, .route source.id target.id distance path)

/-- README.md:44-68, the loop over the input. -/
def answerPairs (dist : P → P → D) (radius : D) (index : GeoIndex P) : ChQuery → List (P × P) → Option (List RouteAnswer)
  | _, [] => some []
  | q, p :: l => do
    let (q, a) ← answerPair dist radius index q p
    let rest ← answerPairs dist radius index q l
    some (a :: rest)

/-- README.md:24-69. `ContractionHierarchy::build` is called with its default limit 500 of the witness search
(contraction_hierarchy.h:20-25); osm_simple.h:20-22 `node_count`; the assertion of the index is geo_position_to_node.cpp:115. -/
def readmeMain (fl : Osm.FloatOps) (debug asserts : Bool) (inflate : List Byte → Option (List Byte)) (own own' : Bool) (k : Nat) (k' : Nat → Nat)
    (stdSort : SortFn) (junk junkF junkB : Nat → Word) (dist : fl.F × fl.F → fl.F × fl.F → D) (radius : D)
    (nth : Nat → Nat → List (PointData (fl.F × fl.F) D) → Nat → List (PointData (fl.F × fl.F) D))
    (file : List Byte) (input : List ((fl.F × fl.F) × (fl.F × fl.F))) : Res (List RouteAnswer) := do
  let g ← Osm.simpleCar fl debug inflate own own' k k' stdSort junk false file
  let tail ← Res.ofOption (invertInverseVector g.firstOut)
  let ch ← Res.ofOption (Ch.build asserts ((g.firstOut.length - 1) % u32) tail g.head g.travelTime 500 junkF junkB)
  Res.ofOption (check (decide (g.latitude.length = g.longitude.length)))
  let index ← Res.ofOption (GeoIndex.build dist nth (g.latitude.zip g.longitude))
  Res.ofOption (answerPairs dist radius index (ChQuery.new ch) input)

end
end RK
