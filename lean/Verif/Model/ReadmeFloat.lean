import Verif.Model.Readme
import Verif.Model.VpFloat
/-!
# Model of the example program in README.md:24-69 with rounding

The same functions as in `Model/Readme`, with the operations on distances of `Model/VpFloat`.
-/
namespace RK

section
variable {P F : Type} (o : DistOps P F)

/-- README.md:45-67, the body of the loop; `radius` is 1000 in the program. -/
def answerPairF (radius : F) (index : GeoIndex P) (q : ChQuery) (p : P × P) : Option (ChQuery × RouteAnswer) := do
  let source ← index.nearestF o p.1 radius
  if source.id = invalidId then some (q, .noSource)
  else do
    let target ← index.nearestF o p.2 radius
    if target.id = invalidId then some (q, .noTarget)
    else do
      let q ← q.reset
      let q ← q.addSource source.id 0
      let q ← q.addTarget target.id 0
      let q ← q.run
      let distance ← q.getDistance
      let path ← q.getNodePath
      some (q, .route source.id target.id distance path)

/-- README.md:44-68, the loop over the input. -/
def answerPairsF (radius : F) (index : GeoIndex P) : ChQuery → List (P × P) → Option (List RouteAnswer)
  | _, [] => some []
  | q, p :: l => do
    let (q, a) ← answerPairF o radius index q p
    let rest ← answerPairsF radius index q l
    some (a :: rest)

end

/-- README.md:24-69, see `readmeMain`. -/
def readmeMainF {D : Type} (fl : Osm.FloatOps) (o : DistOps (fl.F × fl.F) D) (debug asserts : Bool) (inflate : List Byte → Option (List Byte)) (own own' : Bool)
    (k : Nat) (k' : Nat → Nat) (stdSort : SortFn) (junk junkF junkB : Nat → Word) (radius : D)
    (nth : Nat → Nat → List (PointData (fl.F × fl.F) D) → Nat → List (PointData (fl.F × fl.F) D))
    (file : List Byte) (input : List ((fl.F × fl.F) × (fl.F × fl.F))) : Res (List RouteAnswer) := do
  let g ← Osm.simpleCar fl debug inflate own own' k k' stdSort junk false file
  let tail ← Res.ofOption (invertInverseVector g.firstOut)
  let ch ← Res.ofOption (Ch.build asserts ((g.firstOut.length - 1) % u32) tail g.head g.travelTime 500 junkF junkB)
  Res.ofOption (check (decide (g.latitude.length = g.longitude.length)))
  let index ← Res.ofOption (GeoIndex.buildF o nth (g.latitude.zip g.longitude))
  Res.ofOption (answerPairsF o radius index (ChQuery.new ch) input)

end RK
