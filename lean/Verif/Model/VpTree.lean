import Verif.Basic
import Mathlib.Algebra.Order.Group.Defs
/-!
# Model of src/geo_position_to_node.cpp

The distance function is a parameter with values in an ordered commutative group: rounding, infinities and NaN of `float`
are not modelled. In the code `construct_tree` computes the distances with another formula (lines 51-105) than
`geo_dist`; both are the same function here.
-/
namespace RK

/-- Lines 19-23 `PointData`. -/
structure PointData (P D : Type) where
  position : P
  id : Nat
  distanceToPivot : D
deriving Repr, DecidableEq

/-- Line 25. -/
def maxPointsPerLeaf : Nat := 8

section
variable {P D : Type}

/-- `std::nth_element(d.begin()+b, d.begin()+n, d.begin()+e, ..)` for `b ≤ n < e ≤ d.size()`. Its outcome is not determined
by the standard: `nth b e l k` is what it makes out of the range `[b, e)` with content `l`, for the position `k` within the
range. -/
def nthElement (nth : Nat → Nat → List (PointData P D) → Nat → List (PointData P D)) (d : List (PointData P D)) (b n e : Nat) :
    Option (List (PointData P D)) :=
  if b ≤ n ∧ n < e ∧ e ≤ d.length then some (d.take b ++ nth b e ((d.drop b).take (e - b)) (n - b) ++ d.drop e) else none

variable (dist : P → P → D)

/-- Lines 27-110 `construct_tree`. -/
def constructTree (nth : Nat → Nat → List (PointData P D) → Nat → List (PointData P D)) :
    Nat → List (PointData P D) → Nat → Nat → Option (List (PointData P D))
  | 0, _, _, _ => none
  | fuel + 1, d, b, e =>
    if e - b > maxPointsPerLeaf then do
      let mid := b + (e - b) / 2
      let d ← nthElement nth d (b + 1) mid e
      let d ← constructTree nth fuel d b mid
      let pivot ← rd d mid
      let d ← forRange mid e d (fun d i => do
        let x ← rd d i
        wr d i { x with distanceToPivot := dist pivot.position x.position })
      constructTree nth fuel d mid e
    else some d

/-- The class, include/routingkit/geo_position_to_node.h:32-38. -/
structure GeoIndex (P : Type) where
  position : List P
  id : List Nat
deriving Repr, DecidableEq

/-- Lines 113-130, the constructor. The points are given as one vector of positions; the assertion in line 115 says that the
two vectors of coordinates have the same size. -/
def GeoIndex.build (nth : Nat → Nat → List (PointData P D) → Nat → List (PointData P D)) (points : List P) : Option (GeoIndex P) := do
  let data := points.zipIdx.filterMap (fun x => points.head?.map (fun p0 => (⟨x.1, x.2, dist p0 x.1⟩ : PointData P D)))
  let data ← constructTree dist nth (points.length + 1) data 0 points.length
  some ⟨data.map (·.position), data.map (·.id)⟩

/-- geo_position_to_node.h:21-25 `NearestNeighborhoodQueryResult`. -/
structure GeoResult (D : Type) where
  id : Nat
  distance : D
deriving Repr, DecidableEq

variable [AddCommGroup D] [LinearOrder D]

/-- Lines 135-176 `nearest_neighbor_recursion`. -/
def nearestRec (g : GeoIndex P) (q : P) : Nat → Nat → Nat → GeoResult D → Option (GeoResult D)
  | 0, _, _, _ => none
  | fuel + 1, b, e, cur =>
    if e - b ≤ maxPointsPerLeaf then
      forRange b e cur (fun cur i => do
        let x ← rd g.position i
        if dist q x ≤ cur.distance then do
          let id ← rd g.id i
          some ⟨id, dist q x⟩
        else some cur)
    else do
      let pivot ← rd g.position b
      let mid := b + (e - b) / 2
      let pq := dist pivot q
      let m ← rd g.position mid
      let pb := dist pivot m
      if pq ≥ pb then do
        let cur ← nearestRec g q fuel mid e cur
        if pq - pb < cur.distance then nearestRec g q fuel b mid cur else some cur
      else do
        let cur ← nearestRec g q fuel b mid cur
        if pb - pq < cur.distance then nearestRec g q fuel mid e cur else some cur

/-- Lines 179-215 `find_all_nodes_recursion`. -/
def findAllRec (g : GeoIndex P) (q : P) (radius : D) : Nat → Nat → Nat → List (GeoResult D) → Option (List (GeoResult D))
  | 0, _, _, _ => none
  | fuel + 1, b, e, res =>
    if e - b ≤ maxPointsPerLeaf then
      forRange b e res (fun res i => do
        let x ← rd g.position i
        if dist q x ≤ radius then do
          let id ← rd g.id i
          some (res ++ [⟨id, dist q x⟩])
        else some res)
    else do
      let pivot ← rd g.position b
      let mid := b + (e - b) / 2
      let pq := dist pivot q
      let m ← rd g.position mid
      let pb := dist pivot m
      let res ← (if pq - pb ≤ radius then findAllRec g q radius fuel b mid res else some res)
      if pb - pq ≤ radius then findAllRec g q radius fuel mid e res else some res

/-- Lines 218-223 `find_nearest_neighbor_within_radius`. -/
def GeoIndex.nearest (g : GeoIndex P) (q : P) (radius : D) : Option (GeoResult D) := do
  check (0 ≤ radius)
  nearestRec dist g q (g.position.length + 1) 0 g.position.length ⟨invalidId, radius⟩

/-- Lines 225-230 `find_all_nodes_within_radius`. -/
def GeoIndex.findAll (g : GeoIndex P) (q : P) (radius : D) : Option (List (GeoResult D)) := do
  check (0 ≤ radius)
  findAllRec dist g q radius (g.position.length + 1) 0 g.position.length []

end
end RK
