import Verif.Model.VpTree
/-!
# Model of src/geo_position_to_node.cpp with rounding

The same functions as in `Model/VpTree`, with all operations on distances as parameters: rounding and numbers that are not a number are
possible, and the distances in `construct_tree` may differ from those of `geo_dist`.
-/
namespace RK

/-- The operations on distances. -/
structure DistOps (P F : Type) where
  /-- lines 15-17 `compute_distance` -/
  dist : P → P → F
  /-- lines 50-105: the formula in `construct_tree` -/
  build : P → P → F
  sub : F → F → F
  le : F → F → Bool
  lt : F → F → Bool
  zero : F

/-- ISO C++ [alg.sorting]: what an algorithm of the standard library requires of a comparison of the elements of a range. -/
def StrictWeak {F : Type} (lt : F → F → Bool) (l : List F) : Prop :=
  (∀ a ∈ l, lt a a = false) ∧ (∀ a ∈ l, ∀ b ∈ l, ∀ c ∈ l, lt a b = true → lt b c = true → lt a c = true) ∧
  ∀ a ∈ l, ∀ b ∈ l, ∀ c ∈ l, lt a b = false → lt b a = false → lt b c = false → lt c b = false → lt a c = false ∧ lt c a = false

instance {F : Type} (lt : F → F → Bool) (l : List F) : Decidable (StrictWeak lt l) := by unfold StrictWeak; infer_instance

section
variable {P F : Type} (o : DistOps P F)

/-- `std::nth_element` as in `Model/VpTree`; undefined if the comparison is not a strict weak order on the range. -/
def nthElementF (nth : Nat → Nat → List (PointData P F) → Nat → List (PointData P F)) (d : List (PointData P F)) (b n e : Nat) :
    Option (List (PointData P F)) :=
  if StrictWeak o.lt (((d.drop b).take (e - b)).map (·.distanceToPivot)) then nthElement nth d b n e else none

/-- Lines 27-110 `construct_tree`. -/
def constructTreeF (nth : Nat → Nat → List (PointData P F) → Nat → List (PointData P F)) :
    Nat → List (PointData P F) → Nat → Nat → Option (List (PointData P F))
  | 0, _, _, _ => none
  | fuel + 1, d, b, e =>
    if e - b > maxPointsPerLeaf then do
      let mid := b + (e - b) / 2
      let d ← nthElementF o nth d (b + 1) mid e
      let d ← constructTreeF nth fuel d b mid
      let pivot ← rd d mid
      let d ← forRange mid e d (fun d i => do
        let x ← rd d i
        wr d i { x with distanceToPivot := o.build pivot.position x.position })
      constructTreeF nth fuel d mid e
    else some d

/-- Lines 113-130, the constructor. -/
def GeoIndex.buildF (nth : Nat → Nat → List (PointData P F) → Nat → List (PointData P F)) (points : List P) : Option (GeoIndex P) := do
  let data := points.zipIdx.filterMap (fun x => points.head?.map (fun p0 => (⟨x.1, x.2, o.dist p0 x.1⟩ : PointData P F)))
  let data ← constructTreeF o nth (points.length + 1) data 0 points.length
  some ⟨data.map (·.position), data.map (·.id)⟩

/-- Lines 135-176 `nearest_neighbor_recursion`. -/
def nearestRecF (g : GeoIndex P) (q : P) : Nat → Nat → Nat → GeoResult F → Option (GeoResult F)
  | 0, _, _, _ => none
  | fuel + 1, b, e, cur =>
    if e - b ≤ maxPointsPerLeaf then
      forRange b e cur (fun cur i => do
        let x ← rd g.position i
        if o.le (o.dist q x) cur.distance then do
          let id ← rd g.id i
          some ⟨id, o.dist q x⟩
        else some cur)
    else do
      let pivot ← rd g.position b
      let mid := b + (e - b) / 2
      let pq := o.dist pivot q
      let m ← rd g.position mid
      let pb := o.dist pivot m
      if o.le pb pq then do
        let cur ← nearestRecF g q fuel mid e cur
        if o.lt (o.sub pq pb) cur.distance then nearestRecF g q fuel b mid cur else some cur
      else do
        let cur ← nearestRecF g q fuel b mid cur
        if o.lt (o.sub pb pq) cur.distance then nearestRecF g q fuel mid e cur else some cur

/-- Lines 179-215 `find_all_nodes_recursion`. -/
def findAllRecF (g : GeoIndex P) (q : P) (radius : F) : Nat → Nat → Nat → List (GeoResult F) → Option (List (GeoResult F))
  | 0, _, _, _ => none
  | fuel + 1, b, e, res =>
    if e - b ≤ maxPointsPerLeaf then
      forRange b e res (fun res i => do
        let x ← rd g.position i
        if o.le (o.dist q x) radius then do
          let id ← rd g.id i
          some (res ++ [⟨id, o.dist q x⟩])
        else some res)
    else do
      let pivot ← rd g.position b
      let mid := b + (e - b) / 2
      let pq := o.dist pivot q
      let m ← rd g.position mid
      let pb := o.dist pivot m
      let res ← (if o.le (o.sub pq pb) radius then findAllRecF g q radius fuel b mid res else some res)
      if o.le (o.sub pb pq) radius then findAllRecF g q radius fuel mid e res else some res

/-- Lines 218-223 `find_nearest_neighbor_within_radius`. -/
def GeoIndex.nearestF (g : GeoIndex P) (q : P) (radius : F) : Option (GeoResult F) := do
  check (o.le o.zero radius)
  nearestRecF o g q (g.position.length + 1) 0 g.position.length ⟨invalidId, radius⟩

/-- Lines 225-230 `find_all_nodes_within_radius`. -/
def GeoIndex.findAllF (g : GeoIndex P) (q : P) (radius : F) : Option (List (GeoResult F)) := do
  check (o.le o.zero radius)
  findAllRecF o g q radius (g.position.length + 1) 0 g.position.length []

end
end RK
