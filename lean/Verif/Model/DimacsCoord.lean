import Verif.Model.Dimacs
/-!
# Model of `/repo/src/convert_road_dimacs_coordinates.cpp`

The function works on the text of the DIMACS file; writing the vector files is modelled in `Model/VectorIO.lean`. Enough
memory is assumed. Error messages are not modelled. The computation `static_cast<double>(v) / 1000000.0` together with its
rounding to `float` is a parameter `conv`, the value-initialised `float` is `zero`.
-/
namespace RK

/-- `in >> long long` (`num_get` of libstdc++): fails if there are no digits or the value does not fit. -/
def readInt64 (s : Text) : Option (Int × Text) := do
  let (neg, v, r) ← readDecimal s
  if neg then (if v ≤ 9223372036854775808 then some (-(v : Int), r) else none)
  else (if v < 9223372036854775808 then some ((v : Int), r) else none)

/-- convert_road_dimacs_coordinates.cpp:41-45, the variables of the reading loop; `nodeCount` is `none` as long as it is
uninitialised, which is also what `was_header_read` tells. -/
structure CoordState (α : Type) where
  nodeCount : Option Nat
  latitude : List α
  longitude : List α
  seen : List Bool
deriving DecidableEq

/-- Lines 56-63: the node count of the header; `none` if one of the tests fails. -/
def coordHeaderFields (line : Text) : Option Nat := do
  let (b, s) ← readWord line
  check (decide (b = ['p']))
  let (b, s) ← readWord s
  check (decide (b = ['a', 'u', 'x']))
  let (b, s) ← readWord s
  check (decide (b = ['s', 'p']))
  let (b, s) ← readWord s
  check (decide (b = ['c', 'o']))
  let (n, s) ← readUnsigned s
  check (readWord s).isNone
  some n

/-- Lines 54-67. -/
def coordHeader {α : Type} (zero : α) (line : Text) : Res (CoordState α) :=
  match coordHeaderFields line with
  | none => .error
  | some n => .ok ⟨some n, List.replicate n zero, List.replicate n zero, List.replicate n false⟩

/-- Lines 69-79: the fields of a point. -/
def coordFields (line : Text) : Option (Nat × Int × Int) := do
  let (v, s) ← readWord line
  check (decide (v = ['v']))
  let (node, s) ← readUnsigned s
  let (lon, s) ← readInt64 s
  let (lat, s) ← readInt64 s
  check (readWord s).isNone
  some (node, lon, lat)

/-- Lines 81-87. -/
def coordStore {α : Type} (conv : Int → α) (s : CoordState α) (nodeCount node : Nat) (lon lat : Int) : Res (CoordState α) := do
  Res.require (decide (node < nodeCount))
  let b ← Res.ofOption (rd s.seen node)
  Res.require (!b)
  Res.ofOption do
    let seen ← wr s.seen node true
    let longitude ← wr s.longitude node (conv lon)
    let latitude ← wr s.latitude node (conv lat)
    some { s with seen := seen, longitude := longitude, latitude := latitude }

/-- Lines 69-87. -/
def coordPoint {α : Type} (conv : Int → α) (s : CoordState α) (nodeCount : Nat) (line : Text) : Res (CoordState α) :=
  match coordFields line with
  | none => .error
  | some (node, lon, lat) => coordStore conv s nodeCount (dec32 node) lon lat

/-- Lines 49-88, the body of the reading loop. -/
def coordLine {α : Type} (conv : Int → α) (zero : α) (s : CoordState α) (line : Text) : Res (CoordState α) :=
  if line = [] ∨ line.head? = some 'c' then .ok s
  else match s.nodeCount with
    | none => coordHeader zero line
    | some n => coordPoint conv s n line

/-- Lines 91-93. Without header `node_count` is read uninitialised. -/
def coordFinish {α : Type} (s : CoordState α) : Res (List α × List α) :=
  match s.nodeCount with
  | none => .ub
  | some n => do
    let complete ← Res.ofOption (forRange 0 n true fun ok i => do
      let b ← rd s.seen i
      some (ok && b))
    Res.require complete
    .ok (s.longitude, s.latitude)

/-- convert_road_dimacs_coordinates.cpp:38-99: the text to the saved `longitude` and `latitude`. -/
def convertCoordinates {α : Type} (conv : Int → α) (zero : α) (text : Text) : Res (List α × List α) := do
  let s ← (getLines text).foldlM (coordLine conv zero) ⟨none, [], [], []⟩
  coordFinish s

end RK
