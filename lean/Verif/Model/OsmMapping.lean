import Verif.Model.OsmFile
import Verif.Model.OsmProfile
import Verif.Model.BitVector
/-!
# Model of `load_osm_id_mapping_from_pbf` (src/osm_graph_builder.cpp:21-114)

The callbacks of the user are functions without side effects, which look tags up and do not enumerate them. Log messages
are not modelled.
-/
namespace RK.Osm

/-- tag_map.h:84-94, `operator[]` as a function of the key; it never reads outside of its vectors (C39). -/
def tagsOf (m : TagMap (List Byte)) : Tags := fun key => (m.get key).join

/-- osm_graph_builder.h:15-19 `OSMRoutingIDMapping`. -/
structure IdMapping where
  modelling : BitVector
  routing : BitVector
  ways : BitVector
deriving Repr

/-- osm_graph_builder.cpp:45-46, 47-48, 57-58, 63-64, 73-76, 82-83: `make_large_enough_for(x)` and `set(x)`. -/
def growSet (v : BitVector) (x : Nat) : Option BitVector := do
  let v ← v.makeLargeEnoughFor x false
  v.set x

/-- osm_graph_builder.cpp:43-50, the callback for nodes. -/
def mapNode (m : IdMapping) (x : Nat) : Option IdMapping := do
  let modelling ← growSet m.modelling x
  let routing ← growSet m.routing x
  some { m with modelling, routing }

/-- osm_graph_builder.cpp:61-67 (`all` is false) and 86-90 (`all` is true): a node of a way. -/
def mapWayNode (all : Bool) (m : IdMapping) (x : Nat) : Option IdMapping := do
  if all then
    let modelling ← m.modelling.makeLargeEnoughFor x false
    let routing ← m.routing.makeLargeEnoughFor x false
    let routing ← routing.set x
    let modelling ← modelling.set x
    some { m with modelling, routing }
  else
    let modelling ← m.modelling.makeLargeEnoughFor x false
    if ← modelling.isSet x then
      let routing ← growSet m.routing x
      some { m with modelling, routing }
    else
      let modelling ← modelling.set x
      some { m with modelling }

/-- osm_graph_builder.cpp:70-71 and 93-94: the assertions. -/
def assertSet (v : BitVector) (x : Nat) : Option Unit := (v.isSet x).bind check

/-- osm_graph_builder.cpp:57-76 and 82-94, the callback for a way that is used. -/
def mapWay (all : Bool) (m : IdMapping) (id : Nat) (nodes : List Nat) : Option IdMapping := do
  let ways ← growSet m.ways id
  let m ← forEach nodes { m with ways } (mapWayNode all)
  let front ← nodes.head?
  let back ← nodes.getLast?
  assertSet m.modelling front
  assertSet m.modelling back
  if all then some m
  else
    let routing ← growSet m.routing front
    let routing ← growSet routing back
    some { m with routing }

/-- osm_graph_builder.cpp:41-97, the callbacks passed to the reader. -/
def mapEvent (isRoutingNode : Option (Word → Tags → Bool)) (isWayUsed : Word → Tags → Bool)
    (all : Bool) (m : IdMapping) : OsmEvent → Option IdMapping
  | .node id _ _ tags =>
    match isRoutingNode with
    | none => some m
    | some f => if f id (tagsOf tags) then mapNode m id.toNat else some m
  | .way id nodes tags =>
    if nodes.length ≥ 2 ∧ isWayUsed id (tagsOf tags) then mapWay all m id.toNat (nodes.map (·.toNat)) else some m
  | .relation .. => some m

/-- osm_graph_builder.cpp:28, the mapping at the beginning. -/
def IdMapping.empty : IdMapping := ⟨BitVector.null, BitVector.null, BitVector.null⟩

/-- The callbacks `f` are called for the events, then the function ends as the reader did. -/
def Out.run {σ : Type} (o : Out) (s : σ) (f : σ → OsmEvent → Option σ) : Res σ :=
  match forEach o.1 s f with
  | none => .ub
  | some s =>
    match o.2 with
    | .ok _ => .ok s
    | .error => .error
    | .ub => .ub

/-- osm_graph_builder.cpp:21-114 `load_osm_id_mapping_from_pbf`. `k` is the schedule of the reader. -/
def loadMapping (inflate : List Byte → Option (List Byte)) (own : Bool) (k : Nat)
    (isRoutingNode : Option (Word → Tags → Bool)) (isWayUsed : Word → Tags → Bool) (all : Bool)
    (file : List Byte) : Res IdMapping :=
  (unorderedRead inflate own ⟨isRoutingNode.isSome, true, false⟩ k file).run IdMapping.empty
    (mapEvent isRoutingNode isWayUsed all)

end RK.Osm
