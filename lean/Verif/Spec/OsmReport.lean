import Verif.Model.OsmPbf
import Verif.Spec.OsmPbf
/-! # Specification: calls of the callbacks and objects of the map -/
namespace RK
open Spec Osm

/-- The map answers as the list of tags does. -/
def TagsShow (m : TagMap (List Byte)) (tags : List (Str × Str)) : Prop :=
  ∀ key, m.get key = some ((tags.find? (fun p => p.1 = key)).map Prod.snd)

/-- The callback is called with the data of the object: the tags can be looked up, and those of ways and relations can be
enumerated (in some order). -/
def Reported : OsmEvent → OsmItem → Prop
  | .node id lat lon t, .node id' lat' lon' tags => id = BitVec.ofInt 64 id' ∧ lat = lat' ∧ lon = lon' ∧ TagsShow t tags
  | .way id nodes t, .way id' nodes' tags => id = BitVec.ofInt 64 id' ∧ nodes = nodes'.map (BitVec.ofInt 64) ∧
      TagsShow t tags ∧ t.entry.Perm tags
  | .relation id members t, .relation id' members' tags => id = BitVec.ofInt 64 id' ∧
      members = members'.map (fun m => (m.1, BitVec.ofInt 64 m.2.1, m.2.2)) ∧ TagsShow t tags ∧ t.entry.Perm tags
  | _, _ => False

/-- The callback for the object is given. -/
def Osm.Wanted.wants (c : Wanted) : OsmItem → Bool
  | .node .. => c.node
  | .way .. => c.way
  | .relation .. => c.relation

/-- The entries of the tag map in an event. -/
def Osm.entriesOf : OsmEvent → List (List Byte × List Byte)
  | .node _ _ _ t => t.entry
  | .way _ _ t => t.entry
  | .relation _ _ t => t.entry

end RK
