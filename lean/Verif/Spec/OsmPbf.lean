import Verif.Spec.Protobuf
import Mathlib.Data.List.Forall2
/-! # Specification: the OpenStreetMap PBF format

https://wiki.openstreetmap.org/wiki/PBF_Format (osmformat.proto). Only the fields that matter are listed; all other
fields may be present. Fields may come in any order. -/
namespace Spec

/-- A string. -/
abbrev Str := List (BitVec 8)

/-- An object of the map. Coordinates are in nanodegrees. The types of members are 0 (node), 1 (way), 2 (relation). -/
inductive OsmItem where
  | node (id lat lon : Int) (tags : List (Str × Str))
  | way (id : Int) (nodes : List Int) (tags : List (Str × Str))
  | relation (id : Int) (members : List (Nat × Int × Str)) (tags : List (Str × Str))

/-- A way or a relation with the id -1, which the decoder reserves for a missing id. -/
def OsmItem.Reserved : OsmItem → Prop
  | .node .. => False
  | .way id .. => id = -1
  | .relation id .. => id = -1

/-- A number that fits into 64 bits with a sign. -/
def FitsInt64 (x : Int) : Prop := -2 ^ 63 ≤ x ∧ x < 2 ^ 63

instance (x : Int) : Decidable (FitsInt64 x) := inferInstanceAs (Decidable (_ ∧ _))

/-- The numbers with key `k` in a message. -/
def nums (k : Nat) (fs : List Field) : List Nat :=
  fs.filterMap fun f => match f with
    | .varint i x => if i = k then some x else none
    | _ => none

/-- The strings and submessages with key `k` in a message. -/
def strs (k : Nat) (fs : List Field) : List Str :=
  fs.filterMap fun f => match f with
    | .bytes i c => if i = k then some c else none
    | _ => none

/-- `l` is the encoding of a packed list of numbers. -/
inductive EncodesPacked : Str → List Nat → Prop
  | nil : EncodesPacked [] []
  | cons {v l : Str} {x : Nat} {xs : List Nat} : EncodesVarint v x → EncodesPacked l xs → EncodesPacked (v ++ l) (x :: xs)

/-- The field `k` holds the packed list `xs`; an empty list may be left out. -/
def PackedField (k : Nat) (fs : List Field) (xs : List Nat) : Prop :=
  (strs k fs = [] ∧ xs = []) ∨ ∃ c, strs k fs = [c] ∧ EncodesPacked c xs

/-- Two's complement with 64 bits, the type `int64`. -/
def twos (x : Int) : Nat := (x % 2 ^ 64).toNat

/-- Delta coding: each number is given by its difference to the one before. -/
def deltas (prev : Int) : List Int → List Int
  | [] => []
  | x :: l => (x - prev) :: deltas x l

/-- A delta coded list of numbers of type `sint64`. -/
def deltaCoded (l : List Int) : List Nat := (deltas 0 l).map zigzag

/-- Tags given by indices into the string table are the given strings; there are at most 65536 tags. -/
def TagsAre (strings : List Str) (idx : List (Nat × Nat)) (tags : List (Str × Str)) : Prop :=
  idx.length ≤ 65536 ∧ List.Forall₂ (fun i t => strings[i.1]? = some t.1 ∧ strings[i.2]? = some t.2) idx tags

/-- `message Way`. -/
def EncodesWay (strings : List Str) (l : Str) (id : Int) (nodes : List Int) (tags : List (Str × Str)) : Prop :=
  ∃ fs idx, EncodesMessage EncodesVarint l fs ∧ FitsInt64 id ∧ nums 1 fs = [twos id] ∧
    PackedField 2 fs (idx.map Prod.fst) ∧ PackedField 3 fs (idx.map Prod.snd) ∧ TagsAre strings idx tags ∧
    PackedField 8 fs (deltaCoded nodes)

/-- `message Relation`. -/
def EncodesRelation (strings : List Str) (l : Str) (id : Int) (members : List (Nat × Int × Str)) (tags : List (Str × Str)) : Prop :=
  ∃ fs idx roles, EncodesMessage EncodesVarint l fs ∧ FitsInt64 id ∧ nums 1 fs = [twos id] ∧
    PackedField 2 fs (idx.map Prod.fst) ∧ PackedField 3 fs (idx.map Prod.snd) ∧ TagsAre strings idx tags ∧
    PackedField 8 fs roles ∧ List.Forall₂ (fun r m => strings[r]? = some m.2.2) roles members ∧
    PackedField 9 fs (deltaCoded (members.map (·.2.1))) ∧
    PackedField 10 fs (members.map Prod.fst) ∧ ∀ m ∈ members, m.1 < 3

/-- `message Node`; the values of the coordinates are `lat` and `lon`. There are no numbers with the keys 19 and 20. -/
def EncodesNode (strings : List Str) (l : Str) (id lat lon : Int) (tags : List (Str × Str)) : Prop :=
  ∃ fs idx, EncodesMessage EncodesVarint l fs ∧ FitsInt64 id ∧ nums 1 fs = [zigzag id] ∧
    PackedField 2 fs (idx.map Prod.fst) ∧ PackedField 3 fs (idx.map Prod.snd) ∧ TagsAre strings idx tags ∧
    nums 8 fs = [zigzag lat] ∧ nums 9 fs = [zigzag lon] ∧ nums 19 fs = [] ∧ nums 20 fs = []

/-- A node of a `DenseNodes` message: id, values of the coordinates, tags as indices (the index 0 is not a key) and as
strings. -/
structure DenseNode where
  id : Int
  lat : Int
  lon : Int
  idx : List (Nat × Nat)
  tags : List (Str × Str)

/-- `message DenseNodes`. -/
def EncodesDense (strings : List Str) (l : Str) (nodes : List DenseNode) : Prop :=
  ∃ fs ids lats lons, EncodesMessage EncodesVarint l fs ∧
    strs 1 fs = [ids] ∧ EncodesPacked ids (deltaCoded (nodes.map (·.id))) ∧
    strs 8 fs = [lats] ∧ EncodesPacked lats (deltaCoded (nodes.map (·.lat))) ∧
    strs 9 fs = [lons] ∧ EncodesPacked lons (deltaCoded (nodes.map (·.lon))) ∧
    ((strs 10 fs = [] ∧ ∀ n ∈ nodes, n.idx = []) ∨
      ∃ kvs, strs 10 fs = [kvs] ∧ EncodesPacked kvs (nodes.flatMap fun n => n.idx.flatMap (fun p => [p.1, p.2]) ++ [0])) ∧
    ∀ n ∈ nodes, TagsAre strings n.idx n.tags ∧ ∀ p ∈ n.idx, p.1 ≠ 0

/-- What the header of a block determines. -/
structure OsmHeader where
  strings : List Str
  granularity : Nat
  latOffset : Int
  lonOffset : Int

/-- The position in nanodegrees for a value in the file. -/
def OsmHeader.lat (h : OsmHeader) (v : Int) : Int := h.latOffset + h.granularity * v
def OsmHeader.lon (h : OsmHeader) (v : Int) : Int := h.lonOffset + h.granularity * v

/-- `message PrimitiveGroup`: the fields and the objects in order. `sparse` tells whether there are `Node` messages. -/
inductive GroupIs (h : OsmHeader) (sparse : Bool) : List Field → List OsmItem → Prop
  | nil : GroupIs h sparse [] []
  | other {f : Field} {fs : List Field} {items : List OsmItem} :
      (∀ k c, f = .bytes k c → k = 0 ∨ 4 < k) → GroupIs h sparse fs items → GroupIs h sparse (f :: fs) items
  | node {l : Str} {id lat lon : Int} {tags : List (Str × Str)} {fs : List Field} {items : List OsmItem} :
      sparse = true → EncodesNode h.strings l id lat lon tags → GroupIs h sparse fs items →
      GroupIs h sparse (.bytes 1 l :: fs) (.node id (h.lat lat) (h.lon lon) tags :: items)
  | dense {l : Str} {nodes : List DenseNode} {fs : List Field} {items : List OsmItem} :
      EncodesDense h.strings l nodes → GroupIs h sparse fs items →
      GroupIs h sparse (.bytes 2 l :: fs) ((nodes.map fun n => .node n.id (h.lat n.lat) (h.lon n.lon) n.tags) ++ items)
  | way {l : Str} {id : Int} {nodes : List Int} {tags : List (Str × Str)} {fs : List Field} {items : List OsmItem} :
      EncodesWay h.strings l id nodes tags → GroupIs h sparse fs items →
      GroupIs h sparse (.bytes 3 l :: fs) (.way id nodes tags :: items)
  | relation {l : Str} {id : Int} {members : List (Nat × Int × Str)} {tags : List (Str × Str)} {fs : List Field} {items : List OsmItem} :
      EncodesRelation h.strings l id members tags → GroupIs h sparse fs items →
      GroupIs h sparse (.bytes 4 l :: fs) (.relation id members tags :: items)

/-- A group as bytes. -/
def EncodesGroup (h : OsmHeader) (sparse : Bool) (l : Str) (items : List OsmItem) : Prop :=
  ∃ fs, EncodesMessage EncodesVarint l fs ∧ GroupIs h sparse fs items

/-- The value of an optional number: `d` if it is left out. -/
def OptionalNum (k : Nat) (fs : List Field) (d x : Nat) : Prop := (nums k fs = [] ∧ x = d) ∨ nums k fs = [x]

/-- `message PrimitiveBlock`: a string table (strings without zero bytes, fewer than `2^32`), the granularity, the
offsets, and groups. The granularity is not zero. -/
def EncodesBlock (h : OsmHeader) (sparse : Bool) (l : Str) (items : List OsmItem) : Prop :=
  ∃ fs table parts, EncodesMessage EncodesVarint l fs ∧
    strs 1 fs = [table] ∧ EncodesMessage EncodesVarint table (h.strings.map (Field.bytes 1)) ∧
    (∀ s ∈ h.strings, (0 : BitVec 8) ∉ s) ∧ h.strings.length < 2 ^ 32 ∧
    OptionalNum 17 fs 100 h.granularity ∧ h.granularity ≠ 0 ∧
    FitsInt64 h.latOffset ∧ FitsInt64 h.lonOffset ∧ OptionalNum 19 fs 0 (twos h.latOffset) ∧ OptionalNum 20 fs 0 (twos h.lonOffset) ∧
    List.Forall₂ (EncodesGroup h sparse) (strs 2 fs) parts ∧ items = parts.flatten

end Spec
