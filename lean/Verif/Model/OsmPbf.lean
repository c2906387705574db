import Verif.Model.Protobuf
import Verif.Model.TagMap
/-!
# Model of src/osm_decoder.cpp

Memory is a list of bytes. Coordinates are exact multiples of a nanodegree: the rounding of `double` is not modelled.
Exceptions of the callbacks are not modelled. The two threads with their buffers are replaced by the byte stream that the
reader delivers (C38); the data race on `status` (lines 680 and 687 read what the other thread writes) is not modelled.
-/
namespace RK
open Spec (Field)

/-- A call of one of the three callbacks with its arguments; the types of members are 0 (node), 1 (way), 2 (relation). -/
inductive OsmEvent where
  | node (id : Word) (lat lon : Int) (tags : TagMap (List Byte))
  | way (id : Word) (nodes : List Word) (tags : TagMap (List Byte))
  | relation (id : Word) (members : List (Nat × Word × List Byte)) (tags : TagMap (List Byte))
deriving Repr, DecidableEq

namespace Osm

/-- The calls of the callbacks, and how the function ends; on return with the content of the variable `tag_map`. -/
abbrev Out := List OsmEvent × Res (TagMap (List Byte))

/-- Sequential composition. -/
def Out.step (o : Out) (f : TagMap (List Byte) → Out) : Out :=
  match o.2 with
  | .ok m => (o.1 ++ (f m).1, (f m).2)
  | .error => (o.1, .error)
  | .ub => (o.1, .ub)

/-- A part without callbacks followed by one with callbacks. -/
def after {α : Type} (r : Res α) (f : α → Out) : Out :=
  match r with
  | .ok a => f a
  | .error => ([], .error)
  | .ub => ([], .ub)

/-- `decode_protobuf_message_with_callbacks` with callbacks that only assign variables. -/
def message (l : List Byte) : Res (List Field) :=
  match decodeMessage (l.length + 1) l with
  | (fs, .ok _) => .ok fs
  | (_, .error) => .error
  | (_, .ub) => .ub

/-- A variable that is assigned by each number with the key `k`. -/
def lastNum (k d : Nat) (fs : List Field) : Nat :=
  fs.foldl (fun a f => match f with
    | .varint i x => if i = k then x else a
    | _ => a) d

/-- A pair of pointers that is assigned by each string with the key `k`; `none` is the null pointer. -/
def lastStr (k : Nat) (fs : List Field) : Option (List Byte) :=
  fs.foldl (fun a f => match f with
    | .bytes i c => if i = k then some c else a
    | _ => a) none

/-- The memory between two pointers that may both be null. -/
def mem (o : Option (List Byte)) : List Byte := o.getD []

/-- `f` for all elements in order. -/
def resMap {α β : Type} (f : α → Res β) : List α → Res (List β)
  | [] => .ok []
  | a :: l => do
    let b ← f a
    let bs ← resMap f l
    .ok (b :: bs)

/-- osm_decoder.cpp:355-362, 498-505, 578-585: the loop over the keys and values with the check behind it; the numbers
are stored with 32 bits. -/
def pairLoop : Nat → List Byte → List Byte → Res (List (Nat × Nat))
  | 0, _, _ => .ub
  | fuel + 1, ks, vs =>
    if ks ≠ [] ∧ vs ≠ [] then do
      let (k, ks) ← decodeVarint ks
      let (v, vs) ← decodeVarint vs
      let l ← pairLoop fuel ks vs
      .ok ((k.toNat % u32, v.toNat % u32) :: l)
    else if ks ≠ [] ∨ vs ≠ [] then .error
    else .ok []

/-- osm_decoder.cpp:366-371 and its copies (372-377, 439-450, 509-520, 589-600): the check lets `i == string_table.size()` pass. -/
def strAt (strings : List (List Byte)) (i : Nat) : Res (List Byte) :=
  if i > strings.length then .error else Res.ofOption (rd strings i)

/-- osm_decoder.cpp:364-378 and its copies (437-451, 507-521, 587-601): the call of `tag_map.build`. All keys are fetched first (tag_map.h:66), the
values in the order of the entries (tag_map.h:77); the second fetch of the keys is omitted. -/
def buildTags (strings : List (List Byte)) (kv : List (Nat × Nat)) (m : TagMap (List Byte)) : Res (TagMap (List Byte)) := do
  let keys ← resMap (fun p => strAt strings p.1) kv
  let t ← Res.ofOption (TagMap.build (⟨m.hashElementList, [], m.entryBegin, m.entryEnd⟩ : TagMap Nat) (keys.zip (kv.map (·.2))))
  let entry ← resMap (fun p => do
    let s ← strAt strings p.2
    .ok (p.1, s)) t.entry
  .ok ⟨t.hashElementList, entry, t.entryBegin, t.entryEnd⟩

/-- osm_decoder.cpp:275-280, the local variables of a block. -/
structure Block where
  granularity : Nat
  offsetLat : Int
  offsetLon : Int
  strings : List (List Byte)
  groups : List (List Byte)

/-- osm_decoder.cpp:300-307: the strings of a table. The code moves each string one byte to the front, over the last
byte of its length, and writes a zero behind it; this memory is not read again by the decoder. A string ends at its first
zero. -/
def stringsOf (fs : List Field) : List (List Byte) :=
  fs.filterMap fun f => match f with
    | .bytes _ c => some (c.takeWhile (· ≠ 0))
    | _ => none

/-- osm_decoder.cpp:296-308: a table. -/
def stringTable (l : List Byte) : Res (List (List Byte)) := do
  let fs ← message l
  .ok (stringsOf fs)

/-- osm_decoder.cpp:284-312: the callbacks for the fields of a block. -/
def blockField (b : Block) : Field → Res Block
  | .varint 17 x => .ok { b with granularity := x }
  | .varint 19 x => .ok { b with offsetLat := zigzagDecode (BitVec.ofNat 64 x) }
  | .varint 20 x => .ok { b with offsetLon := zigzagDecode (BitVec.ofNat 64 x) }
  | .bytes 1 c => do
    let l ← stringTable c
    .ok { b with strings := b.strings ++ l }
  | .bytes 2 c => .ok { b with groups := b.groups ++ [c] }
  | _ => .ok b

/-- The callbacks for several fields. -/
def blockFields : Block → List Field → Res Block
  | b, [] => .ok b
  | b, f :: fs => do
    let b ← blockField b f
    blockFields b fs

/-- osm_decoder.cpp:275-316: the block without its groups. -/
def decodeBlock (l : List Byte) : Res Block := do
  let (fs, r) := decodeMessage (l.length + 1) l
  let b ← blockFields ⟨100, 0, 0, [], []⟩ fs
  r
  if b.granularity = 0 then .error else .ok b

/-- osm_decoder.cpp:318: `primblock_lon_offset`. -/
def Block.lonOffset (b : Block) : Int := b.offsetLat

/-- osm_decoder.cpp:319: `primblock_lat_offset`. -/
def Block.latOffset (b : Block) : Int := b.offsetLon

/-- osm_decoder.cpp:322-381 `decode_sparse_node`. -/
def sparseNode (b : Block) (l : List Byte) (m : TagMap (List Byte)) : Out :=
  after (do
    let fs ← message l
    let id := lastNum 1 (2 ^ 64 - 1) fs
    let lat := fs.foldl (fun a f => match f with
      | .varint i x => if i = 19 then b.lonOffset + b.granularity * zigzagDecode (BitVec.ofNat 64 x) else a
      | _ => a) 0
    let lon := fs.foldl (fun a f => match f with
      | .varint i x => if i = 20 then b.latOffset + b.granularity * zigzagDecode (BitVec.ofNat 64 x) else a
      | _ => a) 0
    if id = 2 ^ 64 - 1 then .error else do
      let kv ← pairLoop ((mem (lastStr 2 fs)).length + 1) (mem (lastStr 2 fs)) (mem (lastStr 3 fs))
      let m ← buildTags b.strings kv m
      .ok (OsmEvent.node (BitVec.ofNat 64 id) lat lon m, m)) fun (e, m) => ([e], .ok m)

/-- osm_decoder.cpp:427-436: the tags of a dense node, and the memory behind them. -/
def denseTags : Nat → List Byte → Res (List (Nat × Nat) × List Byte)
  | 0, _ => .ub
  | fuel + 1, l => do
    let (x, l) ← decodeVarint l
    if x = 0 then .ok ([], l)
    else do
      let (y, l) ← decodeVarint l
      let (kv, l) ← denseTags fuel l
      .ok ((x.toNat % u32, y.toNat % u32) :: kv, l)

/-- osm_decoder.cpp:384-388, 420-421: the local variables of `decode_dense_node`, and `tag_map`. -/
structure DenseState where
  ids : List Byte
  lats : List Byte
  lons : List Byte
  kvs : Option (List Byte)
  id : Word
  lat : Int
  lon : Int
  tags : TagMap (List Byte)

/-- osm_decoder.cpp:422-452: one pass of the loop of `decode_dense_node` up to the callback. -/
def densePass (b : Block) (s : DenseState) : Res DenseState := do
  let (x, ids) ← decodeVarint s.ids
  let (y, lats) ← decodeVarint s.lats
  let (z, lons) ← decodeVarint s.lons
  let id := s.id + BitVec.ofInt 64 (zigzagDecode x)
  let lat := s.lat + (b.lonOffset + b.granularity * zigzagDecode y)
  let lon := s.lon + (b.lonOffset + b.granularity * zigzagDecode z)
  match s.kvs with
  | none => .ok ⟨ids, lats, lons, none, id, lat, lon, s.tags⟩
  | some kvs => do
    let (kv, kvs) ← denseTags (kvs.length + 1) kvs
    let tags ← buildTags b.strings kv s.tags
    .ok ⟨ids, lats, lons, some kvs, id, lat, lon, tags⟩

/-- osm_decoder.cpp:422-460: the loop of `decode_dense_node` and the checks behind it. -/
def denseLoop (b : Block) : Nat → DenseState → Out
  | 0, _ => ([], .ub)
  | fuel + 1, s =>
    if s.ids ≠ [] then
      after (densePass b s) fun s =>
        Out.step ([.node s.id s.lat s.lon s.tags], .ok s.tags) fun _ => denseLoop b fuel s
    else if s.lats ≠ [] ∨ s.lons ≠ [] ∨ mem s.kvs ≠ [] then ([], .error)
    else ([], .ok s.tags)

/-- osm_decoder.cpp:383-463 `decode_dense_node`. -/
def denseNodes (b : Block) (l : List Byte) (m : TagMap (List Byte)) : Out :=
  after (do
    let fs ← message l
    match lastStr 1 fs, lastStr 8 fs, lastStr 9 fs with
    | some ids, some lats, some lons => do
      let m ← Res.ofOption m.clear
      .ok (⟨ids, lats, lons, lastStr 10 fs, 0, 0, 0, m⟩ : DenseState)
    | _, _, _ => .error) fun s => denseLoop b (s.ids.length + 1) s

/-- osm_decoder.cpp:526-529: the loop over the nodes of a way. -/
def nodeLoop : Nat → List Byte → Word → Res (List Word)
  | 0, _, _ => .ub
  | fuel + 1, l, id =>
    if l ≠ [] then do
      let (x, l) ← decodeVarint l
      let id := id + BitVec.ofInt 64 (zigzagDecode x)
      let ids ← nodeLoop fuel l id
      .ok (id :: ids)
    else .ok []

/-- osm_decoder.cpp:465-534 `decode_way`. -/
def decodeWay (b : Block) (l : List Byte) (m : TagMap (List Byte)) : Out :=
  after (do
    let fs ← message l
    let id := lastNum 1 (2 ^ 64 - 1) fs
    if id = 2 ^ 64 - 1 then .error else do
      let kv ← pairLoop ((mem (lastStr 2 fs)).length + 1) (mem (lastStr 2 fs)) (mem (lastStr 3 fs))
      let m ← buildTags b.strings kv m
      let nodes ← nodeLoop ((mem (lastStr 8 fs)).length + 1) (mem (lastStr 8 fs)) 0
      .ok (OsmEvent.way (BitVec.ofNat 64 id) nodes m, m)) fun (e, m) => ([e], .ok m)

/-- osm_decoder.cpp:606-624: the loop over the members of a relation. -/
def memberLoop (strings : List (List Byte)) : Nat → List Byte → List Byte → List Byte → Word → Res (List (Nat × Word × List Byte))
  | 0, _, _, _, _ => .ub
  | fuel + 1, ids, roles, types, id =>
    if ids ≠ [] then do
      let (x, ids) ← decodeVarint ids
      let id := id + BitVec.ofInt 64 (zigzagDecode x)
      let (r, roles) ← decodeVarint roles
      Res.require (decide (r.toNat < strings.length))
      let role ← Res.ofOption (rd strings r.toNat)
      let (t, types) ← decodeVarint types
      Res.require (decide (t.toNat < 3))
      let ms ← memberLoop strings fuel ids roles types id
      .ok ((t.toNat, id, role) :: ms)
    else .ok []

/-- osm_decoder.cpp:536-626 `decode_relation`. -/
def decodeRelation (b : Block) (l : List Byte) (m : TagMap (List Byte)) : Out :=
  after (do
    let fs ← message l
    let id := lastNum 1 (2 ^ 64 - 1) fs
    if id = 2 ^ 64 - 1 then .error else do
      let kv ← pairLoop ((mem (lastStr 2 fs)).length + 1) (mem (lastStr 2 fs)) (mem (lastStr 3 fs))
      let m ← buildTags b.strings kv m
      let members ← memberLoop b.strings ((mem (lastStr 9 fs)).length + 1) (mem (lastStr 9 fs)) (mem (lastStr 8 fs))
        (mem (lastStr 10 fs)) 0
      .ok (OsmEvent.relation (BitVec.ofNat 64 id) members m, m)) fun (e, m) => ([e], .ok m)

/-- Which callbacks are given. -/
structure Wanted where
  node : Bool
  way : Bool
  relation : Bool

/-- osm_decoder.cpp:633-643: the callback for a field of a group. -/
def groupField (c : Wanted) (b : Block) (f : Field) (m : TagMap (List Byte)) : Out :=
  match f with
  | .bytes 1 l => if c.node then sparseNode b l m else ([], .ok m)
  | .bytes 2 l => if c.node then denseNodes b l m else ([], .ok m)
  | .bytes 3 l => if c.way then decodeWay b l m else ([], .ok m)
  | .bytes 4 l => if c.relation then decodeRelation b l m else ([], .ok m)
  | _ => ([], .ok m)

/-- The callbacks for several fields. -/
def groupFields (c : Wanted) (b : Block) : List Field → TagMap (List Byte) → Out
  | [], m => ([], .ok m)
  | f :: fs, m => (groupField c b f m).step (groupFields c b fs)

/-- osm_decoder.cpp:629-644: a group. -/
def decodeGroup (c : Wanted) (b : Block) (l : List Byte) (m : TagMap (List Byte)) : Out :=
  (groupFields c b (decodeMessage (l.length + 1) l).1 m).step fun m =>
    after (decodeMessage (l.length + 1) l).2 fun _ => ([], .ok m)

/-- osm_decoder.cpp:628-645: the loop over the groups. -/
def decodeGroups (c : Wanted) (b : Block) : List (List Byte) → TagMap (List Byte) → Out
  | [], m => ([], .ok m)
  | g :: gs, m => (decodeGroup c b g m).step (decodeGroups c b gs)

/-- osm_decoder.cpp:275-645: one pass of the loop over the blocks, behind the reading. -/
def readBlock (c : Wanted) (l : List Byte) (m : TagMap (List Byte)) : Out :=
  after (decodeBlock l) fun b => decodeGroups c b b.groups m

end Osm
end RK
