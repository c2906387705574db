import Verif.Model.OsmFloat
import Verif.Model.OsmTurns
/-!
# Model of src/osm_decoder.cpp and src/osm_graph_builder.cpp with the coordinates as `double`

`Model/OsmPbf.lean` and `Model/OsmFile.lean` have the coordinates as whole numbers of nanodegrees. Here they are computed as the code does, in IEEE 754
arithmetic. `contract` tells whether the compiler fuses a product with the following sum. Overflow is not modelled: the numbers are below `10^29`, and the
smallest one that is not zero is above `10^-10`. Everything that does not depend on coordinates is used as it is.
-/
namespace RK.Osm
open Spec (Field)
open Ieee

/-- A call of a callback. -/
inductive DoubleEvent where
  | node (id : Word) (lat lon : ℝ) (tags : TagMap (List Byte))
  /-- A call of the callbacks for ways and relations. -/
  | other (e : OsmEvent)

/-- The calls of the callbacks, and how the function ends. -/
abbrev DoubleOut := List DoubleEvent × Res (TagMap (List Byte))

/-- Sequential composition. -/
def DoubleOut.step (o : DoubleOut) (f : TagMap (List Byte) → DoubleOut) : DoubleOut :=
  match o.2 with
  | .ok m => (o.1 ++ (f m).1, (f m).2)
  | .error => (o.1, .error)
  | .ub => (o.1, .ub)

/-- A part without callbacks followed by one with callbacks. -/
def afterDouble {α : Type} (r : Res α) (f : α → DoubleOut) : DoubleOut :=
  match r with
  | .ok a => f a
  | .error => ([], .error)
  | .ub => ([], .ub)

/-- The calls of a part that only calls the callbacks for ways and relations. -/
def Out.toDouble (o : Out) : DoubleOut := (o.1.map .other, o.2)

/-- osm_decoder.cpp:318: `primblock_lon_offset`, as a `double`. -/
noncomputable def Block.lonOffsetDouble (b : Block) : ℝ := dbl (dbl 0.000000001 * dbl b.offsetLat)

/-- osm_decoder.cpp:319: `primblock_lat_offset`, as a `double`. -/
noncomputable def Block.latOffsetDouble (b : Block) : ℝ := dbl (dbl 0.000000001 * dbl b.offsetLon)

/-- osm_decoder.cpp:320: `primblock_granularity`. -/
noncomputable def Block.granularityDouble (b : Block) : ℝ := dbl (dbl 0.000000001 * dbl b.granularity)

/-- `offset + granularity * k`; the integer is converted to `double`. -/
noncomputable def scaledDouble (contract : Bool) (offset granularity : ℝ) (k : Int) : ℝ :=
  if contract then dbl (offset + granularity * dbl k) else dbl (offset + dbl (granularity * dbl k))

/-- osm_decoder.cpp:322-381 `decode_sparse_node`. -/
noncomputable def sparseNodeDouble (contract : Bool) (b : Block) (l : List Byte) (m : TagMap (List Byte)) : DoubleOut :=
  afterDouble (do
    let fs ← message l
    let id := lastNum 1 (2 ^ 64 - 1) fs
    let lat := fs.foldl (fun a f => match f with
      | .varint i x => if i = 19 then scaledDouble contract b.lonOffsetDouble b.granularityDouble (zigzagDecode (BitVec.ofNat 64 x)) else a
      | _ => a) 0
    let lon := fs.foldl (fun a f => match f with
      | .varint i x => if i = 20 then scaledDouble contract b.latOffsetDouble b.granularityDouble (zigzagDecode (BitVec.ofNat 64 x)) else a
      | _ => a) 0
    if id = 2 ^ 64 - 1 then .error else do
      let kv ← pairLoop ((mem (lastStr 2 fs)).length + 1) (mem (lastStr 2 fs)) (mem (lastStr 3 fs))
      let m ← buildTags b.strings kv m
      .ok (DoubleEvent.node (BitVec.ofNat 64 id) lat lon m, m)) fun (e, m) => ([e], .ok m)

/-- osm_decoder.cpp:384-388, 420-421: the local variables of `decode_dense_node`, and `tag_map`. -/
structure DoubleState where
  ids : List Byte
  lats : List Byte
  lons : List Byte
  kvs : Option (List Byte)
  id : Word
  lat : ℝ
  lon : ℝ
  tags : TagMap (List Byte)

/-- osm_decoder.cpp:422-452: one pass of the loop of `decode_dense_node` up to the callback. -/
noncomputable def densePassDouble (contract : Bool) (b : Block) (s : DoubleState) : Res DoubleState := do
  let (x, ids) ← decodeVarint s.ids
  let (y, lats) ← decodeVarint s.lats
  let (z, lons) ← decodeVarint s.lons
  let id := s.id + BitVec.ofInt 64 (zigzagDecode x)
  let lat := dbl (s.lat + scaledDouble contract b.lonOffsetDouble b.granularityDouble (zigzagDecode y))
  let lon := dbl (s.lon + scaledDouble contract b.lonOffsetDouble b.granularityDouble (zigzagDecode z))
  match s.kvs with
  | none => .ok ⟨ids, lats, lons, none, id, lat, lon, s.tags⟩
  | some kvs => do
    let (kv, kvs) ← denseTags (kvs.length + 1) kvs
    let tags ← buildTags b.strings kv s.tags
    .ok ⟨ids, lats, lons, some kvs, id, lat, lon, tags⟩

/-- osm_decoder.cpp:422-460: the loop of `decode_dense_node` and the checks behind it. -/
noncomputable def denseLoopDouble (contract : Bool) (b : Block) : Nat → DoubleState → DoubleOut
  | 0, _ => ([], .ub)
  | fuel + 1, s =>
    if s.ids ≠ [] then
      afterDouble (densePassDouble contract b s) fun s =>
        DoubleOut.step ([.node s.id s.lat s.lon s.tags], .ok s.tags) fun _ => denseLoopDouble contract b fuel s
    else if s.lats ≠ [] ∨ s.lons ≠ [] ∨ mem s.kvs ≠ [] then ([], .error)
    else ([], .ok s.tags)

/-- osm_decoder.cpp:383-463 `decode_dense_node`. -/
noncomputable def denseNodesDouble (contract : Bool) (b : Block) (l : List Byte) (m : TagMap (List Byte)) : DoubleOut :=
  afterDouble (do
    let fs ← message l
    match lastStr 1 fs, lastStr 8 fs, lastStr 9 fs with
    | some ids, some lats, some lons => do
      let m ← Res.ofOption m.clear
      .ok (⟨ids, lats, lons, lastStr 10 fs, 0, 0, 0, m⟩ : DoubleState)
    | _, _, _ => .error) fun s => denseLoopDouble contract b (s.ids.length + 1) s

/-- osm_decoder.cpp:633-643: the callback for a field of a group. -/
noncomputable def groupFieldDouble (contract : Bool) (c : Wanted) (b : Block) (f : Field) (m : TagMap (List Byte)) : DoubleOut :=
  match f with
  | .bytes 1 l => if c.node then sparseNodeDouble contract b l m else ([], .ok m)
  | .bytes 2 l => if c.node then denseNodesDouble contract b l m else ([], .ok m)
  | .bytes 3 l => if c.way then (decodeWay b l m).toDouble else ([], .ok m)
  | .bytes 4 l => if c.relation then (decodeRelation b l m).toDouble else ([], .ok m)
  | _ => ([], .ok m)

/-- The callbacks for several fields. -/
noncomputable def groupFieldsDouble (contract : Bool) (c : Wanted) (b : Block) : List Field → TagMap (List Byte) → DoubleOut
  | [], m => ([], .ok m)
  | f :: fs, m => (groupFieldDouble contract c b f m).step (groupFieldsDouble contract c b fs)

/-- osm_decoder.cpp:629-644: a group. -/
noncomputable def decodeGroupDouble (contract : Bool) (c : Wanted) (b : Block) (l : List Byte) (m : TagMap (List Byte)) : DoubleOut :=
  (groupFieldsDouble contract c b (decodeMessage (l.length + 1) l).1 m).step fun m =>
    afterDouble (decodeMessage (l.length + 1) l).2 fun _ => ([], .ok m)

/-- osm_decoder.cpp:628-645: the loop over the groups. -/
noncomputable def decodeGroupsDouble (contract : Bool) (c : Wanted) (b : Block) : List (List Byte) → TagMap (List Byte) → DoubleOut
  | [], m => ([], .ok m)
  | g :: gs, m => (decodeGroupDouble contract c b g m).step (decodeGroupsDouble contract c b gs)

/-- osm_decoder.cpp:275-645: one pass of the loop over the blocks, behind the reading. -/
noncomputable def readBlockDouble (contract : Bool) (c : Wanted) (l : List Byte) (m : TagMap (List Byte)) : DoubleOut :=
  afterDouble (decodeBlock l) fun b => decodeGroupsDouble contract c b b.groups m

/-- osm_decoder.cpp:264-646: the loop over the blocks of the stream. -/
noncomputable def blockStreamDouble (contract : Bool) (c : Wanted) : Nat → List Byte → TagMap (List Byte) → DoubleOut
  | 0, _, _ => ([], .ub)
  | fuel + 1, l, m =>
    afterDouble (readStream 4 l) fun r =>
      match r with
      | none => ([], .ok m)
      | some (p, l) =>
        afterDouble (readOrThrow (load32 p).toNat l) fun (b, l) =>
          (readBlockDouble contract c b m).step (blockStreamDouble contract c fuel l)

/-- osm_decoder.cpp:247-646 `internal_read_osm_pbf`, see `internalRead`. -/
noncomputable def internalReadDouble (contract : Bool) (c : Wanted) (d : List (List Byte) × Res Unit) (k : Nat) : DoubleOut :=
  match d.2 with
  | .ok _ => blockStreamDouble contract c (d.1.flatten.length + 1) d.1.flatten TagMap.new
  | .error => (blockStreamDouble contract c ((d.1.take k).flatten.length + 1) (d.1.take k).flatten TagMap.new).step fun _ => ([], .error)
  | .ub => ([], .ub)

/-- osm_decoder.cpp:650-663 `unordered_read_osm_pbf`, see `unorderedRead`. -/
noncomputable def unorderedReadDouble (contract : Bool) (inflate : List Byte → Option (List Byte)) (own : Bool) (c : Wanted) (k : Nat) (file : List Byte) :
    DoubleOut :=
  if c.node ∨ c.way ∨ c.relation then internalReadDouble contract c (decompressFile inflate own file).2 k else ([], .ub)

/-- osm_decoder.cpp:665-716 `ordered_read_osm_pbf`, see `orderedRead`. -/
noncomputable def orderedReadDouble (contract : Bool) (inflate : List Byte → Option (List Byte)) (own : Bool) (c : Wanted) (assumeOrdered : Bool)
    (k : Nat → Nat) (file : List Byte) : DoubleOut :=
  let d := decompressFile inflate own file
  if c.node ∨ c.way ∨ c.relation then
    if assumeOrdered = false ∧ d.1.available = false then ([], .ub)
    else if assumeOrdered ∨ d.1.ordered then internalReadDouble contract c d.2 (k 0)
    else
      ((if c.node then internalReadDouble contract ⟨true, false, false⟩ d.2 (k 0) else ([], .ok TagMap.new)).step fun _ =>
        if c.way then internalReadDouble contract ⟨false, true, false⟩ d.2 (k 1) else ([], .ok TagMap.new)).step fun _ =>
          if c.relation then internalReadDouble contract ⟨false, false, true⟩ d.2 (k 2) else ([], .ok TagMap.new)
  else ([], .ub)

/-! ### The graph builder -/

variable {fl : FloatOps} {σ : Type}

/-- osm_graph_builder.cpp:222-228, the callback for nodes. `ofDouble` is the conversion from `double` to `float`. -/
def scanNodeDouble (ofDouble : ℝ → fl.F) (mp : Mappers) (s : Scan fl σ) (id : Nat) (lat lon : ℝ) : Option (Scan fl σ) := do
  let m ← mp.modelling.base.toLocalOr id invalidId
  let m := m % u32
  if m = invalidId then some s
  else do
    let la ← wr s.lat m (ofDouble lat)
    let lo ← wr s.lon m (ofDouble lon)
    some { s with lat := la, lon := lo }

/-- osm_graph_builder.cpp:220-289: the callbacks. -/
def scanEventDouble (ofDouble : ℝ → fl.F) (geo : Geometry) (mp : Mappers) (cb : WayCallback σ) (decoder : Option RestrictionDecoder) (s : Scan fl σ) :
    DoubleEvent → Option (Scan fl σ)
  | .node id lat lon _ => scanNodeDouble ofDouble mp s id.toNat lat lon
  | .other e => scanEvent geo mp cb decoder s e

/-- The callbacks are called in the order of the events. -/
def DoubleOut.run {τ : Type} (o : DoubleOut) (s : τ) (f : τ → DoubleEvent → Option τ) : Res τ :=
  match forEach o.1 s f with
  | none => .ub
  | some s =>
    match o.2 with
    | .ok _ => .ok s
    | .error => .error
    | .ub => .ub

/-- osm_graph_builder.cpp:116-830 `load_osm_routing_graph_from_pbf`, see `loadGraph`. -/
noncomputable def loadGraphDouble (contract : Bool) (fl : FloatOps) (ofDouble : ℝ → fl.F) (debug : Bool) (inflate : List Byte → Option (List Byte)) (own : Bool)
    (k : Nat → Nat) (stdSort : SortFn) (junk : Nat → Word) (m : IdMapping) (cb : WayCallback σ) (user : σ) (decoder : Option RestrictionDecoder)
    (assumeOrdered : Bool) (geo : Geometry) (file : List Byte) : Res (RoutingGraph fl × σ) := do
  Res.ofOption (assertMapping debug m)
  let geo := wantedGeometry decoder geo
  let mp ← Res.ofOption (Mappers.new m)
  let s ← (orderedReadDouble contract inflate own ⟨true, true, decoder.isSome⟩ assumeOrdered k file).run (Scan.start mp user)
    (scanEventDouble ofDouble geo mp cb decoder)
  Res.ofOption (finishGraph stdSort junk geo mp s)

end RK.Osm
