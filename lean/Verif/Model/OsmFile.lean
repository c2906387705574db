import Verif.Model.OsmPbf
/-!
# Model of src/osm_decoder.cpp: files

The file is a list of bytes. Both readers deliver a sequential stream (C38); errors of the operating system are not
modelled. `inflate` stands for zlib: the data of a complete stream at the beginning of the input, if there is one.
-/
namespace RK.Osm
open Spec (Field)

/-- osm_decoder.cpp:80-82 `minimum_read_size`, which is also the block size of both readers (line 77). -/
def readSize : Nat := 64 * 2 ^ 20

/-- buffered_asynchronous_reader.cpp:141-175 `read` on the stream `l`: the bytes and the rest; `none` is the null pointer, then
nothing is consumed. -/
def readStream (n : Nat) (l : List Byte) : Res (Option (List Byte × List Byte)) :=
  if n > readSize then .error
  else if n ≤ l.length then .ok (some (l.take n, l.drop n))
  else .ok none

/-- buffered_asynchronous_reader.cpp:177-182 `read_or_throw`. -/
def readOrThrow (n : Nat) (l : List Byte) : Res (List Byte × List Byte) := do
  match ← readStream n l with
  | some x => .ok x
  | none => .error

/-- osm_decoder.cpp:60-65 `unaligned_load<uint32_t>` on a little endian machine. -/
def load32 : List Byte → BitVec 32
  | [a, b, c, d] => a.setWidth 32 ||| b.setWidth 32 <<< 8 ||| c.setWidth 32 <<< 16 ||| d.setWidth 32 <<< 24
  | _ => 0

/-- osm_decoder.cpp:55-58 `unaligned_store<uint32_t>` on a little endian machine. -/
def store32 (x : BitVec 32) : List Byte :=
  [x.setWidth 8, (x >>> 8).setWidth 8, (x >>> 16).setWidth 8, (x >>> 24).setWidth 8]

/-- The function `ntohl` of the system on a little endian machine. -/
def ntohlSystem (x : BitVec 32) : BitVec 32 :=
  (x.setWidth 8).setWidth 32 <<< 24 ||| ((x >>> 8).setWidth 8).setWidth 32 <<< 16 |||
    ((x >>> 16).setWidth 8).setWidth 32 <<< 8 ||| (x >>> 24)

/-- osm_decoder.cpp:33-39 `ntohl`, used if `ROUTING_KIT_ASSUME_LITTLE_ENDIAN` is defined. -/
def ntohlOwn (x : BitVec 32) : BitVec 32 :=
  (x <<< 24) ||| ((x <<< 16) >>> 8) ||| ((x <<< 8) >>> 16) ||| (x >>> 24)

/-- The `ntohl` in use. -/
def ntohl (own : Bool) (x : BitVec 32) : BitVec 32 := if own then ntohlOwn x else ntohlSystem x

/-- osm_decoder.cpp:67-70: the bits of `status`. -/
structure Status where
  available : Bool
  ordered : Bool
  blobRead : Bool
  headerRead : Bool
deriving Repr, DecidableEq

/-- A string constant. -/
def ascii (s : List Char) : List Byte := s.map fun c => BitVec.ofNat 8 c.toNat

/-- osm_decoder.cpp:129: a string constant. -/
def osmData : List Byte := ascii ['O', 'S', 'M', 'D', 'a', 't', 'a']
/-- osm_decoder.cpp:135: a string constant. -/
def osmHeader : List Byte := ascii ['O', 'S', 'M', 'H', 'e', 'a', 'd', 'e', 'r']
/-- osm_decoder.cpp:149: a string constant. -/
def denseNodesName : List Byte := ascii ['D', 'e', 'n', 's', 'e', 'N', 'o', 'd', 'e', 's']
/-- osm_decoder.cpp:152: a string constant. -/
def sortName : List Byte := ascii ['S', 'o', 'r', 't', '.', 'T', 'y', 'p', 'e', '_', 't', 'h', 'e', 'n', '_', 'I', 'D']

/-- osm_decoder.cpp:95-127: the type, the size and what follows the header of a block; `none` at the end of the file. The
comparisons with `strcmp` see the type up to the first zero byte. -/
def blockHead (own : Bool) (l : List Byte) : Res (Option (List Byte × Nat × List Byte)) := do
  match ← readStream 4 l with
  | none => .ok none
  | some (p, l) => do
    let (h, l) ← readOrThrow (ntohl own (load32 p)).toNat l
    let fs ← message h
    let size := lastNum 3 (2 ^ 32 - 1) fs % 2 ^ 32
    let type := ((mem (lastStr 1 fs)).take 15).takeWhile (· ≠ 0)
    if size = 2 ^ 32 - 1 then .error else .ok (some (type, size, l))

/-- `std::equal(s.begin, s.end, lit)` with a string constant, which is followed by a zero byte; it is undefined to read
beyond. -/
def equalLit : List Byte → List Byte → Res Bool
  | [], _ => .ok true
  | a :: s, b :: lit => if a = b then equalLit s lit else .ok false
  | _ :: _, [] => .ub

/-- osm_decoder.cpp:147-155: the callback for the fields of the header. -/
def headerFields : Bool → List Field → Res Bool
  | o, [] => .ok o
  | o, .bytes 4 c :: fs => do
    let e ← equalLit c (denseNodesName ++ [0])
    if e then headerFields o fs else .error
  | o, .bytes 5 c :: fs => do
    let e ← equalLit c (sortName ++ [0])
    headerFields (o || e) fs
  | o, _ :: fs => headerFields o fs

/-- osm_decoder.cpp:141-156: whether the header says that the file is ordered. The code decodes the blob itself. -/
def headerOrdered (b : List Byte) : Res Bool := do
  let (fs, r) := decodeMessage (b.length + 1) b
  let o ← headerFields false fs
  r
  .ok o

/-- What follows one block. -/
inductive Step where
  | done
  | blob (b l : List Byte)
  | again (l : List Byte)

/-- osm_decoder.cpp:94-165: one pass of the loop, with the new value of `status`. -/
def oneBlock (own : Bool) (st : Status) (l : List Byte) : Status × Res Step :=
  match blockHead own l with
  | .error => (st, .error)
  | .ub => (st, .ub)
  | .ok none => (st, .ok .done)
  | .ok (some (t, n, l)) =>
    if t = osmData then
      ({ st with available := true, blobRead := true }, do
        let (b, l) ← readOrThrow n l
        .ok (.blob b l))
    else if t = osmHeader then
      if st.available ∧ (st.blobRead ∨ st.headerRead) then (st, .error)
      else
        match (do
          let (b, l) ← readOrThrow n l
          let o ← headerOrdered b
          .ok (o, l)) with
        | .ok (o, l) => (⟨true, o, false, true⟩, .ok (.again l))
        | .error => (st, .error)
        | .ub => (st, .ub)
    else
      (st, do
        match ← readStream n l with
        | some (_, l) => .ok (.again l)
        | none => .ok (.again l))

/-- osm_decoder.cpp:167-237: the uncompressed content of a blob, preceded by its size. -/
def unblob (inflate : List Byte → Option (List Byte)) (b : List Byte) : Res (List Byte) := do
  let fs ← message b
  let size := lastNum 2 (2 ^ 64 - 1) fs
  match lastStr 1 fs, lastStr 3 fs with
  | some _, some _ => .error
  | none, none => .error
  | some raw, none =>
    if size = 2 ^ 64 - 1 then .error
    else if size > readSize - 4 then .error
    else if size ≠ raw.length then .error
    else .ok (store32 (BitVec.ofNat 32 size) ++ raw)
  | none, some z =>
    if size = 2 ^ 64 - 1 then .error
    else if size > readSize - 4 then .error
    else
      match inflate z with
      | none => .error
      | some d =>
        if d.length > readSize - 4 then .error
        else if d.length ≠ size then .error
        else .ok (store32 (BitVec.ofNat 32 size) ++ d)

/-- osm_decoder.cpp:88-239: all calls of the function object, by the thread of the second reader
(buffered_asynchronous_reader.cpp:89-132): the final value of `status`, the outputs, and how it ends. -/
def decompress (inflate : List Byte → Option (List Byte)) (own : Bool) : Nat → Status → List Byte → Status × List (List Byte) × Res Unit
  | 0, st, _ => (st, [], .ub)
  | fuel + 1, st, l =>
    match oneBlock own st l with
    | (st, .error) => (st, [], .error)
    | (st, .ub) => (st, [], .ub)
    | (st, .ok .done) => (st, [], .ok ())
    | (st, .ok (.again l)) => decompress inflate own fuel st l
    | (st, .ok (.blob b l)) =>
      match unblob inflate b with
      | .error => (st, [], .error)
      | .ub => (st, [], .ub)
      | .ok d =>
        let (st, ds, r) := decompress inflate own fuel st l
        (st, d :: ds, r)

/-- osm_decoder.cpp:264-646: the loop over the blocks of the stream. -/
def blockStream (c : Wanted) : Nat → List Byte → TagMap (List Byte) → Out
  | 0, _, _ => ([], .ub)
  | fuel + 1, l, m =>
    after (readStream 4 l) fun r =>
      match r with
      | none => ([], .ok m)
      | some (p, l) =>
        after (readOrThrow (load32 p).toNat l) fun (b, l) =>
          (readBlock c b m).step (blockStream c fuel l)

/-- osm_decoder.cpp:247-646 `internal_read_osm_pbf` with the outcome `d` of the other thread. If that throws then the
exception is seen between any two blocks, depending on the schedule: after `k` blocks. -/
def internalRead (c : Wanted) (d : List (List Byte) × Res Unit) (k : Nat) : Out :=
  match d.2 with
  | .ok _ => blockStream c (d.1.flatten.length + 1) d.1.flatten TagMap.new
  | .error => (blockStream c ((d.1.take k).flatten.length + 1) (d.1.take k).flatten TagMap.new).step fun _ => ([], .error)
  | .ub => ([], .ub)

/-- The other thread, for the whole file. -/
def decompressFile (inflate : List Byte → Option (List Byte)) (own : Bool) (file : List Byte) : Status × List (List Byte) × Res Unit :=
  decompress inflate own (file.length + 1) ⟨false, false, false, false⟩ file

/-- osm_decoder.cpp:650-663 `unordered_read_osm_pbf`. `k` is the schedule. -/
def unorderedRead (inflate : List Byte → Option (List Byte)) (own : Bool) (c : Wanted) (k : Nat) (file : List Byte) : Out :=
  if c.node ∨ c.way ∨ c.relation then internalRead c (decompressFile inflate own file).2 k else ([], .ub)

/-- osm_decoder.cpp:665-716 `ordered_read_osm_pbf`. `assumeOrdered` is the last parameter, `k` the schedule of the three
passes. The loop in lines 680-683 waits until the bit is set: the outcome is `ub` if that never happens. The other bits do not
change once the first is set, until there is an exception; so the final value of `status` is used. -/
def orderedRead (inflate : List Byte → Option (List Byte)) (own : Bool) (c : Wanted) (assumeOrdered : Bool) (k : Nat → Nat) (file : List Byte) : Out :=
  let d := decompressFile inflate own file
  if c.node ∨ c.way ∨ c.relation then
    if assumeOrdered = false ∧ d.1.available = false then ([], .ub)
    else if assumeOrdered ∨ d.1.ordered then internalRead c d.2 (k 0)
    else
      ((if c.node then internalRead ⟨true, false, false⟩ d.2 (k 0) else ([], .ok TagMap.new)).step fun _ =>
        if c.way then internalRead ⟨false, true, false⟩ d.2 (k 1) else ([], .ok TagMap.new)).step fun _ =>
          if c.relation then internalRead ⟨false, false, true⟩ d.2 (k 2) else ([], .ok TagMap.new)
  else ([], .ub)

end RK.Osm
