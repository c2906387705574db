import Verif.Model.VectorIO
import Verif.Model.ChBuild
import Verif.Model.Permutation
/-!
# Model of reading and writing contraction hierarchies (contraction_hierarchy.cpp:1290-1424)

A data sink (or output stream) receives a sequence of byte strings; a data source (or input stream) is the list of bytes
that are still to be read, and throws if it has less bytes than requested. `unsigned` arithmetic wraps.
-/
namespace RK

/-- contraction_hierarchy.cpp:1291 `ch_magic_number`. -/
def chMagic : Nat := 0x436f6e7448696572

/-- contraction_hierarchy.cpp:1293-1298 `CHFileHeader`. -/
structure ChHeader where
  magic : Nat
  nodeCount : Nat
  forwardArcCount : Nat
  backwardArcCount : Nat
deriving Repr, DecidableEq

/-- The memory representation of a header: 20 bytes and 4 bytes of padding, whose content is indeterminate. -/
def ChHeader.enc (pad : List Byte) (h : ChHeader) : List Byte :=
  leBytes 8 h.magic ++ leBytes 4 h.nodeCount ++ leBytes 4 h.forwardArcCount ++ leBytes 4 h.backwardArcCount ++ pad

/-- The header with memory representation `l`. -/
def ChHeader.dec (l : List Byte) : ChHeader :=
  ⟨leVal (l.take 8), leVal ((l.drop 8).take 4), leVal ((l.drop 12).take 4), leVal ((l.drop 16).take 4)⟩

/-- contraction_hierarchy.cpp:1411-1416 and 1418-1423: the calls of the sink for one direction. -/
def writeSide (hardened : Bool) (s : ChSide) : Res (List (List Byte)) := do
  let a ← writeVector hardened podUnsigned s.firstOut
  let b ← writeVector hardened podUnsigned s.head
  let c ← writeVector hardened podUnsigned s.weight
  let d ← writeBitVector s.isOriginal
  let e ← writeVector hardened podUnsigned s.first
  let f ← writeVector hardened podUnsigned s.second
  .ok [a, b, c, d, e, f]

/-- contraction_hierarchy.cpp:1402-1406. -/
def Ch.header (ch : Ch) : ChHeader :=
  ⟨chMagic, add32 ch.forward.firstOut.length invalidId, ch.forward.head.length % u32, ch.backward.head.length % u32⟩

/-- contraction_hierarchy.cpp:1401-1424 `ContractionHierarchy::write`: the calls of the sink. `pad` is the padding of the
header. -/
def writeCh (hardened : Bool) (pad : List Byte) (ch : Ch) : Res (List (List Byte)) := do
  let r ← writeVector hardened podUnsigned ch.rank
  let f ← writeSide hardened ch.forward
  let b ← writeSide hardened ch.backward
  .ok ([ch.header.enc pad, r] ++ f ++ b)

/-- contraction_hierarchy.cpp:1321-1328 `write` to a stream: every call is checked. -/
def writeChunks : OStream → List (List Byte) → Res OStream
  | o, [] => .ok o
  | o, l :: ls => do
    let o := o.write l
    Res.require o.good
    writeChunks o ls

/-- contraction_hierarchy.cpp:1336-1338 `save_file` (with vector_io.h:155-161 `open_file_for_saving`): the content of the
file. -/
def saveCh (hardened : Bool) (pad : List Byte) (d : Disk) (ch : Ch) : Res (List Byte) := do
  Res.require d.canOpen
  let ls ← writeCh hardened pad ch
  let o ← writeChunks d.opened ls
  .ok o.close

/-- contraction_hierarchy.cpp:1351-1356 and 1358-1363. -/
def readSide (hardened : Bool) (src : List Byte) (nodeCount arcCount : Nat) : Res (ChSide × List Byte) := do
  let (firstOut, src) ← readVector hardened podUnsigned src (add32 nodeCount 1)
  let (head, src) ← readVector hardened podUnsigned src arcCount
  let (weight, src) ← readVector hardened podUnsigned src arcCount
  let (bits, src) ← readBitVector src arcCount
  let (first, src) ← readVector hardened podUnsigned src arcCount
  let (second, src) ← readVector hardened podUnsigned src arcCount
  .ok (⟨firstOut, head, weight, first, second, bits⟩, src)

/-- contraction_hierarchy.cpp:1346-1366 `finish_read`. `invert_permutation` asserts that the ranks are a permutation. -/
def finishRead (hardened : Bool) (src : List Byte) (h : ChHeader) : Res (Ch × List Byte) := do
  let (rank, src) ← readVector hardened podUnsigned src h.nodeCount
  let order ← Res.ofOption (invertPermutation rank)
  let (fwd, src) ← readSide hardened src h.nodeCount h.forwardArcCount
  let (bwd, src) ← readSide hardened src h.nodeCount h.backwardArcCount
  .ok (⟨rank, order, fwd, bwd⟩, src)

/-- contraction_hierarchy.cpp:1370-1371, 1396-1397 and 1341-1344 `check_header`. -/
def readHeader (src : List Byte) : Res (ChHeader × List Byte) := do
  let (l, src) ← readBytes src 24
  Res.require (decide ((ChHeader.dec l).magic = chMagic))
  .ok (ChHeader.dec l, src)

/-- contraction_hierarchy.cpp:1374-1386: the factor of `sizeof(unsigned)`, an `unsigned` expression. -/
def headerWords (h : ChHeader) : Nat :=
  add32 (add32 h.nodeCount (add32 (add32 h.nodeCount 1) (mul32 4 h.forwardArcCount)))
    (add32 (add32 h.nodeCount 1) (mul32 4 h.backwardArcCount))

/-- contraction_hierarchy.cpp:1387 and 1388: the bytes of a bit vector, an `unsigned` expression. -/
def headerBits (arcCount : Nat) : Nat := mul32 (add32 arcCount 511 / 512) 64

/-- contraction_hierarchy.cpp:1372-1389: the sum has 64 bits. -/
def expectedSize (h : ChHeader) : Nat :=
  24 + 4 * headerWords h + headerBits h.backwardArcCount + headerBits h.forwardArcCount

/-- contraction_hierarchy.cpp:1395-1399 `read`: the hierarchy and the rest of the stream. -/
def readCh (hardened : Bool) (src : List Byte) : Res (Ch × List Byte) := do
  let (h, src) ← readHeader src
  finishRead hardened src h

/-- contraction_hierarchy.cpp:1369-1393 `read` with the size of the file. -/
def readChSized (hardened : Bool) (src : List Byte) (fileSize : Nat) : Res (Ch × List Byte) := do
  let (h, src) ← readHeader src
  Res.require (decide (expectedSize h = fileSize))
  finishRead hardened src h

/-- contraction_hierarchy.cpp:1330-1334 `load_file` (with vector_io.h:163-173 `open_file_for_loading`). -/
def loadCh (hardened : Bool) (file : Option (List Byte)) : Res Ch :=
  match file with
  | none => .error
  | some f => do
    let (ch, _) ← readChSized hardened f f.length
    .ok ch

end RK
