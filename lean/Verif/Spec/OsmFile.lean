import Verif.Spec.OsmPbf
/-! # Specification: files in the OpenStreetMap PBF format

https://wiki.openstreetmap.org/wiki/PBF_Format (fileformat.proto). `inflate` is the decompression of zlib.

What is described here are the files that the usual programs write; the format also allows `Node` messages, offsets other
than zero, and uncompressed blobs without their size. -/
namespace Spec

/-- The text as bytes. -/
def text (s : String) : Str := s.toList.map fun c => BitVec.ofNat 8 c.toNat

/-- A 32 bit number, most significant byte first. -/
def bigEndian (n : Nat) : Str :=
  [BitVec.ofNat 8 (n / 2 ^ 24), BitVec.ofNat 8 (n / 2 ^ 16), BitVec.ofNat 8 (n / 2 ^ 8), BitVec.ofNat 8 n]

/-- A block of the file: the size of the header, the header, and the blob. The header has less than 64 KiB, the blob less
than 32 MiB. -/
def FileBlock (type blob l : Str) : Prop :=
  ∃ hd fs, l = bigEndian hd.length ++ hd ++ blob ∧ EncodesMessage EncodesVarint hd fs ∧ hd.length < 2 ^ 16 ∧ blob.length < 2 ^ 25 ∧
    strs 1 fs = [type] ∧ nums 3 fs = [blob.length]

/-- `message Blob`: the content is given as it is or compressed, and its size is given. It has less than 32 MiB. -/
def EncodesBlob (inflate : Str → Option Str) (blob data : Str) : Prop :=
  ∃ fs, EncodesMessage EncodesVarint blob fs ∧ data.length < 2 ^ 25 ∧ nums 2 fs = [data.length] ∧
    strs 4 fs = [] ∧ strs 5 fs = [] ∧
    ((strs 1 fs = [data] ∧ strs 3 fs = []) ∨ (strs 1 fs = [] ∧ ∃ z, strs 3 fs = [z] ∧ inflate z = some data))

/-- The blocks behind the header, and the objects in them. Blocks of unknown types may be present. -/
inductive DataBlocks (inflate : Str → Option Str) : Str → List OsmItem → Prop
  | nil : DataBlocks inflate [] []
  | data {l blob data rest : Str} {h : OsmHeader} {items others : List OsmItem} :
      FileBlock (text "OSMData") blob l → EncodesBlob inflate blob data → h.latOffset = 0 → h.lonOffset = 0 →
      EncodesBlock h false data items → DataBlocks inflate rest others → DataBlocks inflate (l ++ rest) (items ++ others)
  | other {l type blob rest : Str} {items : List OsmItem} :
      FileBlock type blob l → (0 : BitVec 8) ∉ type → type ≠ text "OSMData" → type ≠ text "OSMHeader" →
      DataBlocks inflate rest items → DataBlocks inflate (l ++ rest) items

/-- A file: a header block and data blocks. The header names the features a reader must have and those it may use. -/
def EncodesFile (inflate : Str → Option Str) (required optional : List Str) (l : Str) (items : List OsmItem) : Prop :=
  ∃ l1 l2 blob data fs, l = l1 ++ l2 ∧ FileBlock (text "OSMHeader") blob l1 ∧ EncodesBlob inflate blob data ∧
    EncodesMessage EncodesVarint data fs ∧ strs 4 fs = required ∧ strs 5 fs = optional ∧ DataBlocks inflate l2 items

end Spec
