import Verif.Proof.OsmDefinedFile
import Verif.Props.OsmPbf
/-!
# C80: arbitrary bytes as an OpenStreetMap file

`Verif/Spec/OsmDefined.lean` says which contents of a file are neither correct nor refused. For all other bytes the functions
return or throw: the outcome `ub` also stands for an endless loop.
-/
namespace RK
open Spec Osm

/-- C80: decoding an uncompressed block. The size is limited by the reader. -/
theorem C80_block {c : Wanted} {d : List Byte} (hd : d.length ≤ 2 ^ 26) (h : (readBlock c d TagMap.new).2 = .ub) : UnclearBlock d :=
  (readBlock_defined (by omega) tagSafe_new).1 h

/-- C80: `unordered_read_osm_pbf` returns or throws, whatever the file contains, unless something in it is unclear. -/
theorem C80_unordered {inflate : List Byte → Option (List Byte)} {own : Bool} {c : Wanted} {k : Nat} {file : List Byte}
    (hc : c.node ∨ c.way ∨ c.relation) (h : (unorderedRead inflate own c k file).2 = .ub) : UnclearFile inflate file := by
  unfold unorderedRead at h
  rw [if_pos hc] at h
  exact (internalRead_defined c k).1 h

/-- C80: `ordered_read_osm_pbf` returns or throws unless something in the file is unclear or (if it has to find out whether the
file is ordered) the file has nothing that `unordered_read_osm_pbf` would report. -/
theorem C80_ordered {inflate : List Byte → Option (List Byte)} {own : Bool} {c : Wanted} {assumeOrdered : Bool} {k : Nat → Nat} {file : List Byte}
    (hc : c.node ∨ c.way ∨ c.relation) (h : (orderedRead inflate own c assumeOrdered k file).2 = .ub) :
    UnclearFile inflate file ∨ assumeOrdered = false ∧ ∀ c k, (unorderedRead inflate own c k file).1 = [] := by
  unfold orderedRead at h
  simp only [if_pos hc] at h
  by_cases ha : assumeOrdered = false ∧ (decompressFile inflate own file).1.available = false
  · exact .inr ⟨ha.1, fun c k => decompress_nothing ha.2 c k⟩
  · rw [if_neg ha] at h
    left
    have safe := fun c k => internalRead_defined (inflate := inflate) (own := own) (file := file) c k
    split at h
    · exact (safe _ _).1 h
    · refine (safeOut_step (safeOut_step ?_ fun _ _ => ?_) fun _ _ => ?_).1 h
      · split
        · exact safe _ _
        · exact safeOut_ok tagSafe_new
      · split
        · exact safe _ _
        · exact safeOut_ok tagSafe_new
      · split
        · exact safe _ _
        · exact safeOut_ok tagSafe_new

/-- C80, the other way round: nothing in the file is unclear. Then there is an outcome, for every schedule. -/
theorem C80_outcome {inflate : List Byte → Option (List Byte)} {own : Bool} {c : Wanted} {k : Nat} {file : List Byte}
    (hc : c.node ∨ c.way ∨ c.relation) (h : ¬ UnclearFile inflate file) :
    (∃ m, (unorderedRead inflate own c k file).2 = .ok m) ∨ (unorderedRead inflate own c k file).2 = .error := by
  cases e : (unorderedRead inflate own c k file).2 with
  | ok m => exact .inl ⟨m, rfl⟩
  | error => exact .inr rfl
  | ub => exact absurd (C80_unordered hc e) h

/-- A header and a block with the strings of the example, and no groups; behind it a block that ends too early. -/
def exDamaged : List Byte :=
  let hb := smallMessage [.bytes 6 []]
  let hh := smallMessage [.bytes 1 (text "OSMHeader"), .varint 3 hb.length]
  let d := smallMessage [.bytes 1 (smallMessage (exStrings.map (Field.bytes 1)))]
  let db := smallMessage [.varint 2 d.length, .bytes 1 d]
  let dh := smallMessage [.bytes 1 (text "OSMData"), .varint 3 db.length]
  bigEndian hh.length ++ hh ++ hb ++ (bigEndian dh.length ++ dh ++ db) ++ bigEndian dh.length ++ dh.take 3

/-- The hypothesis of `C80_outcome` is satisfiable, by a damaged file. -/
example : ¬ UnclearFile (fun _ => none) exDamaged :=
  plain_file (show ∀ b ∈ exDamaged, b.toNat < 128 ∧ b ≠ 18#8 by decide +kernel) (by decide +kernel) (by decide +kernel)

/-- The hypothesis of `C80_block` is satisfiable: the way has the tag 3 = 1, and the block has three strings. -/
example : (readBlock ⟨true, true, true⟩ (smallMessage [.bytes 1 (smallMessage (exStrings.map (Field.bytes 1))),
    .bytes 2 (smallMessage [.bytes 3 (smallMessage [.varint 1 7, .bytes 2 [3#8], .bytes 3 [1#8]])])]) TagMap.new).2 = .ub := by
  decide +kernel

/-- A file with this block: the hypotheses of `C80_unordered` and `C80_ordered` are satisfiable. -/
def exUnclear : List Byte :=
  let d := smallMessage [.bytes 1 (smallMessage (exStrings.map (Field.bytes 1))),
    .bytes 2 (smallMessage [.bytes 3 (smallMessage [.varint 1 7, .bytes 2 [3#8], .bytes 3 [1#8]])])]
  let db := smallMessage [.varint 2 d.length, .bytes 1 d]
  let dh := smallMessage [.bytes 1 (text "OSMData"), .varint 3 db.length]
  bigEndian dh.length ++ dh ++ db

example : (unorderedRead (fun _ => none) false ⟨true, true, true⟩ 0 exUnclear).2 = .ub ∧
    (orderedRead (fun _ => none) false ⟨true, true, true⟩ false (fun _ => 0) exUnclear).2 = .ub := by
  decide +kernel

/-- An empty file is clear, but `ordered_read_osm_pbf` waits forever (`C56_empty_file_never_returns`). -/
example : ¬ UnclearFile (fun _ => none) [] := plain_file (fun b h => by cases h) (by decide) (by decide)

end RK
