import Verif.Proof.OsmFile
/-!
# C45, C55 and C56: reading OpenStreetMap files

The specification of the format is in `Verif/Spec/OsmPbf.lean` and `Verif/Spec/OsmFile.lean`; `Verif/Spec/OsmReport.lean`
says when a call of a callback reports an object. The outcome of a function is the list of the calls and how it ends:
`ok`, `error` (an exception), `ub` (undefined behaviour or an endless loop).

Coordinates are exact multiples of a nanodegree (the rounding of `double` is not modelled).
-/
namespace RK
open Spec Osm

/-! ### Small encodings, for the examples -/

/-- An encoding of a message all of whose numbers are below 128. -/
def smallMessage : List Field → List Byte
  | [] => []
  | .varint k x :: fs => BitVec.ofNat 8 (8 * k) :: BitVec.ofNat 8 x :: smallMessage fs
  | .bytes k c :: fs => BitVec.ofNat 8 (8 * k + 2) :: BitVec.ofNat 8 c.length :: (c ++ smallMessage fs)
  | _ :: fs => smallMessage fs

/-- The fields for which `smallMessage` is an encoding. -/
def smallField : Field → Bool
  | .varint k x => decide (8 * k < 128) && decide (x < 128)
  | .bytes k c => decide (8 * k + 2 < 128) && decide (c.length < 128)
  | _ => false

theorem smallVarint {x : Nat} (h : x < 128) : EncodesVarint [BitVec.ofNat 8 x] x := by
  have e : (BitVec.ofNat 8 x).toNat = x := by rw [BitVec.toNat_ofNat]; omega
  refine ⟨⟨[], BitVec.ofNat 8 x, rfl, (fun b hb => by cases hb), by omega⟩, by simp, ?_, by omega⟩
  simp only [varintValue, e]
  omega

theorem smallMessage_ok : ∀ {fs : List Field}, (∀ f ∈ fs, smallField f = true) → EncodesMessage EncodesVarint (smallMessage fs) fs
  | [], _ => .nil
  | .varint k x :: fs, h => by
    have hf := h _ List.mem_cons_self
    simp only [smallField, Bool.and_eq_true, decide_eq_true_eq] at hf
    exact .cons (l := [BitVec.ofNat 8 (8 * k), BitVec.ofNat 8 x]) (m := smallMessage fs)
      ⟨_, _, rfl, smallVarint hf.1, smallVarint hf.2⟩ (smallMessage_ok fun f hf => h f (List.mem_cons_of_mem _ hf))
  | .bytes k c :: fs, h => by
    have hf := h _ List.mem_cons_self
    simp only [smallField, Bool.and_eq_true, decide_eq_true_eq] at hf
    exact .cons (l := BitVec.ofNat 8 (8 * k + 2) :: BitVec.ofNat 8 c.length :: c) (m := smallMessage fs)
      ⟨_, _, rfl, smallVarint hf.1, smallVarint hf.2⟩ (smallMessage_ok fun f hf => h f (List.mem_cons_of_mem _ hf))
  | .fixed64 k c :: fs, h => by have hf := h _ List.mem_cons_self; cases hf
  | .fixed32 k c :: fs, h => by have hf := h _ List.mem_cons_self; cases hf

theorem smallPacked : ∀ {xs : List Nat}, (∀ x ∈ xs, x < 128) → EncodesPacked (xs.map (BitVec.ofNat 8)) xs
  | [], _ => .nil
  | x :: xs, h => .cons (v := [BitVec.ofNat 8 x]) (smallVarint (h x List.mem_cons_self))
      (smallPacked fun y hy => h y (List.mem_cons_of_mem _ hy))

/-- The strings of the example: the empty string, "k", "v". -/
def exStrings : List Str := [[], text "k", text "v"]

/-- The way 7 with the nodes 3, 5, 4 and the tag k = v. -/
def exWay : List Byte := smallMessage [.varint 1 7, .bytes 2 [1#8], .bytes 3 [2#8], .bytes 8 [6#8, 4#8, 1#8]]

theorem exWay_ok : EncodesWay exStrings exWay 7 [3, 5, 4] [(text "k", text "v")] :=
  ⟨_, [(1, 2)], smallMessage_ok (by decide), by decide, by decide, Or.inr ⟨_, by decide, smallPacked (xs := [1]) (by decide)⟩,
    Or.inr ⟨_, by decide, smallPacked (xs := [2]) (by decide)⟩, ⟨by decide, .cons ⟨rfl, rfl⟩ .nil⟩,
    Or.inr ⟨_, by decide, smallPacked (xs := [6, 4, 1]) (by decide)⟩⟩

/-- The relation 9 with the way 7 as member, its role is "v". -/
def exRelation : List Byte := smallMessage [.varint 1 9, .bytes 8 [2#8], .bytes 9 [14#8], .bytes 10 [1#8]]

theorem exRelation_ok : EncodesRelation exStrings exRelation 9 [(1, 7, text "v")] [] :=
  ⟨_, [], [2], smallMessage_ok (by decide), by decide, by decide, Or.inl ⟨by decide, rfl⟩, Or.inl ⟨by decide, rfl⟩, ⟨by decide, .nil⟩,
    Or.inr ⟨_, by decide, smallPacked (xs := [2]) (by decide)⟩, .cons rfl .nil,
    Or.inr ⟨_, by decide, smallPacked (xs := [14]) (by decide)⟩, Or.inr ⟨_, by decide, smallPacked (xs := [1]) (by decide)⟩, by decide⟩

/-- Two nodes without tags, 3 and 5. -/
def exDense : List Byte := smallMessage [.bytes 1 [6#8, 4#8], .bytes 8 [20#8, 2#8], .bytes 9 [40#8, 1#8]]

/-- The values of the coordinates are (10, 20) and (11, 19). -/
def exNodes : List DenseNode := [⟨3, 10, 20, [], []⟩, ⟨5, 11, 19, [], []⟩]

theorem exDense_ok : EncodesDense exStrings exDense exNodes :=
  ⟨_, _, _, _, smallMessage_ok (by decide), by decide, smallPacked (xs := [6, 4]) (by decide), by decide, smallPacked (xs := [20, 2]) (by decide),
    by decide, smallPacked (xs := [40, 1]) (by decide), Or.inl ⟨by decide, by decide⟩, by
      intro n hn
      simp only [exNodes, List.mem_cons, List.not_mem_nil, or_false] at hn
      rcases hn with rfl | rfl <;> exact ⟨⟨by decide, .nil⟩, by simp⟩⟩

/-- A block with the two nodes, the way and the relation. -/
def exBlock : List Byte :=
  smallMessage [.bytes 1 (smallMessage (exStrings.map (Field.bytes 1))),
    .bytes 2 (smallMessage [.bytes 2 exDense, .bytes 3 exWay]), .bytes 2 (smallMessage [.bytes 4 exRelation])]

/-- The objects in the block. -/
def exItems : List OsmItem :=
  [.node 3 1000 2000 [], .node 5 1100 1900 [], .way 7 [3, 5, 4] [(text "k", text "v")], .relation 9 [(1, 7, text "v")] []]

theorem exGroup : GroupIs ⟨exStrings, 100, 0, 0⟩ false [.bytes 2 exDense, .bytes 3 exWay] (exItems.take 3) :=
  GroupIs.dense (h := ⟨exStrings, 100, 0, 0⟩) (nodes := exNodes) (items := [.way 7 [3, 5, 4] [(text "k", text "v")]]) exDense_ok
    (.way exWay_ok .nil)

theorem exBlock_ok : EncodesBlock ⟨exStrings, 100, 0, 0⟩ false exBlock exItems :=
  ⟨_, _, [exItems.take 3, exItems.drop 3], smallMessage_ok (by decide), by decide, smallMessage_ok (by decide), by decide, by decide, Or.inl ⟨by decide, rfl⟩,
    by decide, by decide, by decide, Or.inl ⟨by decide, by decide⟩, Or.inl ⟨by decide, by decide⟩,
    .cons ⟨_, smallMessage_ok (by decide), exGroup⟩
      (.cons ⟨_, smallMessage_ok (by decide), .relation exRelation_ok .nil⟩ .nil), rfl⟩

/-! ### C45 Coordinates -/

/-- C45 for dense nodes, if the offsets of the block are zero: every node of every valid `DenseNodes` message is reported
with its id, with `granularity * value` as coordinates, and with its tags. The full statement wants
`offset + granularity * value` for all offsets, which is false: `C45_dense_offsets_violated`. -/
theorem C45_dense_partial {b : Block} (hs : b.strings.length < 2 ^ 32) (h0 : b.offsetLat = 0) {l : List Byte} {nodes : List DenseNode}
    (h : EncodesDense b.strings l nodes) : ∃ es m', denseNodes b l TagMap.new = (es, .ok m') ∧
      List.Forall₂ Reported es (nodes.map fun n => .node n.id (b.granularity * n.lat) (b.granularity * n.lon) n.tags) := by
  obtain ⟨es, m', e, _, hr⟩ := denseNodes_zero hs h0 h tagClean_new
  exact ⟨es, m', e, hr⟩

/-- C45 is violated by offsets: for all offsets the `i`-th node (from zero) is reported at `granularity * value` plus `i + 1`
times the number that the code takes for the offset of the latitude, for both coordinates. -/
theorem C45_dense_offsets_violated {b : Block} (hs : b.strings.length < 2 ^ 32) {l : List Byte} {nodes : List DenseNode}
    (h : EncodesDense b.strings l nodes) : ∃ es m', denseNodes b l TagMap.new = (es, .ok m') ∧
      List.Forall₂ Reported es (nodes.mapIdx fun i n =>
        .node n.id (b.granularity * n.lat + (i + 1) * b.offsetLat) (b.granularity * n.lon + (i + 1) * b.offsetLat) n.tags) := by
  obtain ⟨es, m', e, _, hr⟩ := denseNodes_ok hs h tagClean_new
  exact ⟨es, m', e, hr⟩

/-- C45 is violated by offsets: what the code takes for the offset is not the offset in the block either. The fields have the
type `int64`, but they are decoded as `sint64`: here an offset of 100 in the file becomes 50. -/
theorem C45_offset_encoding_violated : twos 100 = 100 ∧
    blockField ⟨100, 0, 0, [], []⟩ (.varint 19 (twos 100)) = .ok ⟨100, 50, 0, [], []⟩ := by
  constructor
  · decide
  · rfl

/-- C45 is violated by `Node` messages: all of them are reported at the coordinates (0, 0), and with the number that encodes
the id instead of the id (`2 * id` for positive ids). -/
theorem C45_sparse_violated {b : Block} (hs : b.strings.length < 2 ^ 32) {l : List Byte} {id lat lon : Int} {tags : List (Str × Str)}
    (h : EncodesNode b.strings l id lat lon tags) (hid : 0 < id) :
    ∃ m', sparseNode b l TagMap.new = ([.node (BitVec.ofInt 64 (2 * id)) 0 0 m'], .ok m') ∧ TagsShow m' tags := by
  obtain ⟨m', e, _, hr⟩ := sparseNode_spec hs h (by omega) tagClean_new
  refine ⟨m', ?_, hr⟩
  rw [e]
  have : BitVec.ofNat 64 (zigzag id) = BitVec.ofInt 64 (2 * id) := by
    unfold zigzag
    rw [if_pos (by omega), ← BitVec.ofInt_natCast, Int.toNat_of_nonneg (by omega)]
  rw [this]

/-- The hypotheses are satisfiable: two nodes; the node 3 at (10, 20). -/
example : EncodesDense exStrings exDense exNodes ∧
    EncodesNode exStrings (smallMessage [.varint 1 6, .varint 8 20, .varint 9 40]) 3 10 20 [] :=
  ⟨exDense_ok, _, [], smallMessage_ok (by decide), by decide, by decide, Or.inl ⟨by decide, rfl⟩, Or.inl ⟨by decide, rfl⟩,
    ⟨by decide, .nil⟩, by decide, by decide, by decide, by decide⟩

/-! ### C55 Blocks -/

/-- C55: for every valid block without `Node` messages (C45), with offsets zero (C45), and without ways and relations with the
reserved id -1: the callbacks that are given are called for all their objects, in the order of the block, with their ids,
coordinates, nodes, members and tags; there are no other calls, no exception and no undefined behaviour.
Partial: no reserved ids, see `C55_reserved_id_rejected_violated`; tags are looked up, see `C55_tags_of_other_objects_violated`. -/
theorem C55_block_partial {c : Wanted} {h : OsmHeader} {l : List Byte} {items : List OsmItem} (he : EncodesBlock h false l items)
    (hlat : h.latOffset = 0) (hlon : h.lonOffset = 0) (hid : ∀ i ∈ items, ¬ i.Reserved) :
    ∃ es m', readBlock c l TagMap.new = (es, .ok m') ∧ List.Forall₂ Reported es (items.filter c.wants) := by
  obtain ⟨es, m', e, _, hr⟩ := readBlock_ok (c := c) he hlat hlon hid TagMap.new tagClean_new
  exact ⟨es, m', e, hr⟩

/-- C55: the same for a sequence of blocks, each preceded by its size (`frame`), although the variables keep what earlier
blocks have left in them. `k` is the schedule of the thread that delivers the blocks.
Partial as `C55_block_partial`. -/
theorem C55_blocks_partial {c : Wanted} {ds : List (List Byte)} {parts : List (List OsmItem)}
    (h : List.Forall₂ (fun d items => d.length < 2 ^ 25 ∧
      ∃ h : OsmHeader, h.latOffset = 0 ∧ h.lonOffset = 0 ∧ EncodesBlock h false d items) ds parts)
    (hid : ∀ i ∈ parts.flatten, ¬ i.Reserved) (k : Nat) :
    ∃ es m', internalRead c (ds.map frame, .ok ()) k = (es, .ok m') ∧ List.Forall₂ Reported es (parts.flatten.filter c.wants) := by
  obtain ⟨es, m', e, _, hr⟩ := internalRead_ok (c := c) (ds := ds) (parts := parts) h hid k
  exact ⟨es, m', e, hr⟩

/-- The hypotheses are satisfiable: a block with two nodes, a way and a relation. -/
example : EncodesBlock ⟨exStrings, 100, 0, 0⟩ false exBlock exItems ∧ (∀ i ∈ exItems, ¬ i.Reserved) ∧ exBlock.length < 2 ^ 25 := by
  refine ⟨exBlock_ok, ?_, by decide⟩
  intro i hi
  simp only [exItems, List.mem_cons, List.not_mem_nil, or_false] at hi
  rcases hi with rfl | rfl | rfl | rfl <;> simp [OsmItem.Reserved]

/-- C55 is violated: a valid way (or relation) with the id -1 is rejected with an exception. -/
theorem C55_reserved_id_rejected_violated {b : Block} {l : List Byte} {nodes : List Int} {tags : List (Str × Str)}
    (h : EncodesWay b.strings l (-1) nodes tags) (m : TagMap (List Byte)) : decodeWay b l m = ([], .error) := by
  obtain ⟨fs, idx, g1, _, g2, _⟩ := h
  unfold decodeWay
  rw [message_ok g1]
  simp only [Res.ok_bind]
  rw [lastNum_one g2, if_pos (by decide)]
  rfl

/-- C55 is violated: the index of a string may be the size of the string table, then memory behind the table is read. So a
damaged or malicious file leads to undefined behaviour instead of an exception, for every string table. -/
theorem C55_string_index_undefined {b : Block} (hs : b.strings.length < 2 ^ 32) {l : List Byte} {fs : List Field} {id v : Nat}
    (h : EncodesMessage EncodesVarint l fs) (h1 : nums 1 fs = [id]) (hid : id ≠ 2 ^ 64 - 1) (h2 : PackedField 2 fs [b.strings.length])
    (h3 : PackedField 3 fs [v]) (hv : v < 2 ^ 32) (m : TagMap (List Byte)) : decodeWay b l m = ([], .ub) :=
  decodeWay_ub hs h h1 hid h2 h3 hv m

/-- The hypotheses are satisfiable, with a table of three strings. -/
example : ∃ fs, EncodesMessage EncodesVarint (smallMessage fs) fs ∧ nums 1 fs = [7] ∧
    PackedField 2 fs [exStrings.length] ∧ PackedField 3 fs [1] :=
  ⟨[.varint 1 7, .bytes 2 [3#8], .bytes 3 [1#8]], smallMessage_ok (by decide), by decide,
    Or.inr ⟨_, by decide, smallPacked (xs := [3]) (by decide)⟩, Or.inr ⟨_, by decide, smallPacked (xs := [1]) (by decide)⟩⟩

/-- C55 is violated: if nodes without tags (and without the field for tags) follow a way, then the tags of the way are seen
by those who enumerate the tags of the nodes; only the look up of a tag finds nothing. -/
theorem C55_tags_of_other_objects_violated {b : Block} (hs : b.strings.length < 2 ^ 32) {w d : List Byte} {id : Int} {nodes : List Int}
    {tags : List (Str × Str)} (hw : EncodesWay b.strings w id nodes tags) (hid : id ≠ -1) {fs : List Field}
    (hd : EncodesMessage EncodesVarint d fs) (hk : strs 10 fs = []) :
    ∃ e es r, groupFields ⟨true, true, true⟩ b [.bytes 3 w, .bytes 2 d] TagMap.new = (e :: es, r) ∧
      ∀ x ∈ es, (entriesOf x).Perm tags := by
  obtain ⟨e, m', e1, hc, hr⟩ := decodeWay_ok hs hw hid tagClean_new
  have hp : m'.entry.Perm tags := by
    obtain ⟨fs', idx, g1, gi, g2, g3, g4, g5, g6⟩ := hw
    obtain ⟨m1, eb, c, sh, pm⟩ := buildTags_ok tagClean_new g5
    unfold decodeWay at e1
    rw [message_ok g1] at e1
    simp only [Res.ok_bind] at e1
    rw [lastNum_one g2, if_neg (twos_ne gi hid), pairLoop_ok idx _ _ _ (packed_mem g3) (packed_mem g4) (tagsAre_lt hs g5) (by omega)] at e1
    simp only [Res.ok_bind] at e1
    rw [eb] at e1
    simp only [Res.ok_bind] at e1
    have hn := nodeLoop_ok nodes 0 ((mem (lastStr 8 fs')).length + 1) (mem (lastStr 8 fs')) (packed_mem g6) (by omega)
    rw [show (0 : Word) = BitVec.ofInt 64 0 from rfl, hn] at e1
    simp only [Res.ok_bind, after, Prod.mk.injEq, Res.ok.injEq] at e1
    rw [← e1.2]
    exact pm
  have hst := denseNodes_stale (b := b) hd hk hc
  have hg : groupFields ⟨true, true, true⟩ b [.bytes 3 w, .bytes 2 d] TagMap.new =
      Out.step (decodeWay b w TagMap.new) fun m => (denseNodes b d m).step fun m => ([], .ok m) := rfl
  rw [hg, e1]
  have hs2 : (Out.step (denseNodes b d m') fun m => ([], .ok m)).1 = (denseNodes b d m').1 := by
    unfold Out.step
    cases (denseNodes b d m').2 <;> simp
  refine ⟨e, (denseNodes b d m').1, _, Prod.ext ?_ rfl, fun x hx => ?_⟩
  · show [e] ++ (Out.step (denseNodes b d m') fun m => ([], .ok m)).1 = _
    rw [hs2]
    rfl
  · rw [hst x hx]
    exact hp

/-- The hypotheses are satisfiable: the way has a tag, and there are two nodes behind it. -/
example : EncodesWay exStrings exWay 7 [3, 5, 4] [(text "k", text "v")] ∧ EncodesDense exStrings exDense exNodes := ⟨exWay_ok, exDense_ok⟩

/-! ### C56 Files -/

/-- C56: for every valid file with these restrictions, `unordered_read_osm_pbf` calls the callbacks that are given for all their
objects in the order of the file, and returns. It does not matter which `ntohl` is used.
Partial: valid files, see `C56_trailing_bytes_ignored_violated` and `C56_unknown_features_accepted_violated` for others. -/
theorem C56_unordered_partial {inflate : List Byte → Option (List Byte)} {required optional : List Str} {file : List Byte} {items : List OsmItem}
    (h : EncodesFile inflate required optional file items) (hid : ∀ i ∈ items, ¬ i.Reserved)
    (own : Bool) {c : Wanted} (hc : c.node ∨ c.way ∨ c.relation) (k : Nat) :
    ∃ es m', unorderedRead inflate own c k file = (es, .ok m') ∧ List.Forall₂ Reported es (items.filter c.wants) := by
  obtain ⟨st, ds, parts, e, g1, rfl, _⟩ := decompressFile_ok own h (rest := []) (by decide)
  rw [List.append_nil] at e
  obtain ⟨es, m', e2, _, hr⟩ := internalRead_ok (c := c) g1 hid k
  refine ⟨es, m', ?_, hr⟩
  unfold unorderedRead
  rw [if_pos hc, e]
  exact e2

/-- C56: `ordered_read_osm_pbf` reports all nodes, then all ways, then all relations, each in the order of the file, if it is
not told that the file is ordered.
Partial: valid files, see `C56_sorted_not_recognised_violated` and `C56_empty_file_never_returns`. -/
theorem C56_ordered_partial {inflate : List Byte → Option (List Byte)} {required optional : List Str} {file : List Byte} {items : List OsmItem}
    (h : EncodesFile inflate required optional file items) (hid : ∀ i ∈ items, ¬ i.Reserved)
    (own : Bool) {c : Wanted} (hc : c.node ∨ c.way ∨ c.relation) (k : Nat → Nat) :
    ∃ es m', orderedRead inflate own c false k file = (es, .ok m') ∧
      List.Forall₂ Reported es
        (items.filter (fun i => c.wants i && (⟨true, false, false⟩ : Wanted).wants i) ++
         items.filter (fun i => c.wants i && (⟨false, true, false⟩ : Wanted).wants i) ++
         items.filter (fun i => c.wants i && (⟨false, false, true⟩ : Wanted).wants i)) := by
  obtain ⟨st, ds, parts, e, g1, rfl, g3, g4⟩ := decompressFile_ok own h (rest := []) (by decide)
  rw [List.append_nil] at e
  have none : ∀ {p : OsmItem → Bool}, (∀ i, p i = false) → parts.flatten.filter p = [] := by
    intro p hp
    rw [List.filter_eq_nil_iff]
    intro i _
    rw [hp i]
    decide
  have n1 : Reports (if c.node then internalRead ⟨true, false, false⟩ (ds.map frame, .ok ()) (k 0) else ([], .ok TagMap.new))
      (parts.flatten.filter (fun i => c.wants i && (⟨true, false, false⟩ : Wanted).wants i)) := by
    by_cases hw : c.node
    · rw [if_pos hw]
      have := internalRead_ok (c := ⟨true, false, false⟩) g1 hid (k 0)
      rwa [show (fun i => c.wants i && (⟨true, false, false⟩ : Wanted).wants i) = (⟨true, false, false⟩ : Wanted).wants from by
        funext i; cases i <;> simp [Wanted.wants, hw]]
    · rw [if_neg hw, none]
      · exact reports_nil tagClean_new
      · intro i; cases i <;> simp [Wanted.wants, hw]
  have n2 : Reports (if c.way then internalRead ⟨false, true, false⟩ (ds.map frame, .ok ()) (k 1) else ([], .ok TagMap.new))
      (parts.flatten.filter (fun i => c.wants i && (⟨false, true, false⟩ : Wanted).wants i)) := by
    by_cases hw : c.way
    · rw [if_pos hw]
      have := internalRead_ok (c := ⟨false, true, false⟩) g1 hid (k 1)
      rwa [show (fun i => c.wants i && (⟨false, true, false⟩ : Wanted).wants i) = (⟨false, true, false⟩ : Wanted).wants from by
        funext i; cases i <;> simp [Wanted.wants, hw]]
    · rw [if_neg hw, none]
      · exact reports_nil tagClean_new
      · intro i; cases i <;> simp [Wanted.wants, hw]
  have n3 : Reports (if c.relation then internalRead ⟨false, false, true⟩ (ds.map frame, .ok ()) (k 2) else ([], .ok TagMap.new))
      (parts.flatten.filter (fun i => c.wants i && (⟨false, false, true⟩ : Wanted).wants i)) := by
    by_cases hw : c.relation
    · rw [if_pos hw]
      have := internalRead_ok (c := ⟨false, false, true⟩) g1 hid (k 2)
      rwa [show (fun i => c.wants i && (⟨false, false, true⟩ : Wanted).wants i) = (⟨false, false, true⟩ : Wanted).wants from by
        funext i; cases i <;> simp [Wanted.wants, hw]]
    · rw [if_neg hw, none]
      · exact reports_nil tagClean_new
      · intro i; cases i <;> simp [Wanted.wants, hw]
  obtain ⟨es, m', e2, _, hr⟩ := reports_step (reports_step n1 fun _ _ => n2) fun _ _ => n3
  refine ⟨es, m', ?_, hr⟩
  unfold orderedRead
  rw [e]
  simp only
  rw [if_pos hc, if_neg (by simp [g4]), if_neg (by simp [g3])]
  exact e2

/-- C56: `ordered_read_osm_pbf` reads the file only once if it is told that the file is ordered: then the calls are those of
`unordered_read_osm_pbf`. -/
theorem C56_assume_ordered {inflate : List Byte → Option (List Byte)} (own : Bool) {c : Wanted} (k : Nat → Nat) (file : List Byte) :
    orderedRead inflate own c true k file = unorderedRead inflate own c (k 0) file := by
  unfold orderedRead unorderedRead
  simp

/-- The header of the example. -/
def exHeader : List Byte :=
  smallMessage [.bytes 4 (text "DenseNodes"), .bytes 4 (text "HistoricalInformation"), .bytes 5 (text "Sort.Type_then_ID")]

/-- Two blocks: a header, and the data of the example, both without compression. -/
def exFile : List Byte :=
  let hb := smallMessage [.varint 2 exHeader.length, .bytes 1 exHeader]
  let hh := smallMessage [.bytes 1 (text "OSMHeader"), .varint 3 hb.length]
  let db := smallMessage [.varint 2 exBlock.length, .bytes 1 exBlock]
  let dh := smallMessage [.bytes 1 (text "OSMData"), .varint 3 db.length]
  (bigEndian hh.length ++ hh ++ hb) ++ ((bigEndian dh.length ++ dh ++ db) ++ [])

theorem exFile_ok : EncodesFile (fun _ => none) [text "DenseNodes", text "HistoricalInformation"] [text "Sort.Type_then_ID"] exFile exItems := by
  refine ⟨_, _, _, _, _, rfl, ⟨_, _, rfl, smallMessage_ok (by decide), by decide, by decide, by decide, by decide⟩,
    ⟨_, smallMessage_ok (by decide), by decide, by decide, by decide, by decide, Or.inl ⟨by decide, by decide⟩⟩,
    smallMessage_ok (fs := [.bytes 4 (text "DenseNodes"), .bytes 4 (text "HistoricalInformation"), .bytes 5 (text "Sort.Type_then_ID")]) (by decide), by decide, by decide, ?_⟩
  exact .data (others := []) ⟨_, _, rfl, smallMessage_ok (by decide), by decide, by decide, by decide, by decide⟩
    ⟨_, smallMessage_ok (by decide), by decide, by decide, by decide, by decide, Or.inl ⟨by decide, by decide⟩⟩ rfl rfl exBlock_ok .nil

/-- The hypotheses are satisfiable. -/
example : ∃ inflate required optional file, EncodesFile inflate required optional file exItems ∧ text "HistoricalInformation" ∈ required ∧
    text "Sort.Type_then_ID" ∈ optional := ⟨_, _, _, _, exFile_ok, by decide, by decide⟩

/-- C56 is violated by sorted files: the header is not decoded, so whatever it says (here `Sort.Type_then_ID` among the optional
features), the file is taken to be unordered and read up to three times. -/
theorem C56_sorted_not_recognised_violated {inflate : List Byte → Option (List Byte)} {required optional : List Str} {file : List Byte}
    {items : List OsmItem} (h : EncodesFile inflate required optional file items) (_ : text "Sort.Type_then_ID" ∈ optional) (own : Bool) :
    (decompressFile inflate own file).1.ordered = false := by
  obtain ⟨st, ds, parts, e, _, _, g3, _⟩ := decompressFile_ok own h (rest := []) (by decide)
  rw [List.append_nil] at e
  rw [e]
  exact g3

/-- C56 is violated: files which require a feature that the program does not have are accepted (`C56_unordered_partial` holds for all
lists `required`), although the code intends to reject them. -/
theorem C56_unknown_features_accepted_violated {inflate : List Byte → Option (List Byte)} {required optional : List Str} {file : List Byte}
    {items : List OsmItem} (h : EncodesFile inflate required optional file items) (_ : text "HistoricalInformation" ∈ required) (own : Bool) :
    (decompressFile inflate own file).2.2 = .ok () := by
  obtain ⟨st, ds, parts, e, _⟩ := decompressFile_ok own h (rest := []) (by decide)
  rw [List.append_nil] at e
  rw [e]

/-- C56, a header block whose content is the list of features itself (which is how the code reads it, instead of a blob with
the list): if each required feature is `DenseNodes` or a prefix of it then the file is accepted, and it is taken to be ordered
if and only if one of the optional features is `Sort.Type_then_ID` or a prefix of it, even the empty one. -/
theorem C56_bare_header_accepted {inflate : List Byte → Option (List Byte)} {blob l1 l2 : List Byte} {fs : List Field} {items : List OsmItem}
    (h : FileBlock (text "OSMHeader") blob l1) (hb : EncodesMessage EncodesVarint blob fs) (hd : DataBlocks inflate l2 items)
    (h4 : ∀ s ∈ strs 4 fs, s <+: text "DenseNodes") (h5 : ∀ s ∈ strs 5 fs, (0 : Byte) ∉ s) (own : Bool) :
    (decompressFile inflate own (l1 ++ l2)).2.2 = .ok () ∧
      ((decompressFile inflate own (l1 ++ l2)).1.ordered = true ↔ ∃ s ∈ strs 5 fs, s <+: text "Sort.Type_then_ID") := by
  have hz : ∀ s ∈ strs 4 fs, (0 : Byte) ∉ s := fun s hs h0 => absurd ((h4 s hs).subset h0) (by decide)
  have := decompressFile_bare own h hb hz h5 hd
  rw [if_pos (show ∀ s ∈ strs 4 fs, s <+: denseNodesName from h4)] at this
  obtain ⟨st, ds, parts, e, _, _, g, _⟩ := this
  rw [e]
  refine ⟨rfl, ?_⟩
  simp only
  rw [g, decide_eq_true_eq]
  exact Iff.rfl

/-- C56, such a header block with a required feature that is not `DenseNodes` or a prefix of it: the file is rejected before any
object is reported. -/
theorem C56_bare_header_unknown_feature {inflate : List Byte → Option (List Byte)} {blob l1 l2 : List Byte} {fs : List Field} {items : List OsmItem}
    (h : FileBlock (text "OSMHeader") blob l1) (hb : EncodesMessage EncodesVarint blob fs) (hd : DataBlocks inflate l2 items)
    (h4 : ∀ s ∈ strs 4 fs, (0 : Byte) ∉ s) (h5 : ∀ s ∈ strs 5 fs, (0 : Byte) ∉ s) {s : Str} (hs : s ∈ strs 4 fs) (hne : ¬ s <+: text "DenseNodes")
    (own : Bool) {c : Wanted} (hc : c.node ∨ c.way ∨ c.relation) (k : Nat) :
    unorderedRead inflate own c k (l1 ++ l2) = ([], .error) := by
  have := decompressFile_bare own h hb h4 h5 hd
  rw [if_neg (show ¬ ∀ s ∈ strs 4 fs, s <+: denseNodesName from fun h => hne (h s hs))] at this
  unfold unorderedRead
  rw [if_pos hc, this]
  unfold internalRead
  simp only [List.take_nil, List.flatten_nil]
  rfl

/-- The hypotheses are satisfiable, with the empty name as an optional feature. -/
example : ∃ blob l1 fs, FileBlock (text "OSMHeader") blob l1 ∧ EncodesMessage EncodesVarint blob fs ∧ strs 4 fs = [text "DenseNodes"] ∧
    strs 5 fs = [text "Has_Metadata", []] :=
  ⟨_, _, [.bytes 4 (text "DenseNodes"), .bytes 5 (text "Has_Metadata"), .bytes 5 []],
    ⟨smallMessage [.bytes 1 (text "OSMHeader"), .varint 3 28], _, rfl, smallMessage_ok (by decide), by decide, by decide, by decide, by decide⟩,
    smallMessage_ok (by decide), by decide, by decide⟩

/-- Finding: if a required feature is `DenseNodes` followed by a zero byte and anything else then the comparison reads beyond the
constant. -/
theorem C56_long_feature_name_undefined (own : Bool) :
    let hb := smallMessage [.bytes 4 (text "DenseNodes" ++ [0, 33])]
    let hd := smallMessage [.bytes 1 (text "OSMHeader"), .varint 3 hb.length]
    FileBlock (text "OSMHeader") hb (bigEndian hd.length ++ hd ++ hb) ∧
      (decompressFile (fun _ => none) own (bigEndian hd.length ++ hd ++ hb)).2.2 = .ub := by
  refine ⟨⟨_, _, rfl, smallMessage_ok (by decide), by decide, by decide, by decide, by decide⟩, ?_⟩
  cases own <;> decide +kernel

/-- C56 is violated: `ordered_read_osm_pbf` never returns if the file is empty. -/
theorem C56_empty_file_never_returns (inflate : List Byte → Option (List Byte)) (own : Bool) (c : Wanted) (k : Nat → Nat) :
    orderedRead inflate own c false k [] = ([], .ub) := by
  unfold orderedRead
  have : (decompressFile inflate own []).1.available = false := rfl
  simp only [this]
  simp

/-- C56, incomplete files: if a file ends within a data block (behind the four bytes with the size of its header), then there is
an exception, and before it exactly the objects of some of the first complete blocks are reported; how many depends on the
schedule `k`. -/
theorem C56_truncated_file_throws {inflate : List Byte → Option (List Byte)} {required optional : List Str} {l : List Byte} {items : List OsmItem}
    (h : EncodesFile inflate required optional l items) (hid : ∀ i ∈ items, ¬ i.Reserved) {blob rest more : List Byte}
    (hb : FileBlock (text "OSMData") blob (rest ++ more)) (h4 : 4 ≤ rest.length) (hm : more ≠ [])
    (own : Bool) {c : Wanted} (hc : c.node ∨ c.way ∨ c.relation) (k : Nat) :
    ∃ es before after, unorderedRead inflate own c k (l ++ rest) = (es, .error) ∧ items = before ++ after ∧
      List.Forall₂ Reported es (before.filter c.wants) := by
  obtain ⟨fuel', st', ds, parts, hf, e, g1, rfl, _⟩ := decompressFile_append own h rest
  obtain ⟨es, e2, hr⟩ := internalRead_error (c := c) g1 hid k
  refine ⟨es, (parts.take k).flatten, (parts.drop k).flatten, ?_, by rw [← List.flatten_append, List.take_append_drop], hr⟩
  have hd : (decompress inflate own fuel' st' rest).2 = ([], .error) := by
    obtain ⟨fuel, rfl⟩ : ∃ k, fuel' = k + 1 := ⟨fuel' - 1, by omega⟩
    unfold decompress
    have := oneBlock_cut own st' hb h4 hm
    cases ho : oneBlock own st' rest with
    | mk a b =>
      rw [ho] at this
      simp only at this
      rw [this]
  unfold unorderedRead
  rw [if_pos hc, e, hd, List.append_nil]
  exact e2

/-- The hypotheses are satisfiable: the example, followed by the first ten bytes of a data block. -/
example : ∃ blob more, FileBlock (text "OSMData") blob (([0#8, 0, 0, 11, 10, 7, 79, 83, 77, 68] : List Byte) ++ more) ∧ more ≠ [] :=
  ⟨[0#8], [97#8, 116, 97, 24, 1, 0], ⟨[10#8, 7, 79, 83, 77, 68, 97, 116, 97, 24, 1], [.bytes 1 (text "OSMData"), .varint 3 1], by decide,
    by
      have := smallMessage_ok (fs := [.bytes 1 (text "OSMData"), .varint 3 1]) (by decide)
      rwa [show smallMessage [.bytes 1 (text "OSMData"), .varint 3 1] = [10#8, 7, 79, 83, 77, 68, 97, 116, 97, 24, 1] from by decide] at this,
    by decide, by decide, by decide, by decide⟩, by decide⟩

/-- C56 is violated: one to three bytes behind the last block are ignored, there is no exception. -/
theorem C56_trailing_bytes_ignored_violated {inflate : List Byte → Option (List Byte)} {required optional : List Str} {l : List Byte}
    {items : List OsmItem} (h : EncodesFile inflate required optional l items) (hid : ∀ i ∈ items, ¬ i.Reserved) {rest : List Byte}
    (hr : rest.length < 4) (own : Bool) {c : Wanted} (hc : c.node ∨ c.way ∨ c.relation) (k : Nat) :
    ∃ es m', unorderedRead inflate own c k (l ++ rest) = (es, .ok m') ∧ List.Forall₂ Reported es (items.filter c.wants) := by
  obtain ⟨st, ds, parts, e, g1, rfl, _⟩ := decompressFile_ok own h hr
  obtain ⟨es, m', e2, _, hr⟩ := internalRead_ok (c := c) g1 hid k
  refine ⟨es, m', ?_, hr⟩
  unfold unorderedRead
  rw [if_pos hc, e]
  exact e2

/-- C56 is violated: if the file ends within a block of an unknown type then there is no exception; instead the part of the
content which is present is decoded as if it were a sequence of blocks, and the objects in it are reported. -/
theorem C56_truncated_unknown_block_violated {inflate : List Byte → Option (List Byte)} {required optional : List Str} {l : List Byte}
    {items others : List OsmItem} (h : EncodesFile inflate required optional l items) {type hd content : List Byte} {fs : List Field} {n : Nat}
    (h1 : EncodesMessage EncodesVarint hd fs) (h2 : hd.length < 2 ^ 16) (h3 : strs 1 fs = [type]) (h4 : nums 3 fs = [n]) (hn : n < 2 ^ 25)
    (hr : content.length < n) (hz : (0 : Byte) ∉ type) (k1 : type ≠ text "OSMData") (k2 : type ≠ text "OSMHeader")
    (ho : DataBlocks inflate content others) (hid : ∀ i ∈ items ++ others, ¬ i.Reserved)
    (own : Bool) {c : Wanted} (hc : c.node ∨ c.way ∨ c.relation) (k : Nat) :
    ∃ es m', unorderedRead inflate own c k (l ++ (bigEndian hd.length ++ hd ++ content)) = (es, .ok m') ∧
      List.Forall₂ Reported es ((items ++ others).filter c.wants) := by
  obtain ⟨fuel', st', ds, parts, hf, e, g1, rfl, _⟩ := decompressFile_append own h (bigEndian hd.length ++ hd ++ content)
  obtain ⟨fuel, rfl⟩ : ∃ k, fuel' = k + 1 := ⟨fuel' - 1, by omega⟩
  have hlen : (content ++ []).length < fuel := by
    rw [List.length_append, List.length_append, bigEndian_length] at hf
    rw [List.append_nil]
    omega
  obtain ⟨fuel2, st2, ds2, parts2, hf2, e2, q1, rfl, _⟩ := decompress_append own ho [] fuel st' hlen
  rw [decompress_short own (by decide) hf2, List.append_nil, List.append_nil] at e2
  have e3 : decompress inflate own (fuel + 1) st' (bigEndian hd.length ++ hd ++ content) = (st2, ds2.map frame, .ok ()) := by
    rw [decompress, oneBlock_cut_other own st' h1 h2 h3 h4 hn hr hz k1 k2]
    exact e2
  rw [← List.flatten_append] at hid ⊢
  obtain ⟨es, m', e4, _, hr⟩ := internalRead_ok (c := c) (List.rel_append g1 q1) hid k
  refine ⟨es, m', ?_, hr⟩
  unfold unorderedRead
  rw [if_pos hc, e, e3, ← List.map_append]
  exact e4

/-- The hypotheses are satisfiable: an unknown block of 100 bytes of which none is present. -/
example : ∃ hd fs, EncodesMessage EncodesVarint hd fs ∧ strs 1 fs = [text "OSMIndex"] ∧ nums 3 fs = [100] ∧ DataBlocks (fun _ => none) [] [] :=
  ⟨_, _, smallMessage_ok (fs := [.bytes 1 (text "OSMIndex"), .varint 3 100]) (by decide), by decide, by decide, .nil⟩

/-- The replacement for `ntohl` (compiled in with `ROUTING_KIT_ASSUME_LITTLE_ENDIAN`) agrees with `ntohl` for the sizes of
headers that are allowed, and is wrong for the number 65536. -/
theorem C56_own_ntohl : (∀ n < 2 ^ 16, ntohlOwn (load32 (bigEndian n)) = ntohlSystem (load32 (bigEndian n))) ∧
    ntohlOwn (load32 (bigEndian 65536)) ≠ ntohlSystem (load32 (bigEndian 65536)) := by
  constructor
  · intro n hn
    apply BitVec.eq_of_toNat_eq
    rw [show ntohlOwn (load32 (bigEndian n)) = ntohl true (load32 (bigEndian n)) from rfl,
      show ntohlSystem (load32 (bigEndian n)) = ntohl false (load32 (bigEndian n)) from rfl, ntohl_bigEndian _ hn, ntohl_bigEndian _ hn]
  · decide

end RK
