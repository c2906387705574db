import Verif.Model.OsmFile
import Verif.Spec.OsmFile
import Verif.Proof.OsmPbf
import Mathlib.Tactic.IntervalCases
/-! # Reading OSM files (osm_decoder.cpp:72-240, 650-716) -/
namespace RK
open Spec Osm

/-! ### Numbers -/

theorem load_store (x : BitVec 32) : load32 (store32 x) = x := by
  simp only [load32, store32]
  apply BitVec.eq_of_getLsbD_eq
  intro i hi
  simp only [BitVec.getLsbD_or, BitVec.getLsbD_shiftLeft, BitVec.getLsbD_ushiftRight, BitVec.getLsbD_setWidth]
  interval_cases i <;> simp

theorem ntohl_small (own : Bool) (a b : Byte) :
    ntohl own (load32 [0, 0, a, b]) = a.setWidth 32 <<< 8 ||| b.setWidth 32 := by
  apply BitVec.eq_of_getLsbD_eq
  intro i hi
  cases own
  · simp only [ntohl, ntohlSystem, load32, Bool.false_eq_true, if_false]
    simp only [BitVec.getLsbD_or, BitVec.getLsbD_shiftLeft, BitVec.getLsbD_ushiftRight, BitVec.getLsbD_setWidth]
    interval_cases i <;> simp
  · simp only [ntohl, ntohlOwn, load32, if_true]
    simp only [BitVec.getLsbD_or, BitVec.getLsbD_shiftLeft, BitVec.getLsbD_ushiftRight, BitVec.getLsbD_setWidth]
    interval_cases i <;> simp

theorem ntohl_bigEndian (own : Bool) {n : Nat} (h : n < 2 ^ 16) : (ntohl own (load32 (bigEndian n))).toNat = n := by
  have e : bigEndian n = [0, 0, BitVec.ofNat 8 (n / 2 ^ 8), BitVec.ofNat 8 n] := by
    unfold bigEndian
    rw [Nat.div_eq_of_lt (show n < 2 ^ 24 by omega), Nat.div_eq_of_lt h]
    rfl
  rw [e, ntohl_small, BitVec.toNat_or, BitVec.toNat_shiftLeft, BitVec.toNat_setWidth, BitVec.toNat_setWidth, BitVec.toNat_ofNat,
    BitVec.toNat_ofNat]
  have h1 : n / 2 ^ 8 % 2 ^ 8 % 2 ^ 32 = n / 2 ^ 8 := by omega
  have h2 : n % 2 ^ 8 % 2 ^ 32 = n % 2 ^ 8 := by omega
  have h3 : (n / 2 ^ 8) <<< 8 % 2 ^ 32 = (n / 2 ^ 8) <<< 8 := by
    rw [Nat.shiftLeft_eq]; omega
  rw [h1, h2, h3, ← Nat.shiftLeft_add_eq_or_of_lt (Nat.mod_lt _ (by decide)), Nat.shiftLeft_eq]
  omega

theorem store32_length (x : BitVec 32) : (store32 x).length = 4 := rfl

theorem bigEndian_length (n : Nat) : (bigEndian n).length = 4 := rfl

/-! ### The stream -/

theorem readStream_append {a b : List Byte} {n : Nat} (h : a.length = n) (hn : n ≤ readSize) : readStream n (a ++ b) = .ok (some (a, b)) := by
  unfold readStream
  rw [if_neg (by omega), if_pos (by rw [List.length_append]; omega), ← h, List.take_left, List.drop_left]

theorem readOrThrow_append {a b : List Byte} {n : Nat} (h : a.length = n) (hn : n ≤ readSize) : readOrThrow n (a ++ b) = .ok (a, b) := by
  unfold readOrThrow
  rw [readStream_append h hn]
  rfl

theorem readStream_end (n : Nat) (h0 : 0 < n) (h : n ≤ readSize) : readStream n [] = .ok none := by
  unfold readStream
  rw [if_neg (by omega), if_neg (by simp; omega)]

theorem blockHead_ok (own : Bool) {type blob l : List Byte} (h : FileBlock type blob l) (rest : List Byte) :
    blockHead own (l ++ rest) = .ok (some ((type.take 15).takeWhile (· ≠ 0), blob.length, blob ++ rest)) := by
  obtain ⟨hd, fs, rfl, h1, h2, h3, h4, h5⟩ := h
  unfold blockHead
  rw [List.append_assoc, List.append_assoc, readStream_append (bigEndian_length _) (by decide), Res.ok_bind]
  simp only
  rw [ntohl_bigEndian own h2, readOrThrow_append rfl (by unfold readSize; omega), Res.ok_bind]
  simp only
  rw [message_ok h1, Res.ok_bind, lastNum_one h5, lastStr_one h4, Nat.mod_eq_of_lt (by omega), if_neg (by omega)]
  rfl

theorem headerFields_ok : ∀ (fs : List Field) (o : Bool), strs 4 fs = [] → strs 5 fs = [] → headerFields o fs = .ok o
  | [], _, _, _ => rfl
  | f :: fs, o, h4, h5 => by
    cases f with
    | varint i x => exact headerFields_ok fs o (by simpa [strs] using h4) (by simpa [strs] using h5)
    | fixed64 i x => exact headerFields_ok fs o (by simpa [strs] using h4) (by simpa [strs] using h5)
    | fixed32 i x => exact headerFields_ok fs o (by simpa [strs] using h4) (by simpa [strs] using h5)
    | bytes i c =>
      by_cases e4 : i = 4
      · subst e4; simp [strs] at h4
      by_cases e5 : i = 5
      · subst e5; simp [strs] at h5
      have e : headerFields o (.bytes i c :: fs) = headerFields o fs := by
        conv => lhs; unfold headerFields
        split <;> simp_all
      rw [e]
      exact headerFields_ok fs o (by simpa [strs, e4] using h4) (by simpa [strs, e5] using h5)

theorem headerOrdered_ok {inflate : List Byte → Option (List Byte)} {blob data : List Byte} (h : EncodesBlob inflate blob data) :
    headerOrdered blob = .ok false := by
  obtain ⟨fs, h1, _, _, h4, h5, _⟩ := h
  unfold headerOrdered
  rw [decodeMessage_whole h1]
  simp only
  rw [headerFields_ok fs false h4 h5]
  rfl

/-- What the decompressor writes for the content of a blob. -/
def frame (d : List Byte) : List Byte := store32 (BitVec.ofNat 32 d.length) ++ d

theorem unblob_ok {inflate : List Byte → Option (List Byte)} {blob data : List Byte} (h : EncodesBlob inflate blob data) :
    unblob inflate blob = .ok (frame data) := by
  obtain ⟨fs, h1, h2, h3, _, _, h4⟩ := h
  have hr : readSize = 64 * 2 ^ 20 := rfl
  unfold unblob
  rw [message_ok h1, Res.ok_bind, lastNum_one h3]
  rcases h4 with ⟨g1, g2⟩ | ⟨g1, z, g2, g3⟩
  · rw [lastStr_one g1, lastStr_none g2]
    simp only
    rw [if_neg (by omega), if_neg (by omega), if_neg (by omega)]
    rfl
  · rw [lastStr_none g1, lastStr_one g2]
    simp only
    rw [if_neg (by omega), if_neg (by omega), g3]
    simp only
    rw [if_neg (by omega), if_neg (by omega)]
    rfl

theorem oneBlock_data (own : Bool) (st : Status) {blob l : List Byte} (h : FileBlock (text "OSMData") blob l) (rest : List Byte) :
    oneBlock own st (l ++ rest) = ({ st with available := true, blobRead := true }, .ok (.blob blob rest)) := by
  have hb : blob.length ≤ readSize := by
    obtain ⟨hd, fs, _, _, _, hb, _⟩ := h
    unfold readSize; omega
  unfold oneBlock
  rw [blockHead_ok own h rest]
  simp only
  rw [if_pos (by decide), readOrThrow_append rfl hb]
  rfl

theorem oneBlock_header (own : Bool) {inflate : List Byte → Option (List Byte)} {blob data l : List Byte}
    (h : FileBlock (text "OSMHeader") blob l) (hb : EncodesBlob inflate blob data) (rest : List Byte) :
    oneBlock own ⟨false, false, false, false⟩ (l ++ rest) = (⟨true, false, false, true⟩, .ok (.again rest)) := by
  have hl : blob.length ≤ readSize := by
    obtain ⟨hd, fs, _, _, _, hb, _⟩ := h
    unfold readSize; omega
  unfold oneBlock
  rw [blockHead_ok own h rest]
  simp only
  rw [if_neg (by decide), if_pos (by decide), if_neg (by decide), readOrThrow_append rfl hl]
  simp only [Res.ok_bind]
  rw [headerOrdered_ok hb]
  rfl

theorem cut_ne {type : List Byte} {s : List Byte} (hz : (0 : Byte) ∉ type) (hs : s.length < 15) (hne : type ≠ s) :
    (type.take 15).takeWhile (· ≠ 0) ≠ s := by
  rw [takeWhile_all]
  · intro e
    have h1 := congrArg List.length e
    rw [List.length_take] at h1
    rw [List.take_of_length_le (by omega)] at e
    exact hne e
  · intro x hx
    have : x ≠ 0 := fun e => hz (e ▸ List.mem_of_mem_take hx)
    simpa using this

theorem oneBlock_other (own : Bool) (st : Status) {type blob l : List Byte} (h : FileBlock type blob l) (hz : (0 : Byte) ∉ type)
    (h1 : type ≠ text "OSMData") (h2 : type ≠ text "OSMHeader") (rest : List Byte) :
    oneBlock own st (l ++ rest) = (st, .ok (.again rest)) := by
  have hb : blob.length ≤ readSize := by
    obtain ⟨hd, fs, _, _, _, hb, _⟩ := h
    unfold readSize; omega
  unfold oneBlock
  rw [blockHead_ok own h rest]
  simp only
  rw [if_neg (cut_ne hz (by decide) (fun e => h1 (e.trans (by decide)))), if_neg (cut_ne hz (by decide) (fun e => h2 (e.trans (by decide)))),
    readStream_append rfl hb]
  rfl

/-- A block of the stream with its objects. -/
def PlainBlock (d : List Byte) (items : List OsmItem) : Prop :=
  d.length < 2 ^ 25 ∧ ∃ h : OsmHeader, h.latOffset = 0 ∧ h.lonOffset = 0 ∧ EncodesBlock h false d items

theorem fileBlock_pos {type blob l : List Byte} (h : FileBlock type blob l) : 0 < l.length := by
  obtain ⟨hd, fs, rfl, _⟩ := h
  rw [List.length_append, List.length_append, bigEndian_length]
  omega

theorem decompress_append (own : Bool) {inflate : List Byte → Option (List Byte)} {l : List Byte} {items : List OsmItem} (h : DataBlocks inflate l items)
    (rest : List Byte) : ∀ (fuel : Nat) (st : Status), (l ++ rest).length < fuel → ∃ fuel' st' ds parts, rest.length < fuel' ∧
      decompress inflate own fuel st (l ++ rest) = ((decompress inflate own fuel' st' rest).1,
        ds.map frame ++ (decompress inflate own fuel' st' rest).2.1, (decompress inflate own fuel' st' rest).2.2) ∧
      List.Forall₂ PlainBlock ds parts ∧ items = parts.flatten ∧ st'.ordered = st.ordered ∧ (st.available = true → st'.available = true) := by
  induction h with
  | nil =>
    intro fuel st hf
    exact ⟨fuel, st, [], [], hf, rfl, .nil, rfl, rfl, id⟩
  | @data l blob d l2 h items others h1 h2 h3 h4 h5 _ ih =>
    intro fuel st hf
    have hp := fileBlock_pos h1
    rw [List.append_assoc, List.length_append] at hf
    obtain ⟨fuel, rfl⟩ : ∃ k, fuel = k + 1 := ⟨fuel - 1, by omega⟩
    obtain ⟨fuel', st', ds, parts, hf', e, g1, g2, g3, g4⟩ := ih fuel { st with available := true, blobRead := true } (by omega)
    have hd : d.length < 2 ^ 25 := by
      obtain ⟨fs, _, hd, _⟩ := h2
      exact hd
    refine ⟨fuel', st', d :: ds, items :: parts, hf', ?_, .cons ⟨hd, h, h3, h4, h5⟩ g1, by rw [g2]; rfl, g3, fun _ => g4 rfl⟩
    rw [decompress, List.append_assoc, oneBlock_data own st h1 (l2 ++ rest)]
    simp only
    rw [unblob_ok h2]
    simp only
    rw [e]
    rfl
  | @other l type blob l2 items h1 h2 h3 h4 _ ih =>
    intro fuel st hf
    have hp := fileBlock_pos h1
    rw [List.append_assoc, List.length_append] at hf
    obtain ⟨fuel, rfl⟩ : ∃ k, fuel = k + 1 := ⟨fuel - 1, by omega⟩
    obtain ⟨fuel', st', ds, parts, hf', e, g1, g2, g3, g4⟩ := ih fuel st (by omega)
    refine ⟨fuel', st', ds, parts, hf', ?_, g1, g2, g3, g4⟩
    rw [decompress, List.append_assoc, oneBlock_other own st h1 h2 h3 h4 (l2 ++ rest)]
    exact e

theorem decompress_short {inflate : List Byte → Option (List Byte)} (own : Bool) {fuel : Nat} {st : Status} {l : List Byte} (h : l.length < 4)
    (hf : l.length < fuel) : decompress inflate own fuel st l = (st, [], .ok ()) := by
  obtain ⟨fuel, rfl⟩ : ∃ k, fuel = k + 1 := ⟨fuel - 1, by omega⟩
  unfold decompress oneBlock blockHead readStream
  rw [if_neg (by decide), if_neg (by omega)]
  rfl

theorem decompressFile_append (own : Bool) {inflate : List Byte → Option (List Byte)} {required optional : List Str} {l : List Byte}
    {items : List OsmItem} (h : EncodesFile inflate required optional l items) (rest : List Byte) :
    ∃ fuel' st' ds parts, rest.length < fuel' ∧
      decompressFile inflate own (l ++ rest) = ((decompress inflate own fuel' st' rest).1,
        ds.map frame ++ (decompress inflate own fuel' st' rest).2.1, (decompress inflate own fuel' st' rest).2.2) ∧
      List.Forall₂ PlainBlock ds parts ∧ items = parts.flatten ∧ st'.ordered = false ∧ st'.available = true := by
  obtain ⟨l1, l2, blob, data, fs, rfl, h1, h2, _, _, _, h3⟩ := h
  have hp := fileBlock_pos h1
  obtain ⟨fuel', st', ds, parts, hf, e, g1, g2, g3, g4⟩ := decompress_append own h3 rest (l1 ++ l2 ++ rest).length ⟨true, false, false, true⟩
    (by simp only [List.length_append]; omega)
  refine ⟨fuel', st', ds, parts, hf, ?_, g1, g2, g3, g4 rfl⟩
  rw [decompressFile, decompress]
  rw [List.append_assoc] at e ⊢
  rw [oneBlock_header own h1 h2 (l2 ++ rest)]
  exact e

theorem decompressFile_ok (own : Bool) {inflate : List Byte → Option (List Byte)} {required optional : List Str} {l : List Byte} {items : List OsmItem}
    (h : EncodesFile inflate required optional l items) {rest : List Byte} (hr : rest.length < 4) :
    ∃ st' ds parts, decompressFile inflate own (l ++ rest) = (st', ds.map frame, .ok ()) ∧ List.Forall₂ PlainBlock ds parts ∧ items = parts.flatten ∧
      st'.ordered = false ∧ st'.available = true := by
  obtain ⟨fuel', st', ds, parts, hf, e, g1, g2, g3, g4⟩ := decompressFile_append own h rest
  rw [decompress_short own hr hf, List.append_nil] at e
  exact ⟨st', ds, parts, e, g1, g2, g3, g4⟩

/-! ### Headers that are stored without a blob around them -/

theorem equalLit_prefix : ∀ (s lit : List Byte), (0 : Byte) ∉ s → equalLit s (lit ++ [0]) = .ok (decide (s <+: lit))
  | [], lit, _ => by simp [equalLit]
  | a :: s, [], h => by
    have : a ≠ 0 := fun e => h (by simp [e])
    rw [List.nil_append, equalLit, if_neg this]
    simp
  | a :: s, b :: lit, h => by
    have ih := equalLit_prefix s lit (fun e => h (List.mem_cons_of_mem _ e))
    by_cases e : a = b
    · subst e
      simp only [List.cons_append, equalLit, if_true, ih, List.cons_prefix_cons, true_and]
    · rw [List.cons_append, equalLit, if_neg e]
      simp [e]

theorem headerFields_named : ∀ (fs : List Field) (o : Bool), (∀ s ∈ strs 4 fs, (0 : Byte) ∉ s) → (∀ s ∈ strs 5 fs, (0 : Byte) ∉ s) →
    headerFields o fs = if ∀ s ∈ strs 4 fs, s <+: denseNodesName then .ok (o || decide (∃ s ∈ strs 5 fs, s <+: sortName)) else .error
  | [], o, _, _ => by simp [headerFields, strs]
  | f :: fs, o, h4, h5 => by
    cases f with
    | varint i x => exact headerFields_named fs o (by simpa [strs] using h4) (by simpa [strs] using h5)
    | fixed64 i x => exact headerFields_named fs o (by simpa [strs] using h4) (by simpa [strs] using h5)
    | fixed32 i x => exact headerFields_named fs o (by simpa [strs] using h4) (by simpa [strs] using h5)
    | bytes i c =>
      by_cases e4 : i = 4
      · subst e4
        have s4 : strs 4 (.bytes 4 c :: fs) = c :: strs 4 fs := by simp [strs]
        have s5 : strs 5 (.bytes 4 c :: fs) = strs 5 fs := by simp [strs]
        rw [s4] at h4
        rw [s5] at h5
        have ih := headerFields_named fs o (fun s hs => h4 s (List.mem_cons_of_mem _ hs)) h5
        rw [s4, s5, headerFields, equalLit_prefix _ _ (h4 c (List.mem_cons_self ..)), Res.ok_bind]
        by_cases hc : c <+: denseNodesName
        · rw [decide_eq_true hc, if_pos rfl, ih]
          simp only [List.forall_mem_cons, hc, true_and]
        · rw [decide_eq_false hc, if_neg (by decide), if_neg]
          exact fun h => hc (h c (List.mem_cons_self ..))
      by_cases e5 : i = 5
      · subst e5
        have s4 : strs 4 (.bytes 5 c :: fs) = strs 4 fs := by simp [strs]
        have s5 : strs 5 (.bytes 5 c :: fs) = c :: strs 5 fs := by simp [strs]
        rw [s4] at h4
        rw [s5] at h5
        have ih := headerFields_named fs (o || decide (c <+: sortName)) h4 (fun s hs => h5 s (List.mem_cons_of_mem _ hs))
        rw [s4, s5, headerFields, equalLit_prefix _ _ (h5 c (List.mem_cons_self ..)), Res.ok_bind, ih]
        congr 1
        simp only [List.exists_mem_cons_iff, Bool.decide_or, Bool.or_assoc]
      have e : headerFields o (.bytes i c :: fs) = headerFields o fs := by
        conv => lhs; unfold headerFields
        split <;> simp_all
      have s4 : strs 4 (.bytes i c :: fs) = strs 4 fs := by simp [strs, e4]
      have s5 : strs 5 (.bytes i c :: fs) = strs 5 fs := by simp [strs, e5]
      rw [s4] at h4
      rw [s5] at h5
      rw [e, s4, s5]
      exact headerFields_named fs o h4 h5

theorem oneBlock_bare (own : Bool) {blob l : List Byte} {fs : List Field} (h : FileBlock (text "OSMHeader") blob l)
    (hb : EncodesMessage EncodesVarint blob fs) (h4 : ∀ s ∈ strs 4 fs, (0 : Byte) ∉ s) (h5 : ∀ s ∈ strs 5 fs, (0 : Byte) ∉ s) (rest : List Byte) :
    oneBlock own ⟨false, false, false, false⟩ (l ++ rest) =
      if ∀ s ∈ strs 4 fs, s <+: denseNodesName then (⟨true, decide (∃ s ∈ strs 5 fs, s <+: sortName), false, true⟩, .ok (.again rest))
      else (⟨false, false, false, false⟩, .error) := by
  have hl : blob.length ≤ readSize := by
    obtain ⟨hd, fs, _, _, _, hb, _⟩ := h
    unfold readSize; omega
  unfold oneBlock
  rw [blockHead_ok own h rest]
  simp only
  rw [if_neg (by decide), if_pos (by decide), if_neg (by decide), readOrThrow_append rfl hl]
  simp only [Res.ok_bind]
  unfold headerOrdered
  rw [decodeMessage_whole hb]
  simp only
  rw [headerFields_named fs false h4 h5]
  by_cases hc : ∀ s ∈ strs 4 fs, s <+: denseNodesName
  · rw [if_pos hc, if_pos hc]
    simp only [Res.ok_bind, Bool.false_or]
  · rw [if_neg hc, if_neg hc]
    rfl

theorem decompressFile_bare (own : Bool) {inflate : List Byte → Option (List Byte)} {blob l l2 : List Byte} {fs : List Field} {items : List OsmItem}
    (h : FileBlock (text "OSMHeader") blob l) (hb : EncodesMessage EncodesVarint blob fs) (h4 : ∀ s ∈ strs 4 fs, (0 : Byte) ∉ s)
    (h5 : ∀ s ∈ strs 5 fs, (0 : Byte) ∉ s) (hd : DataBlocks inflate l2 items) :
    if ∀ s ∈ strs 4 fs, s <+: denseNodesName then
      ∃ st' ds parts, decompressFile inflate own (l ++ l2) = (st', ds.map frame, .ok ()) ∧ List.Forall₂ PlainBlock ds parts ∧ items = parts.flatten ∧
        st'.ordered = decide (∃ s ∈ strs 5 fs, s <+: sortName) ∧ st'.available = true
    else decompressFile inflate own (l ++ l2) = (⟨false, false, false, false⟩, [], .error) := by
  have hp := fileBlock_pos h
  unfold decompressFile
  rw [decompress, oneBlock_bare own h hb h4 h5 l2]
  by_cases hc : ∀ s ∈ strs 4 fs, s <+: denseNodesName
  · rw [if_pos hc, if_pos hc]
    simp only
    obtain ⟨fuel', st', ds, parts, hf, e, g1, g2, g3, g4⟩ := decompress_append own hd [] (l ++ l2).length
      ⟨true, decide (∃ s ∈ strs 5 fs, s <+: sortName), false, true⟩ (by simp only [List.length_append, List.length_nil]; omega)
    rw [List.append_nil, decompress_short own (by decide) hf, List.append_nil] at e
    exact ⟨st', ds, parts, e, g1, g2, g3, g4 rfl⟩
  · rw [if_neg hc, if_neg hc]

/-! ### Incomplete files -/

theorem readStream_none {n : Nat} {l : List Byte} (h : l.length < n) (hn : n ≤ readSize) : readStream n l = .ok none := by
  unfold readStream
  rw [if_neg (by omega), if_neg (by omega)]

theorem readOrThrow_error {n : Nat} {l : List Byte} (h : l.length < n) (hn : n ≤ readSize) : readOrThrow n l = .error := by
  unfold readOrThrow
  rw [readStream_none h hn]
  rfl

theorem blockHead_cut (own : Bool) {type blob rest more : List Byte} (h : FileBlock type blob (rest ++ more)) (h4 : 4 ≤ rest.length)
    (hm : more ≠ []) : blockHead own rest = .error ∨
      ∃ b, blockHead own rest = .ok (some ((type.take 15).takeWhile (· ≠ 0), blob.length, b)) ∧ b.length < blob.length := by
  obtain ⟨hd, fs, e, h1, h2, h3, g4, g5⟩ := h
  have hml := List.length_pos_iff.2 hm
  have hle : rest.length + more.length = 4 + hd.length + blob.length := by
    have := congrArg List.length e
    rw [List.length_append, List.length_append, List.length_append, bigEndian_length] at this
    exact this
  have e4 : rest = bigEndian hd.length ++ rest.drop 4 := by
    have h := congrArg (List.take 4) e
    rw [List.take_append_of_le_length h4, List.append_assoc, List.take_left' (bigEndian_length _)] at h
    conv => lhs; rw [← List.take_append_drop 4 rest, h]
  have hrs : readSize = 64 * 2 ^ 20 := rfl
  have hdl : (rest.drop 4).length = rest.length - 4 := List.length_drop
  unfold blockHead
  rw [e4, readStream_append (bigEndian_length _) (by decide), Res.ok_bind]
  simp only
  rw [ntohl_bigEndian own h2]
  by_cases hc : (rest.drop 4).length < hd.length
  · rw [readOrThrow_error hc (by omega)]
    exact Or.inl rfl
  · right
    have e5 : rest.drop 4 = hd ++ (rest.drop 4).drop hd.length := by
      have h := congrArg (fun l => (l.drop 4).take hd.length) e
      rw [List.drop_append_of_le_length h4, List.take_append_of_le_length (by omega), List.append_assoc,
        List.drop_left' (bigEndian_length _), List.take_left] at h
      conv => lhs; rw [← List.take_append_drop hd.length (rest.drop 4), h]
    refine ⟨(rest.drop 4).drop hd.length, ?_, by rw [List.length_drop]; omega⟩
    conv => lhs; rw [e5]
    rw [readOrThrow_append rfl (by omega), Res.ok_bind]
    simp only
    rw [message_ok h1, Res.ok_bind, lastNum_one g5, lastStr_one g4, Nat.mod_eq_of_lt (by omega), if_neg (by omega)]
    rfl

theorem oneBlock_cut (own : Bool) (st : Status) {blob rest more : List Byte} (h : FileBlock (text "OSMData") blob (rest ++ more)) (h4 : 4 ≤ rest.length)
    (hm : more ≠ []) : (oneBlock own st rest).2 = .error := by
  have hb : blob.length ≤ readSize := by
    obtain ⟨hd, fs, _, _, _, hb, _⟩ := h
    unfold readSize; omega
  unfold oneBlock
  rcases blockHead_cut own h h4 hm with e | ⟨b, e, hl⟩
  · rw [e]
  · rw [e]
    simp only
    rw [if_pos (by decide), readOrThrow_error hl hb]
    rfl

theorem oneBlock_cut_other (own : Bool) (st : Status) {type hd rest : List Byte} {fs : List Field} {n : Nat} (h1 : EncodesMessage EncodesVarint hd fs)
    (h2 : hd.length < 2 ^ 16) (h3 : strs 1 fs = [type]) (h4 : nums 3 fs = [n]) (hn : n < 2 ^ 25) (hr : rest.length < n)
    (hz : (0 : Byte) ∉ type) (k1 : type ≠ text "OSMData") (k2 : type ≠ text "OSMHeader") :
    oneBlock own st (bigEndian hd.length ++ hd ++ rest) = (st, .ok (.again rest)) := by
  have hrs : readSize = 64 * 2 ^ 20 := rfl
  have e : blockHead own (bigEndian hd.length ++ hd ++ rest) = .ok (some ((type.take 15).takeWhile (· ≠ 0), n, rest)) := by
    unfold blockHead
    rw [List.append_assoc, readStream_append (bigEndian_length _) (by decide), Res.ok_bind]
    simp only
    rw [ntohl_bigEndian own h2, readOrThrow_append rfl (by omega), Res.ok_bind]
    simp only
    rw [message_ok h1, Res.ok_bind, lastNum_one h4, lastStr_one h3, Nat.mod_eq_of_lt (by omega), if_neg (by omega)]
    rfl
  unfold oneBlock
  rw [e]
  simp only
  rw [if_neg (cut_ne hz (by decide) (fun e => k1 (e.trans (by decide)))), if_neg (cut_ne hz (by decide) (fun e => k2 (e.trans (by decide)))),
    readStream_none hr (by omega)]
  rfl

theorem blockStream_ok {c : Wanted} {ds : List (List Byte)} {parts : List (List OsmItem)} (h : List.Forall₂ PlainBlock ds parts)
    (hid : ∀ i ∈ parts.flatten, ¬ i.Reserved) :
    ∀ (fuel : Nat) (m : TagMap (List Byte)), (ds.map frame).flatten.length < fuel → TagClean m →
      Reports (blockStream c fuel (ds.map frame).flatten m) (parts.flatten.filter c.wants) := by
  induction h with
  | nil =>
    intro fuel m hf hm
    obtain ⟨fuel, rfl⟩ : ∃ k, fuel = k + 1 := ⟨fuel - 1, by simp at hf; omega⟩
    unfold blockStream
    rw [List.map_nil, List.flatten_nil, readStream_end 4 (by decide) (by decide)]
    exact reports_nil hm
  | @cons d items ds parts hd _ ih =>
    intro fuel m hf hm
    obtain ⟨hl, h, h1, h2, h3⟩ := hd
    rw [List.map_cons, List.flatten_cons] at hf ⊢
    rw [List.length_append] at hf
    have hfl : (frame d).length = d.length + 4 := by
      unfold frame; rw [List.length_append, store32_length]; omega
    obtain ⟨fuel, rfl⟩ : ∃ k, fuel = k + 1 := ⟨fuel - 1, by omega⟩
    rw [List.flatten_cons] at hid ⊢
    rw [List.filter_append]
    unfold blockStream
    rw [show frame d ++ (ds.map frame).flatten = store32 (BitVec.ofNat 32 d.length) ++ (d ++ (ds.map frame).flatten) by
      unfold frame; rw [List.append_assoc], readStream_append (store32_length _) (by decide)]
    simp only [after]
    rw [load_store, BitVec.toNat_ofNat, Nat.mod_eq_of_lt (by omega), readOrThrow_append rfl (by unfold readSize; omega)]
    simp only
    refine reports_step (readBlock_ok h3 h1 h2 (fun i hi => hid i (List.mem_append_left _ hi)) m hm) (fun m hm => ?_)
    exact ih (fun i hi => hid i (List.mem_append_right _ hi)) fuel m (by omega) hm

theorem internalRead_ok {c : Wanted} {ds : List (List Byte)} {parts : List (List OsmItem)} (h : List.Forall₂ PlainBlock ds parts)
    (hid : ∀ i ∈ parts.flatten, ¬ i.Reserved) (k : Nat) :
    Reports (internalRead c (ds.map frame, .ok ()) k) (parts.flatten.filter c.wants) := by
  unfold internalRead
  exact blockStream_ok h hid _ _ (Nat.lt_succ_self _) tagClean_new

theorem forall₂_take {α β : Type} {R : α → β → Prop} : ∀ (k : Nat) {l : List α} {m : List β}, List.Forall₂ R l m → List.Forall₂ R (l.take k) (m.take k)
  | 0, _, _, _ => .nil
  | _ + 1, [], [], .nil => .nil
  | k + 1, _ :: _, _ :: _, .cons h1 h2 => .cons h1 (forall₂_take k h2)

theorem internalRead_error {c : Wanted} {ds : List (List Byte)} {parts : List (List OsmItem)} (h : List.Forall₂ PlainBlock ds parts)
    (hid : ∀ i ∈ parts.flatten, ¬ i.Reserved) (k : Nat) :
    ∃ es, internalRead c (ds.map frame, .error) k = (es, .error) ∧ List.Forall₂ Reported es ((parts.take k).flatten.filter c.wants) := by
  obtain ⟨es, m', e, _, hr⟩ := blockStream_ok (c := c) (forall₂_take k h)
    (fun i hi => hid i (by
      obtain ⟨p, hp, hi⟩ := List.mem_flatten.1 hi
      exact List.mem_flatten.2 ⟨p, List.mem_of_mem_take hp, hi⟩))
    (((ds.map frame).take k).flatten.length + 1) TagMap.new (by rw [List.map_take]; omega) tagClean_new
  refine ⟨es, ?_, hr⟩
  unfold internalRead
  simp only
  rw [List.map_take] at e
  rw [e]
  simp [Out.step]

end RK
