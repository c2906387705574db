import Verif.Model.OsmPbf
import Verif.Spec.OsmReport
import Verif.Proof.Protobuf
import Verif.Proof.TagMap
import Mathlib.Data.List.Induction
/-! # Decoding OSM blocks (osm_decoder.cpp:242-647) -/
namespace RK
open Spec Osm

/-! ### Fields of messages -/

theorem message_ok {l : List Byte} {fs : List Field} (h : EncodesMessage EncodesVarint l fs) : message l = .ok fs := by
  unfold message
  rw [decodeMessage_ok (encodesMessage_mono (fun _ _ hv => hv.wrapped) h) _ (by omega)]

theorem decodeMessage_whole {l : List Byte} {fs : List Field} (h : EncodesMessage EncodesVarint l fs) :
    decodeMessage (l.length + 1) l = (fs, .ok ()) :=
  decodeMessage_ok (encodesMessage_mono (fun _ _ hv => hv.wrapped) h) _ (by omega)

theorem lastNum_eq (k d : Nat) (fs : List Field) : lastNum k d fs = (nums k fs).getLastD d := by
  unfold lastNum nums
  induction fs using List.reverseRecOn with
  | nil => rfl
  | append_singleton fs f ih =>
    rw [List.foldl_append, List.foldl_cons, List.foldl_nil, ih, List.filterMap_append]
    cases f with
    | varint i x =>
      by_cases h : i = k
      · simp [h]
      · simp [h]
    | fixed64 i c => simp
    | fixed32 i c => simp
    | bytes i c => simp

theorem lastStr_eq (k : Nat) (fs : List Field) : lastStr k fs = (strs k fs).getLast? := by
  unfold lastStr strs
  induction fs using List.reverseRecOn with
  | nil => rfl
  | append_singleton fs f ih =>
    rw [List.foldl_append, List.foldl_cons, List.foldl_nil, ih, List.filterMap_append]
    cases f with
    | bytes i c =>
      by_cases h : i = k
      · simp [h]
      · simp [h]
    | fixed64 i c => simp
    | fixed32 i c => simp
    | varint i c => simp

theorem lastStr_one {k : Nat} {fs : List Field} {c : List Byte} (h : strs k fs = [c]) : lastStr k fs = some c := by
  rw [lastStr_eq, h]; rfl

theorem lastStr_none {k : Nat} {fs : List Field} (h : strs k fs = []) : lastStr k fs = none := by
  rw [lastStr_eq, h]; rfl

theorem lastNum_one {k d x : Nat} {fs : List Field} (h : nums k fs = [x]) : lastNum k d fs = x := by
  rw [lastNum_eq, h]; rfl

theorem packed_mem {k : Nat} {fs : List Field} {xs : List Nat} (h : PackedField k fs xs) : EncodesPacked (mem (lastStr k fs)) xs := by
  rcases h with ⟨h1, rfl⟩ | ⟨c, h1, h2⟩
  · rw [lastStr_none h1]; exact .nil
  · rw [lastStr_one h1]; exact h2

/-! ### Packed lists -/

theorem packed_nil {l : List Byte} (h : EncodesPacked l []) : l = [] := by cases h; rfl

theorem packed_cons {l : List Byte} {x : Nat} {xs : List Nat} (h : EncodesPacked l (x :: xs)) :
    ∃ l', decodeVarint l = .ok (BitVec.ofNat 64 x, l') ∧ EncodesPacked l' xs ∧ x < 2 ^ 64 ∧ l'.length < l.length ∧ l ≠ [] := by
  cases h with
  | @cons v l' _ _ h1 h2 =>
    obtain ⟨m, e, hm⟩ := h1.wrapped.decode l'
    have hv : v ≠ [] := by
      obtain ⟨init, last, rfl, _⟩ := h1.1
      simp
    have hpos := List.length_pos_iff.2 hv
    refine ⟨l', ?_, h2, h1.2.2.2, by rw [List.length_append]; omega, by simp [hv]⟩
    rw [e, ← hm, BitVec.ofNat_toNat, BitVec.setWidth_eq]

theorem word_toNat {x : Nat} (h : x < 2 ^ 64) : (BitVec.ofNat 64 x).toNat = x := by
  rw [BitVec.toNat_ofNat]; exact Nat.mod_eq_of_lt h

theorem pairLoop_ok : ∀ (idx : List (Nat × Nat)) (fuel : Nat) (ks vs : List Byte), EncodesPacked ks (idx.map Prod.fst) →
    EncodesPacked vs (idx.map Prod.snd) → (∀ p ∈ idx, p.1 < u32 ∧ p.2 < u32) → ks.length < fuel → pairLoop fuel ks vs = .ok idx
  | _, 0, _, _, _, _, _, h => absurd h (Nat.not_lt_zero _)
  | [], fuel + 1, ks, vs, hk, hv, _, _ => by
    rw [packed_nil hk, packed_nil hv]
    rfl
  | p :: idx, fuel + 1, ks, vs, hk, hv, hb, hf => by
    obtain ⟨ks', e1, g1, g2, g3, g4⟩ := packed_cons hk
    obtain ⟨vs', e2, k1, k2, k3, k4⟩ := packed_cons hv
    obtain ⟨b1, b2⟩ := hb p List.mem_cons_self
    unfold pairLoop
    rw [if_pos ⟨g4, k4⟩, e1]
    simp only [Res.ok_bind]
    rw [e2]
    simp only [Res.ok_bind]
    rw [pairLoop_ok idx fuel ks' vs' g1 k1 (fun q hq => hb q (List.mem_cons_of_mem _ hq)) (by omega)]
    simp only [Res.ok_bind]
    rw [word_toNat g2, word_toNat k2, Nat.mod_eq_of_lt b1, Nat.mod_eq_of_lt b2]

theorem zigzag_back {x : Int} (h : zigzag x < 2 ^ 64) : zigzagDecode (BitVec.ofNat 64 (zigzag x)) = x := by
  apply zigzagDecode_zigzag
  · unfold zigzag at h
    split at h <;> omega
  · unfold zigzag at h
    split at h <;> omega

theorem word_delta (p x : Int) : BitVec.ofInt 64 p + BitVec.ofInt 64 (x - p) = BitVec.ofInt 64 x := by
  rw [← BitVec.ofInt_add]
  congr 1
  omega

theorem nodeLoop_ok : ∀ (nodes : List Int) (p : Int) (fuel : Nat) (l : List Byte),
    EncodesPacked l ((deltas p nodes).map zigzag) → l.length < fuel →
    nodeLoop fuel l (BitVec.ofInt 64 p) = .ok (nodes.map (BitVec.ofInt 64))
  | _, _, 0, _, _, h => absurd h (Nat.not_lt_zero _)
  | [], p, fuel + 1, l, h, _ => by
    rw [packed_nil h]; rfl
  | x :: nodes, p, fuel + 1, l, h, hf => by
    rw [deltas, List.map_cons] at h
    obtain ⟨l', e, g1, g2, g3, g4⟩ := packed_cons h
    unfold nodeLoop
    rw [if_pos g4, e]
    simp only [Res.ok_bind]
    rw [zigzag_back g2, word_delta, nodeLoop_ok nodes x fuel l' g1 (by omega)]
    rfl

/-! ### Tags -/

theorem strAt_ok {strings : List (List Byte)} {i : Nat} {s : List Byte} (h : strings[i]? = some s) : strAt strings i = .ok s := by
  unfold strAt
  have : i < strings.length := rd_some_lt (v := strings) h
  rw [if_neg (by omega)]
  show Res.ofOption (rd strings i) = _
  unfold rd
  rw [h]
  rfl

theorem resMap_ok {α β : Type} {f : α → Res β} {R : α → β → Prop} (hf : ∀ a b, R a b → f a = .ok b) :
    ∀ {l : List α} {bs : List β}, List.Forall₂ R l bs → resMap f l = .ok bs
  | [], [], _ => rfl
  | a :: l, b :: bs, .cons h1 h2 => by
    unfold resMap
    rw [hf a b h1, Res.ok_bind, resMap_ok hf h2]
    rfl

theorem tagFind_map {V W : Type} (g : V → W) (entry : List (List Byte × V)) (key : List Byte) : ∀ (n i : Nat),
    tagFind (entry.map fun p => (p.1, g p.2)) key i n = (tagFind entry key i n).map (Option.map g)
  | 0, i => rfl
  | n + 1, i => by
    unfold tagFind
    have : rd (entry.map fun p => (p.1, g p.2)) i = (rd entry i).map fun p => (p.1, g p.2) := List.getElem?_map ..
    rw [this]
    cases h : rd entry i with
    | none => rfl
    | some p =>
      simp only [Option.map_some, Option.bind_eq_bind, Option.bind_some]
      by_cases hk : p.1 = key
      · rw [if_pos hk, if_pos hk]; rfl
      · rw [if_neg hk, if_neg hk]; exact tagFind_map g entry key n (i + 1)

theorem buildTags_ok {strings : List (List Byte)} {idx : List (Nat × Nat)} {tags : List (Str × Str)} {m : TagMap (List Byte)}
    (hm : TagClean m) (h : TagsAre strings idx tags) :
    ∃ m', buildTags strings idx m = .ok m' ∧ TagClean m' ∧ TagsShow m' tags ∧ m'.entry.Perm tags := by
  obtain ⟨hlen, h2⟩ := h
  have hlt : idx.length = tags.length := h2.length_eq
  have e1 : resMap (fun p : Nat × Nat => strAt strings p.1) idx = .ok (tags.map Prod.fst) := by
    apply resMap_ok (R := fun p s => strings[p.1]? = some s)
    · intro a b h; exact strAt_ok h
    · rw [List.forall₂_map_right_iff]
      exact h2.imp fun a b h => h.1
  have hm0 : TagClean (⟨m.hashElementList, [], m.entryBegin, m.entryEnd⟩ : TagMap Nat) :=
    ⟨hm.lenB, hm.lenE, hm.inB, hm.zero⟩
  have hkl : ((tags.map Prod.fst).zip (idx.map (·.2))).length ≤ 65536 := by
    rw [List.length_zip, List.length_map, List.length_map]; omega
  obtain ⟨t, l0, pr, e2, hc, hti, hel⟩ := tagBuild_spec hm0 hkl
  have hget := get_spec hm0 hkl e2
  have hperm := build_perm hm0 hkl e2
  -- all values are in the table
  have hval : ∀ p ∈ t.entry, ∃ s, strings[p.2]? = some s := by
    intro p hp
    have := List.of_mem_zip (hperm.mem_iff.1 hp)
    obtain ⟨q, hq, e⟩ := List.mem_map.1 this.2
    obtain ⟨j, hj⟩ := List.getElem?_of_mem hq
    have hj' : j < tags.length := by have := rd_some_lt (v := idx) hj; omega
    have := (List.forall₂_iff_get.1 h2).2 j (rd_some_lt (v := idx) hj) hj'
    rw [List.get_eq_getElem, List.get_eq_getElem] at this
    have hjq : idx[j]'(rd_some_lt (v := idx) hj) = q := by
      rw [List.getElem?_eq_getElem (rd_some_lt (v := idx) hj)] at hj
      injection hj
    rw [hjq, e] at this
    exact ⟨_, this.2⟩
  have e3 : resMap (fun p : List Byte × Nat => do
      let s ← strAt strings p.2
      Res.ok (p.1, s)) t.entry = .ok (t.entry.map fun p => (p.1, (strings[p.2]?).getD [])) := by
    apply resMap_ok (R := fun (p : List Byte × Nat) (q : List Byte × List Byte) => q = (p.1, (strings[p.2]?).getD []) ∧ ∃ s, strings[p.2]? = some s)
    · rintro a b ⟨rfl, s, hs⟩
      rw [strAt_ok hs, hs]
      rfl
    · rw [List.forall₂_map_right_iff, List.forall₂_same]
      intro p hp
      exact ⟨rfl, hval p hp⟩
  refine ⟨⟨t.hashElementList, t.entry.map fun p => (p.1, (strings[p.2]?).getD []), t.entryBegin, t.entryEnd⟩, ?_,
    ⟨hc.lenB, hc.lenE, hc.inB, hc.zero⟩, ?_, ?_⟩
  · unfold buildTags
    rw [e1, Res.ok_bind, e2, Res.ofOption_some, Res.ok_bind, e3]
    rfl
  · intro key
    have hg := hget key
    unfold TagMap.get at hg ⊢
    obtain ⟨h, eh, hh⟩ := strHash_spec key
    rw [eh] at hg ⊢
    simp only [Option.bind_eq_bind, Option.bind_some] at hg ⊢
    cases hb : rd t.entryBegin h with
    | none => rw [hb] at hg; cases hg
    | some b =>
      cases he : rd t.entryEnd h with
      | none => rw [hb, he] at hg; cases hg
      | some e =>
        rw [hb, he] at hg
        simp only [Option.bind_some] at hg ⊢
        rw [tagFind_map (fun i => (strings[i]?).getD []), hg]
        simp only [Option.map_some, Option.map_map, Option.some.injEq]
        -- the first pair with the key
        clear hg e1 hkl hget hperm hval e2 hlen hlt e3 hti hel
        induction h2 with
        | nil => rfl
        | @cons i tg idx tags h1 h2 ih =>
          simp only [List.map_cons, List.zip_cons_cons, List.find?_cons]
          by_cases hk : tg.1 = key
          · simp [hk, h1.2]
          · simp only [hk, decide_false]
            exact ih
  · have := hperm.map fun p => (p.1, (strings[p.2]?).getD [])
    have e : ((tags.map Prod.fst).zip (idx.map (·.2))).map (fun p => (p.1, (strings[p.2]?).getD [])) = tags := by
      clear hkl hget hperm hval e2 hlen hlt e3 hti hel e1 this
      induction h2 with
      | nil => rfl
      | @cons i tg idx tags h1 h2 ih =>
        simp only [List.map_cons, List.zip_cons_cons]
        rw [ih, h1.2]
        rfl
    rw [e] at this
    exact this

theorem tagsShow_clear {m m' : TagMap (List Byte)} (hm : TagClean m) (h : m.clear = some m') : TagsShow m' [] := by
  obtain ⟨m1, e, _, _, h3, h4⟩ := tagClear_spec hm
  rw [h] at e; cases e
  intro key
  obtain ⟨x, ex, hx⟩ := strHash_spec key
  unfold TagMap.get
  rw [h3, h4]
  simp only [ex, rd_replicate hx, Option.bind_eq_bind, Option.bind_some]
  rfl

theorem tagsAre_lt {strings : List (List Byte)} (hs : strings.length < u32) {idx : List (Nat × Nat)} {tags : List (Str × Str)}
    (h : TagsAre strings idx tags) : ∀ p ∈ idx, p.1 < u32 ∧ p.2 < u32 := by
  obtain ⟨_, h2⟩ := h
  intro p hp
  obtain ⟨j, hj⟩ := List.getElem?_of_mem hp
  have hj1 := rd_some_lt (v := idx) hj
  have hj' : j < tags.length := by have := h2.length_eq; omega
  have := (List.forall₂_iff_get.1 h2).2 j hj1 hj'
  rw [List.get_eq_getElem, List.get_eq_getElem] at this
  have hjq : idx[j]'hj1 = p := by
    rw [List.getElem?_eq_getElem hj1] at hj
    injection hj
  rw [hjq] at this
  have h1 := rd_some_lt (v := strings) this.1
  have h2 := rd_some_lt (v := strings) this.2
  omega

/-! ### Objects -/

theorem word_twos (x : Int) : BitVec.ofNat 64 (twos x) = BitVec.ofInt 64 x := by
  apply BitVec.eq_of_toNat_eq
  rw [BitVec.toNat_ofNat, BitVec.toNat_ofInt]
  unfold twos
  apply Nat.mod_eq_of_lt
  have h1 := Int.emod_nonneg x (b := 2 ^ 64) (by decide)
  have h2 := Int.emod_lt_of_pos x (b := 2 ^ 64) (by decide)
  omega

theorem twos_ne {x : Int} (h : FitsInt64 x) (hx : x ≠ -1) : twos x ≠ 2 ^ 64 - 1 := by
  obtain ⟨h, h'⟩ := h
  unfold twos
  omega

theorem decodeWay_ok {b : Block} (hs : b.strings.length < u32) {l : List Byte} {id : Int} {nodes : List Int} {tags : List (Str × Str)}
    (h : EncodesWay b.strings l id nodes tags) (hid : id ≠ -1)
    {m : TagMap (List Byte)} (hm : TagClean m) :
    ∃ e m', decodeWay b l m = ([e], .ok m') ∧ TagClean m' ∧ Reported e (.way id nodes tags) := by
  obtain ⟨fs, idx, g1, gi, g2, g3, g4, g5, g6⟩ := h
  obtain ⟨m', e, c, sh, pm⟩ := buildTags_ok hm g5
  refine ⟨.way (BitVec.ofInt 64 id) (nodes.map (BitVec.ofInt 64)) m', m', ?_, c, rfl, rfl, sh, pm⟩
  unfold decodeWay
  rw [message_ok g1]
  simp only [Res.ok_bind]
  rw [lastNum_one g2, if_neg (twos_ne gi hid), pairLoop_ok idx _ _ _ (packed_mem g3) (packed_mem g4) (tagsAre_lt hs g5) (by omega)]
  simp only [Res.ok_bind]
  rw [e]
  simp only [Res.ok_bind]
  have := nodeLoop_ok nodes 0 ((mem (lastStr 8 fs)).length + 1) (mem (lastStr 8 fs)) (packed_mem g6) (by omega)
  rw [show (0 : Word) = BitVec.ofInt 64 0 from rfl, this, word_twos]
  rfl

theorem memberLoop_ok {strings : List (List Byte)} : ∀ (members : List (Nat × Int × Str)) (p : Int) (fuel : Nat) (ids roles types : List Byte)
    (rs : List Nat), EncodesPacked ids ((deltas p (members.map (·.2.1))).map zigzag) → EncodesPacked roles rs →
    List.Forall₂ (fun r (m : Nat × Int × Str) => strings[r]? = some m.2.2) rs members → EncodesPacked types (members.map Prod.fst) →
    (∀ m ∈ members, m.1 < 3) → ids.length < fuel →
    memberLoop strings fuel ids roles types (BitVec.ofInt 64 p) =
      .ok (members.map fun m => (m.1, BitVec.ofInt 64 m.2.1, m.2.2))
  | _, _, 0, _, _, _, _, _, _, _, _, _, h => absurd h (Nat.not_lt_zero _)
  | [], p, fuel + 1, ids, roles, types, rs, h, _, _, _, _, _ => by
    rw [packed_nil h]; rfl
  | m :: members, p, fuel + 1, ids, roles, types, r :: rs, h1, h2, .cons hr h3, h4, h5, hf => by
    simp only [List.map_cons, deltas] at h1
    obtain ⟨ids', e1, g1, g2, g3, g4⟩ := packed_cons h1
    obtain ⟨roles', e2, k1, k2, k3, k4⟩ := packed_cons h2
    obtain ⟨types', e3, t1, t2, t3, t4⟩ := packed_cons h4
    have hrl : r < strings.length := rd_some_lt (v := strings) hr
    have hrd : rd strings r = some m.2.2 := hr
    have ht := h5 m List.mem_cons_self
    unfold memberLoop
    rw [if_pos g4, e1]
    simp only [Res.ok_bind]
    rw [e2]
    simp only [Res.ok_bind]
    rw [word_toNat k2, decide_eq_true hrl, Res.require_true, Res.ok_bind, hrd, Res.ofOption_some, Res.ok_bind, e3]
    simp only [Res.ok_bind]
    rw [word_toNat t2, decide_eq_true ht, Res.require_true, Res.ok_bind, zigzag_back g2, word_delta,
      memberLoop_ok members m.2.1 fuel ids' roles' types' rs g1 k1 h3 t1 (fun q hq => h5 q (List.mem_cons_of_mem _ hq)) (by omega)]
    rfl

theorem decodeRelation_ok {b : Block} (hs : b.strings.length < u32) {l : List Byte} {id : Int} {members : List (Nat × Int × Str)}
    {tags : List (Str × Str)} (h : EncodesRelation b.strings l id members tags) (hid : id ≠ -1)
    {m : TagMap (List Byte)} (hm : TagClean m) :
    ∃ e m', decodeRelation b l m = ([e], .ok m') ∧ TagClean m' ∧ Reported e (.relation id members tags) := by
  obtain ⟨fs, idx, roles, g1, gi, g2, g3, g4, g5, g6, g7, g8, g9, g10⟩ := h
  obtain ⟨m', e, c, sh, pm⟩ := buildTags_ok hm g5
  refine ⟨.relation (BitVec.ofInt 64 id) (members.map fun m => (m.1, BitVec.ofInt 64 m.2.1, m.2.2)) m', m', ?_, c, rfl, rfl, sh, pm⟩
  unfold decodeRelation
  rw [message_ok g1]
  simp only [Res.ok_bind]
  rw [lastNum_one g2, if_neg (twos_ne gi hid), pairLoop_ok idx _ _ _ (packed_mem g3) (packed_mem g4) (tagsAre_lt hs g5) (by omega)]
  simp only [Res.ok_bind]
  rw [e]
  simp only [Res.ok_bind]
  have := memberLoop_ok members 0 ((mem (lastStr 9 fs)).length + 1) (mem (lastStr 9 fs)) (mem (lastStr 8 fs)) (mem (lastStr 10 fs)) roles
    (packed_mem g8) (packed_mem g6) g7 (packed_mem g9) g10 (by omega)
  rw [show (0 : Word) = BitVec.ofInt 64 0 from rfl, this, word_twos]
  rfl

theorem denseTags_ok : ∀ (idx : List (Nat × Nat)) (fuel : Nat) (l : List Byte) (rest : List Nat),
    EncodesPacked l (idx.flatMap (fun p => [p.1, p.2]) ++ 0 :: rest) → (∀ p ∈ idx, p.1 < u32 ∧ p.2 < u32) → (∀ p ∈ idx, p.1 ≠ 0) →
    l.length < fuel → ∃ l', denseTags fuel l = .ok (idx, l') ∧ EncodesPacked l' rest
  | _, 0, _, _, _, _, _, h => absurd h (Nat.not_lt_zero _)
  | [], fuel + 1, l, rest, h, _, _, _ => by
    rw [List.flatMap_nil, List.nil_append] at h
    obtain ⟨l', e, g1, _⟩ := packed_cons h
    refine ⟨l', ?_, g1⟩
    unfold denseTags
    rw [e]
    rfl
  | p :: idx, fuel + 1, l, rest, h, hb, hz, hf => by
    rw [List.flatMap_cons, List.append_assoc] at h
    obtain ⟨l1, e1, g1, g2, g3, g4⟩ := packed_cons h
    obtain ⟨l2, e2, k1, k2, k3, k4⟩ := packed_cons g1
    obtain ⟨b1, b2⟩ := hb p List.mem_cons_self
    have hp0 := hz p List.mem_cons_self
    obtain ⟨l', e3, q⟩ := denseTags_ok idx fuel l2 rest k1 (fun q hq => hb q (List.mem_cons_of_mem _ hq))
      (fun q hq => hz q (List.mem_cons_of_mem _ hq)) (by omega)
    refine ⟨l', ?_, q⟩
    have hne : BitVec.ofNat 64 p.1 ≠ 0 := by
      intro h
      have := congrArg BitVec.toNat h
      rw [word_toNat g2] at this
      exact hp0 this
    unfold denseTags
    rw [e1]
    simp only [Res.ok_bind]
    rw [if_neg hne, e2]
    simp only [Res.ok_bind]
    rw [e3]
    simp only [Res.ok_bind]
    rw [word_toNat g2, word_toNat k2, Nat.mod_eq_of_lt b1, Nat.mod_eq_of_lt b2]

/-- The tags of the remaining dense nodes. -/
def DenseTagsLeft (s : DenseState) (nodes : List DenseNode) : Prop :=
  (s.kvs = none ∧ (∀ n ∈ nodes, n.idx = []) ∧ TagsShow s.tags []) ∨
    ∃ c, s.kvs = some c ∧ EncodesPacked c (nodes.flatMap fun n => n.idx.flatMap (fun p => [p.1, p.2]) ++ [0])

theorem denseLoop_ok {b : Block} (hs : b.strings.length < u32) : ∀ (nodes : List DenseNode) (fuel : Nat) (s : DenseState)
    (pid plat plon : Int) (k : Int), EncodesPacked s.ids ((deltas pid (nodes.map (·.id))).map zigzag) →
    EncodesPacked s.lats ((deltas plat (nodes.map (·.lat))).map zigzag) →
    EncodesPacked s.lons ((deltas plon (nodes.map (·.lon))).map zigzag) → DenseTagsLeft s nodes →
    (∀ n ∈ nodes, TagsAre b.strings n.idx n.tags ∧ ∀ p ∈ n.idx, p.1 ≠ 0) →
    s.id = BitVec.ofInt 64 pid → s.lat = b.granularity * plat + k * b.offsetLat →
    s.lon = b.granularity * plon + k * b.offsetLat → TagClean s.tags →
    s.ids.length < fuel →
    ∃ es m', denseLoop b fuel s = (es, .ok m') ∧ TagClean m' ∧
      List.Forall₂ Reported es (nodes.mapIdx fun i n =>
        .node n.id (b.granularity * n.lat + (k + i + 1) * b.offsetLat) (b.granularity * n.lon + (k + i + 1) * b.offsetLat) n.tags)
  | _, 0, _, _, _, _, _, _, _, _, _, _, _, _, _, _, h => absurd h (Nat.not_lt_zero _)
  | [], fuel + 1, s, pid, plat, plon, k, h1, h2, h3, h4, _, _, _, _, hc, _ => by
    refine ⟨[], s.tags, ?_, hc, .nil⟩
    unfold denseLoop
    have hk : mem s.kvs = [] := by
      rcases h4 with ⟨h, _⟩ | ⟨c, h, h5⟩
      · rw [h]; rfl
      · rw [h, packed_nil h5]; rfl
    rw [packed_nil h1, packed_nil h2, packed_nil h3, hk]
    rfl
  | n :: nodes, fuel + 1, s, pid, plat, plon, k, h1, h2, h3, h4, h5, hid, hlat, hlon, hc, hf => by
    simp only [List.map_cons, deltas] at h1 h2 h3
    obtain ⟨ids', e1, g1, g2, g3, g4⟩ := packed_cons h1
    obtain ⟨lats', e2, k1, k2, k3, k4⟩ := packed_cons h2
    obtain ⟨lons', e3, t1, t2, t3, t4⟩ := packed_cons h3
    obtain ⟨ht, hz⟩ := h5 n List.mem_cons_self
    have hlat' : s.lat + (b.lonOffset + b.granularity * (n.lat - plat)) = b.granularity * n.lat + (k + 1) * b.offsetLat := by
      unfold Block.lonOffset
      rw [hlat, Int.mul_sub, Int.add_mul]
      omega
    have hlon' : s.lon + (b.lonOffset + b.granularity * (n.lon - plon)) = b.granularity * n.lon + (k + 1) * b.offsetLat := by
      unfold Block.lonOffset
      rw [hlon, Int.mul_sub, Int.add_mul]
      omega
    have hpass : ∃ kvs m', densePass b s = .ok ⟨ids', lats', lons', kvs, BitVec.ofInt 64 n.id, b.granularity * n.lat + (k + 1) * b.offsetLat, b.granularity * n.lon + (k + 1) * b.offsetLat, m'⟩ ∧
        TagClean m' ∧ TagsShow m' n.tags ∧
        DenseTagsLeft ⟨ids', lats', lons', kvs, BitVec.ofInt 64 n.id, b.granularity * n.lat + (k + 1) * b.offsetLat, b.granularity * n.lon + (k + 1) * b.offsetLat, m'⟩ nodes := by
      unfold densePass
      rw [e1]
      simp only [Res.ok_bind]
      rw [e2]
      simp only [Res.ok_bind]
      rw [e3]
      simp only [Res.ok_bind]
      rw [zigzag_back g2, zigzag_back k2, zigzag_back t2, hid, word_delta, hlat', hlon']
      rcases h4 with ⟨h, h6, h7⟩ | ⟨c, h, h6⟩
      · rw [h]
        have hn := h6 n List.mem_cons_self
        have htn : n.tags = [] := by
          have := ht.2.length_eq
          rw [hn] at this
          exact List.length_eq_zero_iff.1 this.symm
        refine ⟨none, s.tags, rfl, hc, by rw [htn]; exact h7, Or.inl ⟨rfl, fun q hq => h6 q (List.mem_cons_of_mem _ hq), h7⟩⟩
      · rw [h]
        rw [List.flatMap_cons, List.append_assoc] at h6
        obtain ⟨c', e4, q⟩ := denseTags_ok n.idx (c.length + 1) c _ h6 (tagsAre_lt hs ht) hz (by omega)
        obtain ⟨m', e5, hc', hsh, _⟩ := buildTags_ok hc ht
        refine ⟨some c', m', ?_, hc', hsh, Or.inr ⟨c', rfl, q⟩⟩
        simp only
        rw [e4]
        simp only [Res.ok_bind]
        rw [e5]
        rfl
    obtain ⟨kvs, m', ep, hc', hsh, hleft⟩ := hpass
    obtain ⟨es, m2, er, hc2, hrep⟩ := denseLoop_ok hs nodes fuel
      ⟨ids', lats', lons', kvs, BitVec.ofInt 64 n.id, b.granularity * n.lat + (k + 1) * b.offsetLat, b.granularity * n.lon + (k + 1) * b.offsetLat, m'⟩ n.id n.lat n.lon (k + 1)
      g1 k1 t1 hleft (fun q hq => h5 q (List.mem_cons_of_mem _ hq)) rfl rfl rfl hc' (by simp only; omega)
    refine ⟨.node (BitVec.ofInt 64 n.id) (b.granularity * n.lat + (k + 1) * b.offsetLat) (b.granularity * n.lon + (k + 1) * b.offsetLat) m' :: es, m2, ?_, hc2,
      ?_⟩
    rotate_left
    · rw [List.mapIdx_cons]
      refine .cons ⟨rfl, by simp, by simp, hsh⟩ ?_
      refine cast ?_ hrep
      congr 1
      congr 1
      funext i n
      rw [show k + 1 + (i : Int) + 1 = k + ((i + 1 : Nat) : Int) + 1 by omega]
    unfold denseLoop
    rw [if_pos g4, ep]
    simp only [after, Out.step]
    rw [er]
    rfl

theorem denseNodes_ok {b : Block} (hs : b.strings.length < u32) {l : List Byte} {nodes : List DenseNode}
    (h : EncodesDense b.strings l nodes) {m : TagMap (List Byte)} (hm : TagClean m) :
    ∃ es m', denseNodes b l m = (es, .ok m') ∧ TagClean m' ∧
      List.Forall₂ Reported es (nodes.mapIdx fun i n =>
        .node n.id (b.granularity * n.lat + (i + 1) * b.offsetLat) (b.granularity * n.lon + (i + 1) * b.offsetLat) n.tags) := by
  obtain ⟨fs, ids, lats, lons, g1, g2, g3, g4, g5, g6, g7, g8, g9⟩ := h
  obtain ⟨m1, ec, _⟩ := tagClear_spec hm
  have hc1 := tagClean_clear hm ec
  obtain ⟨es, m', e, hc, hr⟩ := denseLoop_ok hs nodes (ids.length + 1) ⟨ids, lats, lons, lastStr 10 fs, 0, 0, 0, m1⟩ 0 0 0 0
    g3 g5 g7 (by
      rcases g8 with ⟨g, g'⟩ | ⟨c, g, g'⟩
      · exact Or.inl ⟨lastStr_none g, g', tagsShow_clear hm ec⟩
      · exact Or.inr ⟨c, lastStr_one g, g'⟩) g9 rfl (by simp) (by simp) hc1 (by simp)
  refine ⟨es, m', ?_, hc, by simpa only [Int.zero_add] using hr⟩
  unfold denseNodes
  rw [message_ok g1]
  simp only [Res.ok_bind]
  rw [lastStr_one g2, lastStr_one g4, lastStr_one g6]
  simp only
  rw [ec]
  simp only [Res.ofOption_some, Res.ok_bind, after]
  exact e

theorem mapIdx_const {α β : Type} (f : α → β) : ∀ l : List α, l.mapIdx (fun _ a => f a) = l.map f
  | [] => rfl
  | a :: l => by rw [List.mapIdx_cons, mapIdx_const f l]; rfl

theorem denseNodes_zero {b : Block} (hs : b.strings.length < u32) (h0 : b.offsetLat = 0) {l : List Byte} {nodes : List DenseNode}
    (h : EncodesDense b.strings l nodes) {m : TagMap (List Byte)} (hm : TagClean m) :
    ∃ es m', denseNodes b l m = (es, .ok m') ∧ TagClean m' ∧
      List.Forall₂ Reported es (nodes.map fun n => .node n.id (b.granularity * n.lat) (b.granularity * n.lon) n.tags) := by
  obtain ⟨es, m', e, hc, hr⟩ := denseNodes_ok hs h hm
  refine ⟨es, m', e, hc, ?_⟩
  rw [h0] at hr
  simp only [Int.mul_zero, Int.add_zero] at hr
  rwa [mapIdx_const] at hr

/-! ### Groups and blocks -/

/-- The outcome of a call that reports the objects. -/
def Reports (o : Out) (items : List OsmItem) : Prop :=
  ∃ es m', o = (es, .ok m') ∧ TagClean m' ∧ List.Forall₂ Reported es items

theorem reports_nil {m : TagMap (List Byte)} (hm : TagClean m) : Reports ([], .ok m) [] := ⟨[], m, rfl, hm, .nil⟩

theorem reports_step {o : Out} {f : TagMap (List Byte) → Out} {xs ys : List OsmItem} (h1 : Reports o xs)
    (h2 : ∀ m, TagClean m → Reports (f m) ys) : Reports (o.step f) (xs ++ ys) := by
  obtain ⟨es, m, rfl, c, r⟩ := h1
  obtain ⟨es', m', e, c', r'⟩ := h2 m c
  refine ⟨es ++ es', m', ?_, c', List.rel_append r r'⟩
  simp only [Out.step]
  rw [e]

theorem groupFields_ok {c : Wanted} {h : OsmHeader} {b : Block} (hs : h.strings.length < u32) (hb : b.strings = h.strings)
    (hg : b.granularity = h.granularity) (h0 : b.offsetLat = 0) (hlat : h.latOffset = 0) (hlon : h.lonOffset = 0)
    {fs : List Field} {items : List OsmItem} (hgr : GroupIs h false fs items)
    (hid : ∀ i ∈ items, ¬ i.Reserved) :
    ∀ m, TagClean m → Reports (groupFields c b fs m) (items.filter c.wants) := by
  induction hgr with
  | nil => exact fun m hm => reports_nil hm
  | @other f fs items ho _ ih =>
    intro m hm
    unfold groupFields
    have : groupField c b f m = ([], .ok m) := by
      unfold groupField
      split <;> first | rfl | (have := ho _ _ rfl; omega)
    rw [this]
    simpa using reports_step (reports_nil hm) (ih hid)
  | node hsp _ _ _ => cases hsp
  | @dense l nodes fs items hd _ ih =>
    intro m hm
    unfold groupFields
    rw [List.filter_append]
    refine reports_step ?_ (ih fun i hi => hid i (List.mem_append_right _ hi))
    show Reports (if c.node then denseNodes b l m else ([], .ok m)) _
    by_cases hw : c.node
    · rw [if_pos hw, List.filter_eq_self.2]
      · rw [← hb] at hd
        rw [← hb] at hs
        obtain ⟨es, m', e, hc, hr⟩ := denseNodes_zero hs h0 hd hm
        refine ⟨es, m', e, hc, ?_⟩
        unfold OsmHeader.lat OsmHeader.lon
        rw [hlat, hlon, ← hg]
        simpa only [Int.zero_add] using hr
      · intro a ha
        obtain ⟨n, _, rfl⟩ := List.mem_map.1 ha
        exact hw
    · rw [if_neg hw, List.filter_eq_nil_iff.2]
      · exact reports_nil hm
      · intro a ha
        obtain ⟨n, _, rfl⟩ := List.mem_map.1 ha
        exact hw
  | @way l id nodes tags fs items hd _ ih =>
    intro m hm
    unfold groupFields
    rw [← List.singleton_append, List.filter_append]
    refine reports_step ?_ (ih fun i hi => hid i (List.mem_cons_of_mem _ hi))
    show Reports (if c.way then decodeWay b l m else ([], .ok m)) _
    by_cases hw : c.way
    · rw [if_pos hw, List.filter_eq_self.2]
      · rw [← hb] at hd
        rw [← hb] at hs
        obtain ⟨e, m', he, hc, hr⟩ := decodeWay_ok hs hd (hid _ List.mem_cons_self) hm
        exact ⟨[e], m', he, hc, .cons hr .nil⟩
      · intro a ha
        rw [List.mem_singleton.1 ha]
        exact hw
    · rw [if_neg hw, List.filter_eq_nil_iff.2]
      · exact reports_nil hm
      · intro a ha
        rw [List.mem_singleton.1 ha]
        exact hw
  | @relation l id members tags fs items hd _ ih =>
    intro m hm
    unfold groupFields
    rw [← List.singleton_append, List.filter_append]
    refine reports_step ?_ (ih fun i hi => hid i (List.mem_cons_of_mem _ hi))
    show Reports (if c.relation then decodeRelation b l m else ([], .ok m)) _
    by_cases hw : c.relation
    · rw [if_pos hw, List.filter_eq_self.2]
      · rw [← hb] at hd
        rw [← hb] at hs
        obtain ⟨e, m', he, hc, hr⟩ := decodeRelation_ok hs hd (hid _ List.mem_cons_self) hm
        exact ⟨[e], m', he, hc, .cons hr .nil⟩
      · intro a ha
        rw [List.mem_singleton.1 ha]
        exact hw
    · rw [if_neg hw, List.filter_eq_nil_iff.2]
      · exact reports_nil hm
      · intro a ha
        rw [List.mem_singleton.1 ha]
        exact hw

theorem decodeGroups_ok {c : Wanted} {h : OsmHeader} {b : Block} (hs : h.strings.length < u32) (hb : b.strings = h.strings)
    (hg : b.granularity = h.granularity) (h0 : b.offsetLat = 0) (hlat : h.latOffset = 0) (hlon : h.lonOffset = 0)
    {gs : List (List Byte)} {parts : List (List OsmItem)} (hgr : List.Forall₂ (EncodesGroup h false) gs parts)
    (hid : ∀ i ∈ parts.flatten, ¬ i.Reserved) :
    ∀ m, TagClean m → Reports (decodeGroups c b gs m) (parts.flatten.filter c.wants) := by
  induction hgr with
  | nil => exact fun m hm => reports_nil hm
  | @cons l items gs parts hd _ ih =>
    intro m hm
    unfold decodeGroups
    rw [List.flatten_cons, List.filter_append]
    rw [List.flatten_cons] at hid
    refine reports_step ?_ (ih fun i hi => hid i (List.mem_append_right _ hi))
    obtain ⟨fs, h1, h2⟩ := hd
    unfold decodeGroup
    rw [decodeMessage_whole h1]
    have := groupFields_ok (c := c) hs hb hg h0 hlat hlon h2 (fun i hi => hid i (List.mem_append_left _ hi)) m hm
    have hstep := reports_step this (fun m hm => reports_nil hm)
    rw [List.append_nil] at hstep
    exact hstep

theorem nums_varint (k i x : Nat) (fs : List Field) :
    nums k (.varint i x :: fs) = if i = k then x :: nums k fs else nums k fs := by
  unfold nums
  rw [List.filterMap_cons]
  by_cases h : i = k
  · simp [h]
  · simp [h]

theorem getLastD_step {α : Type} (a b : α) (l : List α) : (a :: l).getLastD b = l.getLastD a := by
  cases l <;> rfl

theorem takeWhile_all {α : Type} {p : α → Bool} : ∀ {l : List α}, (∀ x ∈ l, p x = true) → l.takeWhile p = l
  | [], _ => rfl
  | a :: l, h => by
    rw [List.takeWhile_cons, if_pos (h a List.mem_cons_self), takeWhile_all fun x hx => h x (List.mem_cons_of_mem _ hx)]

theorem blockFields_ok : ∀ (fs : List Field) (b : Block) (ls : List (List (List Byte))),
    List.Forall₂ (fun c l => stringTable c = .ok l) (strs 1 fs) ls →
    blockFields b fs = .ok ⟨(nums 17 fs).getLastD b.granularity,
      ((nums 19 fs).map fun x => zigzagDecode (BitVec.ofNat 64 x)).getLastD b.offsetLat,
      ((nums 20 fs).map fun x => zigzagDecode (BitVec.ofNat 64 x)).getLastD b.offsetLon,
      b.strings ++ ls.flatten, b.groups ++ strs 2 fs⟩
  | [], b, ls, h => by
    cases h
    simp [blockFields, nums, strs]
  | f :: fs, b, ls, h => by
    unfold blockFields
    cases f with
    | varint i x =>
      by_cases h17 : i = 17
      · subst h17
        simp only [blockField, Res.ok_bind]
        rw [blockFields_ok fs _ ls h]
        rw [nums_varint]
        simp only [nums_varint, reduceIte, List.map_cons, getLastD_step, Nat.reduceEqDiff]
        rfl
      by_cases h19 : i = 19
      · subst h19
        simp only [blockField, Res.ok_bind]
        rw [blockFields_ok fs _ ls h]
        rw [nums_varint]
        simp only [nums_varint, reduceIte, List.map_cons, getLastD_step, Nat.reduceEqDiff]
        rfl
      by_cases h20 : i = 20
      · subst h20
        simp only [blockField, Res.ok_bind]
        rw [blockFields_ok fs _ ls h]
        rw [nums_varint]
        simp only [nums_varint, reduceIte, List.map_cons, getLastD_step, Nat.reduceEqDiff]
        rfl
      have e : blockField b (.varint i x) = .ok b := by
        unfold blockField; split <;> simp_all
      rw [e, Res.ok_bind, blockFields_ok fs _ ls h]
      simp [nums, strs, h17, h19, h20]
    | fixed64 i x =>
      simp only [blockField, Res.ok_bind]
      rw [blockFields_ok fs _ ls h]
      simp [nums, strs]
    | fixed32 i x =>
      simp only [blockField, Res.ok_bind]
      rw [blockFields_ok fs _ ls h]
      simp [nums, strs]
    | bytes i c =>
      by_cases h1 : i = 1
      · subst h1
        have e : strs 1 (.bytes 1 c :: fs) = c :: strs 1 fs := by simp [strs]
        rw [e] at h
        cases h with
        | @cons _ l _ ls h1 h2 =>
          simp only [blockField]
          rw [h1, Res.ok_bind, Res.ok_bind, blockFields_ok fs _ ls h2]
          simp [nums, strs]
      have e1 : strs 1 (.bytes i c :: fs) = strs 1 fs := by simp [strs, h1]
      rw [e1] at h
      by_cases h2 : i = 2
      · subst h2
        simp only [blockField, Res.ok_bind]
        rw [blockFields_ok fs _ ls h]
        simp [nums, strs]
      have e : blockField b (.bytes i c) = .ok b := by
        unfold blockField; split <;> simp_all
      rw [e, Res.ok_bind, blockFields_ok fs _ ls h]
      simp [nums, strs, h2]

theorem stringsOf_bytes {l : List (List Byte)} (h : ∀ s ∈ l, (0 : Byte) ∉ s) : stringsOf (l.map (Field.bytes 1)) = l := by
  induction l with
  | nil => rfl
  | cons s l ih =>
    have hs := h s List.mem_cons_self
    unfold stringsOf at ih ⊢
    rw [List.map_cons, List.filterMap_cons]
    simp only
    rw [ih fun q hq => h q (List.mem_cons_of_mem _ hq), takeWhile_all]
    intro x hx
    have : x ≠ 0 := fun e => hs (e ▸ hx)
    simpa using this

theorem optionalNum_last {k d x : Nat} {fs : List Field} (h : OptionalNum k fs d x) : (nums k fs).getLastD d = x := by
  rcases h with ⟨h, rfl⟩ | h
  · rw [h]; rfl
  · rw [h]; rfl

theorem optionalNum_zero {k : Nat} {fs : List Field} (h : OptionalNum k fs 0 (twos 0)) :
    ((nums k fs).map fun x => zigzagDecode (BitVec.ofNat 64 x)).getLastD 0 = 0 := by
  rcases h with ⟨h, _⟩ | h
  · rw [h]; rfl
  · rw [h]; decide

theorem decodeBlock_ok {h : OsmHeader} {sparse : Bool} {l : List Byte} {items : List OsmItem} (he : EncodesBlock h sparse l items)
    (hlat : h.latOffset = 0) (hlon : h.lonOffset = 0) :
    ∃ gs parts, decodeBlock l = .ok ⟨h.granularity, 0, 0, h.strings, gs⟩ ∧ List.Forall₂ (EncodesGroup h sparse) gs parts ∧
      items = parts.flatten ∧ h.strings.length < u32 := by
  obtain ⟨fs, table, parts, g1, g2, g3, g4, g5, g6, g7, _, _, g8, g9, g10, g11⟩ := he
  refine ⟨_, parts, ?_, g10, g11, g5⟩
  have ht : stringTable table = .ok h.strings := by
    unfold stringTable
    rw [message_ok g3, Res.ok_bind, stringsOf_bytes g4]
  have hf : List.Forall₂ (fun c l => stringTable c = .ok l) (strs 1 fs) [h.strings] := by
    rw [g2]; exact .cons ht .nil
  rw [hlat] at g8
  rw [hlon] at g9
  unfold decodeBlock
  rw [decodeMessage_whole g1]
  simp only
  rw [blockFields_ok fs _ _ hf, optionalNum_last g6, optionalNum_zero g8, optionalNum_zero g9]
  simp only [Res.ok_bind]
  rw [if_neg g7]
  simp

theorem readBlock_ok {c : Wanted} {h : OsmHeader} {l : List Byte} {items : List OsmItem} (he : EncodesBlock h false l items)
    (hlat : h.latOffset = 0) (hlon : h.lonOffset = 0) (hid : ∀ i ∈ items, ¬ i.Reserved) :
    ∀ m, TagClean m → Reports (readBlock c l m) (items.filter c.wants) := by
  obtain ⟨gs, parts, e, g1, rfl, g2⟩ := decodeBlock_ok he hlat hlon
  unfold readBlock
  rw [e]
  simp only [after]
  exact decodeGroups_ok (b := ⟨h.granularity, 0, 0, h.strings, gs⟩) g2 rfl rfl rfl hlat hlon g1 hid

/-! ### Deviations from the format -/

theorem fold_absent (k : Nat) (f : Nat → Int) (d : Int) : ∀ (fs : List Field) , nums k fs = [] →
    fs.foldl (fun a g => match g with
      | .varint i x => if i = k then f x else a
      | _ => a) d = d
  | [], _ => rfl
  | g :: fs, h => by
    rw [List.foldl_cons]
    cases g with
    | varint i x =>
      rw [nums_varint] at h
      by_cases e : i = k
      · rw [if_pos e] at h; cases h
      · rw [if_neg e] at h
        simp only [if_neg e]
        exact fold_absent k f d fs h
    | fixed64 i x => exact fold_absent k f d fs (by simpa [nums] using h)
    | fixed32 i x => exact fold_absent k f d fs (by simpa [nums] using h)
    | bytes i x => exact fold_absent k f d fs (by simpa [nums] using h)

theorem zigzag_ne {x : Int} (hx : x ≠ -2 ^ 63) : zigzag x ≠ 2 ^ 64 - 1 := by
  unfold zigzag
  split <;> omega

theorem sparseNode_spec {b : Block} (hs : b.strings.length < u32) {l : List Byte} {id lat lon : Int} {tags : List (Str × Str)}
    (h : EncodesNode b.strings l id lat lon tags) (hid : id ≠ -2 ^ 63) {m : TagMap (List Byte)} (hm : TagClean m) :
    ∃ m', sparseNode b l m = ([.node (BitVec.ofNat 64 (zigzag id)) 0 0 m'], .ok m') ∧ TagClean m' ∧ TagsShow m' tags := by
  obtain ⟨fs, idx, g1, gi, g2, g3, g4, g5, _, _, g6, g7⟩ := h
  obtain ⟨m', e, c, sh, _⟩ := buildTags_ok hm g5
  refine ⟨m', ?_, c, sh⟩
  unfold sparseNode
  rw [message_ok g1]
  simp only [Res.ok_bind]
  rw [lastNum_one g2, if_neg (zigzag_ne hid), pairLoop_ok idx _ _ _ (packed_mem g3) (packed_mem g4) (tagsAre_lt hs g5) (by omega)]
  simp only [Res.ok_bind]
  rw [e]
  exact congrArg₂ (fun p q => ([OsmEvent.node (BitVec.ofNat 64 (zigzag id)) p q m'], Res.ok m'))
    (fold_absent 19 (fun x => b.lonOffset + b.granularity * zigzagDecode (BitVec.ofNat 64 x)) 0 fs g6)
    (fold_absent 20 (fun x => b.latOffset + b.granularity * zigzagDecode (BitVec.ofNat 64 x)) 0 fs g7)

theorem denseLoop_stale {b : Block} : ∀ (fuel : Nat) (s : DenseState), s.kvs = none →
    ∀ e ∈ (denseLoop b fuel s).1, entriesOf e = s.tags.entry
  | 0, _, _, e, he => by cases he
  | fuel + 1, s, hk, e, he => by
    unfold denseLoop at he
    by_cases h : s.ids ≠ []
    · rw [if_pos h] at he
      cases hp : densePass b s with
      | error => rw [hp] at he; cases he
      | ub => rw [hp] at he; cases he
      | ok s' =>
        rw [hp] at he
        have hs' : s'.kvs = none ∧ s'.tags = s.tags := by
          unfold densePass at hp
          obtain ⟨⟨x, ids⟩, _, hp⟩ := Res.bind_eq_ok.1 hp
          obtain ⟨⟨y, lats⟩, _, hp⟩ := Res.bind_eq_ok.1 hp
          obtain ⟨⟨z, lons⟩, _, hp⟩ := Res.bind_eq_ok.1 hp
          rw [hk] at hp
          simp only [Res.ok.injEq] at hp
          subst hp
          exact ⟨rfl, rfl⟩
        simp only [after, Out.step, List.mem_append, List.mem_singleton] at he
        rcases he with rfl | he
        · rw [← hs'.2]; rfl
        · rw [← hs'.2]; exact denseLoop_stale fuel s' hs'.1 e he
    · rw [if_neg h] at he
      split at he <;> cases he

theorem denseNodes_stale {b : Block} {l : List Byte} {fs : List Field} (h : EncodesMessage EncodesVarint l fs) (hk : strs 10 fs = [])
    {m : TagMap (List Byte)} (hm : TagClean m) : ∀ e ∈ (denseNodes b l m).1, entriesOf e = m.entry := by
  intro e he
  unfold denseNodes at he
  rw [message_ok h] at he
  simp only [Res.ok_bind] at he
  obtain ⟨m1, ec, _, hen, _⟩ := tagClear_spec hm
  split at he
  · rw [ec] at he
    simp only [Res.ofOption_some, Res.ok_bind, after] at he
    rw [denseLoop_stale _ _ (lastStr_none hk) e he]
    exact hen
  · cases he

theorem decodeWay_ub {b : Block} (hs : b.strings.length < u32) {l : List Byte} {fs : List Field} {id v : Nat} (h : EncodesMessage EncodesVarint l fs)
    (h1 : nums 1 fs = [id]) (hid : id ≠ 2 ^ 64 - 1) (h2 : PackedField 2 fs [b.strings.length]) (h3 : PackedField 3 fs [v]) (hv : v < u32)
    (m : TagMap (List Byte)) : decodeWay b l m = ([], .ub) := by
  unfold decodeWay
  rw [message_ok h]
  simp only [Res.ok_bind]
  rw [lastNum_one h1, if_neg hid, pairLoop_ok [(b.strings.length, v)] _ _ _ (packed_mem h2) (packed_mem h3) (by simpa using ⟨hs, hv⟩) (by omega)]
  simp only [Res.ok_bind]
  have : buildTags b.strings [(b.strings.length, v)] m = .ub := by
    unfold buildTags resMap strAt
    rw [if_neg (by simp), show rd b.strings b.strings.length = none from List.getElem?_eq_none (Nat.le_refl _)]
    rfl
  rw [this]
  rfl

end RK
