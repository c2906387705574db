import Verif.Model.ChFile
import Verif.Proof.VectorIO
import Verif.Proof.ChCheck
/-! # Helper lemmas: files of contraction hierarchies -/
namespace RK
open Spec

/-- All entries fit into 32 bits. -/
def Fits (v : List Nat) : Prop := ∀ x ∈ v, x < 2 ^ 32

theorem writeVector_ok {hardened : Bool} {v : List Nat} (h : hardened = false ∨ v.length ≠ 0) :
    writeVector hardened podUnsigned v = .ok (podUnsigned.encAll v) := by
  unfold writeVector
  rw [addressOfFirst_ok h, Res.ok_bind]

theorem readVector_ok {hardened : Bool} {v : List Nat} (h : hardened = false ∨ v.length ≠ 0) (hf : Fits v) (rest : List Byte) {n : Nat}
    (hn : v.length = n) : readVector hardened podUnsigned (podUnsigned.encAll v ++ rest) n = .ok (v, rest) := by
  subst hn
  unfold readVector
  have hl := podUnsigned_lawful.encAll_length v
  have := podUnsigned_lawful.decAll_encAll v [] hf
  rw [List.append_nil] at this
  rw [addressOfFirst_ok h, Res.ok_bind, readBytes_append hl, Res.ok_bind]
  simp only [this]

theorem readVector_eq_ok {hardened : Bool} {v : List Nat} {src rest : List Byte} {n : Nat}
    (h : readVector hardened podUnsigned src n = .ok (v, rest)) :
    (hardened = false ∨ v.length ≠ 0) ∧ Fits v ∧ v.length = n ∧ src = podUnsigned.encAll v ++ rest := by
  unfold readVector at h
  obtain ⟨u, h1, h⟩ := Res.bind_eq_ok.1 h
  obtain ⟨⟨l, src'⟩, h2, h⟩ := Res.bind_eq_ok.1 h
  obtain ⟨h3, h4⟩ := readBytes_eq_ok h2
  injection h with h
  injection h with h5 h6
  subst h5 h6
  have hle : podUnsigned.size * n ≤ l.length := le_of_eq h3.symm
  refine ⟨by rw [Pod.decAll_length]; exact addressOfFirst_eq_ok h1, podUnsigned_lawful.decAll_valid n l hle, Pod.decAll_length n l, ?_⟩
  rw [podUnsigned_lawful.encAll_decAll n l hle, ← h3, List.take_length, h4]

theorem writeBitVector_ok {v : BitVector} (h : BitVector.Shape v) : writeBitVector v = .ok (podWord.encAll v.words) := blockBytes_spec h

theorem podWord_dec_all (ws : List Word) (rest : List Byte) : podWord.decAll ws.length (podWord.encAll ws ++ rest) = ws :=
  podWord_lawful.decAll_encAll ws rest fun _ _ => trivial

theorem readBitVector_ok {v : BitVector} {B : List Bool} (h : v.Rep B) (rest : List Byte) {n : Nat} (hn : v.size = n) :
    ∃ v', readBitVector (podWord.encAll v.words ++ rest) n = .ok (v', rest) ∧ v'.Rep B := by
  subst hn
  obtain ⟨u, v', e, e1, s, w⟩ := overwrite_new h.shape.bound (podWord.encAll v.words)
  have hl : (podWord.encAll v.words).length = BitVector.v8Count v.size * 64 := by
    rw [podWord_lawful.encAll_length, ← v8_len h.shape]
    show 8 * _ = _
    ring
  refine ⟨v', ?_, rep_of_words h s (w.trans ?_)⟩
  · unfold readBitVector
    rw [e, Res.ofOption_some, Res.ok_bind, readBytes_append hl, Res.ok_bind]
    simp only [e1, Res.ok_bind]
  · have := podWord_dec_all v.words []
    rw [List.append_nil, h.shape.len] at this
    exact this

theorem readBitVector_eq_ok {v : BitVector} {src rest : List Byte} {n : Nat} (hn : n + 511 < u64)
    (h : readBitVector src n = .ok (v, rest)) : BitVector.Shape v ∧ v.size = n ∧ src = podWord.encAll v.words ++ rest := by
  unfold readBitVector at h
  obtain ⟨u, h1, h⟩ := Res.bind_eq_ok.1 h
  obtain ⟨⟨l, src'⟩, h2, h⟩ := Res.bind_eq_ok.1 h
  obtain ⟨v', h3, h⟩ := Res.bind_eq_ok.1 h
  injection h with h
  injection h with h4 h5
  subst h4 h5
  obtain ⟨h6, h7⟩ := readBytes_eq_ok h2
  obtain ⟨u', v'', e, e1, s, w⟩ := overwrite_new hn l
  rw [e, Res.ofOption_some] at h1
  cases h1
  cases (h3.symm.trans e1 : Res.ok v' = Res.ok v'')
  have hlen : v'.words.length = BitVector.u64Count n := by rw [w, Pod.decAll_length]
  refine ⟨⟨by rw [s]; exact hn, by rw [hlen, s]⟩, s, ?_⟩
  have hl : podWord.size * BitVector.u64Count n = l.length := by
    rw [h6]; show 8 * (BitVector.v8Count n * 8) = _; ring
  rw [w, podWord_lawful.encAll_decAll _ _ (le_of_eq hl), hl, List.take_length, h7]

/-- Sizes and contents of one direction with `n` nodes. -/
structure SideFits (hardened : Bool) (n : Nat) (s : ChSide) : Prop where
  firstOut : s.firstOut.length = n
  weight : s.weight.length = s.head.length
  first : s.first.length = s.head.length
  second : s.second.length = s.head.length
  size : s.isOriginal.size = s.head.length
  fits : Fits s.firstOut ∧ Fits s.head ∧ Fits s.weight ∧ Fits s.first ∧ Fits s.second
  address : hardened = false ∨ (s.firstOut.length ≠ 0 ∧ s.head.length ≠ 0)

/-- The bytes of one direction. -/
def sideChunks (s : ChSide) : List (List Byte) :=
  [podUnsigned.encAll s.firstOut, podUnsigned.encAll s.head, podUnsigned.encAll s.weight, podWord.encAll s.isOriginal.words,
    podUnsigned.encAll s.first, podUnsigned.encAll s.second]

/-- The same direction up to the representation of the bit vector. -/
def SameSide (s s' : ChSide) (B : List Bool) : Prop :=
  s'.firstOut = s.firstOut ∧ s'.head = s.head ∧ s'.weight = s.weight ∧ s'.first = s.first ∧ s'.second = s.second ∧ s'.isOriginal.Rep B

theorem writeSide_ok {hardened : Bool} {n : Nat} {s : ChSide} (h : SideFits hardened n s) (hs : BitVector.Shape s.isOriginal) :
    writeSide hardened s = .ok (sideChunks s) := by
  have a := h.address
  unfold writeSide
  rw [writeVector_ok (a.imp_right And.left), Res.ok_bind, writeVector_ok (a.imp_right And.right), Res.ok_bind,
    writeVector_ok (a.imp_right fun x => by rw [h.weight]; exact x.2), Res.ok_bind, writeBitVector_ok hs, Res.ok_bind,
    writeVector_ok (a.imp_right fun x => by rw [h.first]; exact x.2), Res.ok_bind,
    writeVector_ok (a.imp_right fun x => by rw [h.second]; exact x.2), Res.ok_bind]
  rfl

theorem readSide_ok {hardened : Bool} {n nodeCount : Nat} {s : ChSide} {B : List Bool} (h : SideFits hardened n s) (hB : s.isOriginal.Rep B)
    (hn : add32 nodeCount 1 = n) (rest : List Byte) :
    ∃ s', readSide hardened ((sideChunks s).flatten ++ rest) nodeCount s.head.length = .ok (s', rest) ∧ SameSide s s' B := by
  have a := h.address
  obtain ⟨f1, f2, f3, f4, f5⟩ := h.fits
  obtain ⟨v', e, r⟩ := readBitVector_ok hB (podUnsigned.encAll s.first ++ (podUnsigned.encAll s.second ++ rest)) h.size
  refine ⟨⟨s.firstOut, s.head, s.weight, s.first, s.second, v'⟩, ?_, rfl, rfl, rfl, rfl, rfl, r⟩
  have hflat : (sideChunks s).flatten ++ rest = podUnsigned.encAll s.firstOut ++ (podUnsigned.encAll s.head ++
      (podUnsigned.encAll s.weight ++ (podWord.encAll s.isOriginal.words ++ (podUnsigned.encAll s.first ++
        (podUnsigned.encAll s.second ++ rest))))) := by
    simp [sideChunks]
  unfold readSide
  rw [hflat, readVector_ok (a.imp_right And.left) f1 _ (h.firstOut.trans hn.symm), Res.ok_bind]
  simp only []
  rw [readVector_ok (a.imp_right And.right) f2 _ rfl, Res.ok_bind]
  simp only []
  rw [readVector_ok (a.imp_right fun x => by rw [h.weight]; exact x.2) f3 _ h.weight, Res.ok_bind]
  simp only []
  rw [e, Res.ok_bind]
  simp only []
  rw [readVector_ok (a.imp_right fun x => by rw [h.first]; exact x.2) f4 _ h.first, Res.ok_bind]
  simp only []
  rw [readVector_ok (a.imp_right fun x => by rw [h.second]; exact x.2) f5 _ h.second, Res.ok_bind]

theorem readSide_eq_ok {hardened : Bool} {nodeCount m : Nat} {s : ChSide} {src rest : List Byte} (hm : m + 511 < u64)
    (h : readSide hardened src nodeCount m = .ok (s, rest)) :
    SideFits hardened (add32 nodeCount 1) s ∧ s.head.length = m ∧ BitVector.Shape s.isOriginal ∧ src = (sideChunks s).flatten ++ rest := by
  unfold readSide at h
  obtain ⟨⟨v1, s1⟩, e1, h⟩ := Res.bind_eq_ok.1 h
  obtain ⟨⟨v2, s2⟩, e2, h⟩ := Res.bind_eq_ok.1 h
  obtain ⟨⟨v3, s3⟩, e3, h⟩ := Res.bind_eq_ok.1 h
  obtain ⟨⟨v4, s4⟩, e4, h⟩ := Res.bind_eq_ok.1 h
  obtain ⟨⟨v5, s5⟩, e5, h⟩ := Res.bind_eq_ok.1 h
  obtain ⟨⟨v6, s6⟩, e6, h⟩ := Res.bind_eq_ok.1 h
  injection h with h
  injection h with h7 h8
  subst h7 h8
  obtain ⟨a1, b1, c1, d1⟩ := readVector_eq_ok e1
  obtain ⟨a2, b2, c2, d2⟩ := readVector_eq_ok e2
  obtain ⟨a3, b3, c3, d3⟩ := readVector_eq_ok e3
  obtain ⟨b4, c4, d4⟩ := readBitVector_eq_ok hm e4
  obtain ⟨a5, b5, c5, d5⟩ := readVector_eq_ok e5
  obtain ⟨a6, b6, c6, d6⟩ := readVector_eq_ok e6
  refine ⟨⟨c1, c3.trans c2.symm, c5.trans c2.symm, c6.trans c2.symm, c4.trans c2.symm, ⟨b1, b2, b3, b5, b6⟩, ?_⟩, c2, b4, ?_⟩
  · rcases a1 with a1 | a1
    · exact Or.inl a1
    · rcases a2 with a2 | a2
      · exact Or.inl a2
      · exact Or.inr ⟨a1, a2⟩
  · rw [d1, d2, d3, d4, d5, d6]
    simp [sideChunks]

/-! ### Headers -/

theorem ChHeader.enc_length (h : ChHeader) {pad : List Byte} (hp : pad.length = 4) : (h.enc pad).length = 24 := by
  simp only [ChHeader.enc, List.length_append, leBytes_length, hp]

/-- The entries of a header fit into their fields. -/
def ChHeader.Ok (h : ChHeader) : Prop :=
  h.magic < 2 ^ 64 ∧ h.nodeCount < 2 ^ 32 ∧ h.forwardArcCount < 2 ^ 32 ∧ h.backwardArcCount < 2 ^ 32

theorem drop_left' {a b : List Byte} {k : Nat} (h : a.length = k) : (a ++ b).drop k = b := by subst h; exact List.drop_left
theorem take_left' {a b : List Byte} {k : Nat} (h : a.length = k) : (a ++ b).take k = a := by subst h; exact List.take_left

theorem ChHeader.dec_enc (h : ChHeader) (pad : List Byte) (ok : h.Ok) : ChHeader.dec (h.enc pad) = h := by
  obtain ⟨o1, o2, o3, o4⟩ := ok
  have e1 : (h.enc pad).take 8 = leBytes 8 h.magic := by
    simp only [ChHeader.enc, List.append_assoc]; exact take_left' (leBytes_length _ _)
  have e2 : ((h.enc pad).drop 8).take 4 = leBytes 4 h.nodeCount := by
    simp only [ChHeader.enc, List.append_assoc]; rw [drop_left' (leBytes_length _ _)]; exact take_left' (leBytes_length _ _)
  have e3 : ((h.enc pad).drop 12).take 4 = leBytes 4 h.forwardArcCount := by
    rw [show h.enc pad = (leBytes 8 h.magic ++ leBytes 4 h.nodeCount) ++ (leBytes 4 h.forwardArcCount ++
      (leBytes 4 h.backwardArcCount ++ pad)) by simp [ChHeader.enc]]
    rw [drop_left' (by simp [leBytes_length])]; exact take_left' (leBytes_length _ _)
  have e4 : ((h.enc pad).drop 16).take 4 = leBytes 4 h.backwardArcCount := by
    rw [show h.enc pad = (leBytes 8 h.magic ++ leBytes 4 h.nodeCount ++ leBytes 4 h.forwardArcCount) ++ (
      (leBytes 4 h.backwardArcCount ++ pad)) by simp [ChHeader.enc]]
    rw [drop_left' (by simp [leBytes_length])]; exact take_left' (leBytes_length _ _)
  unfold ChHeader.dec
  rw [e1, e2, e3, e4, leVal_leBytes _ _ (lt_of_lt_of_eq o1 (by norm_num)), leVal_leBytes _ _ (lt_of_lt_of_eq o2 (by norm_num)),
    leVal_leBytes _ _ (lt_of_lt_of_eq o3 (by norm_num)), leVal_leBytes _ _ (lt_of_lt_of_eq o4 (by norm_num))]

theorem leVal_part {l : List Byte} {k : Nat} (h : l.length = k) : leBytes k (leVal l) = l := by subst h; exact leBytes_leVal l

theorem ChHeader.enc_dec {l : List Byte} (hl : l.length = 24) :
    (ChHeader.dec l).enc (l.drop 20) = l ∧ (l.drop 20).length = 4 ∧ (ChHeader.dec l).Ok := by
  have t : ∀ i k, i + k ≤ 24 → ((l.drop i).take k).length = k := by
    intro i k h; rw [List.length_take, List.length_drop]; omega
  have v4 : ∀ i, i + 4 ≤ 24 → leVal ((l.drop i).take 4) < 2 ^ 32 := by
    intro i h; have := leVal_lt ((l.drop i).take 4); rw [t i 4 h] at this; exact this
  have t0 : (l.take 8).length = 8 := by rw [List.length_take]; omega
  have v0 : leVal (l.take 8) < 2 ^ 64 := by have := leVal_lt (l.take 8); rw [t0] at this; exact lt_of_lt_of_eq this (by norm_num)
  refine ⟨?_, by rw [List.length_drop]; omega, v0, v4 _ (by omega), v4 _ (by omega), v4 _ (by omega)⟩
  unfold ChHeader.enc ChHeader.dec
  simp only []
  rw [leVal_part t0, leVal_part (t 8 4 (by omega)), leVal_part (t 12 4 (by omega)), leVal_part (t 16 4 (by omega))]
  have d : ∀ i, (l.drop i).take 4 ++ l.drop (i + 4) = l.drop i := by
    intro i; rw [← List.drop_drop]; exact List.take_append_drop 4 (l.drop i)
  have d16 := d 16
  have d12 := d 12
  have d8 := d 8
  norm_num at d16 d12 d8
  rw [List.append_assoc, List.append_assoc, List.append_assoc, d16, d12, d8, List.take_append_drop]

/-! ### Whole hierarchies -/

/-- Sizes and contents of a hierarchy with `n` nodes (`n1 = n + 1` modulo `2^32`). -/
structure ChFits (hardened : Bool) (n : Nat) (ch : Ch) : Prop where
  rank : ch.rank.length = n
  n_lt : n < 2 ^ 32
  fits : Fits ch.rank
  fwd : SideFits hardened (add32 n 1) ch.forward
  bwd : SideFits hardened (add32 n 1) ch.backward
  fwd_lt : ch.forward.head.length < 2 ^ 32
  bwd_lt : ch.backward.head.length < 2 ^ 32
  address : hardened = false ∨ n ≠ 0
  shapeF : BitVector.Shape ch.forward.isOriginal
  shapeB : BitVector.Shape ch.backward.isOriginal

/-- The calls of the sink. -/
def chChunks (pad : List Byte) (ch : Ch) : List (List Byte) :=
  [ch.header.enc pad, podUnsigned.encAll ch.rank] ++ sideChunks ch.forward ++ sideChunks ch.backward

theorem writeCh_ok {hardened : Bool} {n : Nat} {ch : Ch} (h : ChFits hardened n ch) (pad : List Byte) :
    writeCh hardened pad ch = .ok (chChunks pad ch) := by
  unfold writeCh
  rw [writeVector_ok (h.address.imp_right fun x => by rw [h.rank]; exact x), Res.ok_bind, writeSide_ok h.fwd h.shapeF, Res.ok_bind,
    writeSide_ok h.bwd h.shapeB, Res.ok_bind]
  rfl

theorem ChFits.header {hardened : Bool} {n : Nat} {ch : Ch} (h : ChFits hardened n ch) :
    ch.header = ⟨chMagic, n, ch.forward.head.length, ch.backward.head.length⟩ := by
  unfold Ch.header
  have e1 : add32 ch.forward.firstOut.length invalidId = n := by
    rw [h.fwd.firstOut]
    have := h.n_lt
    have hu : u32 = 4294967296 := rfl
    have hi : invalidId = 4294967295 := rfl
    unfold add32
    rw [hu, hi]
    omega
  have e2 : ch.forward.head.length % u32 = ch.forward.head.length := Nat.mod_eq_of_lt h.fwd_lt
  have e3 : ch.backward.head.length % u32 = ch.backward.head.length := Nat.mod_eq_of_lt h.bwd_lt
  rw [e1, e2, e3]

theorem ChFits.headerOk {hardened : Bool} {n : Nat} {ch : Ch} (h : ChFits hardened n ch) : ch.header.Ok := by
  rw [h.header]
  exact ⟨by show chMagic < 2 ^ 64; decide, h.n_lt, h.fwd_lt, h.bwd_lt⟩

theorem readHeader_ok {h : ChHeader} (ok : h.Ok) (hm : h.magic = chMagic) {pad : List Byte} (hp : pad.length = 4) (rest : List Byte) :
    readHeader (h.enc pad ++ rest) = .ok (h, rest) := by
  unfold readHeader
  rw [readBytes_append (ChHeader.enc_length h hp), Res.ok_bind]
  simp only [ChHeader.dec_enc h pad ok, hm, decide_true, Res.require_true, Res.ok_bind]

theorem finishRead_ok {hardened : Bool} {n : Nat} {ch : Ch} {OF OB : List Bool} (h : ChFits hardened n ch)
    (hF : ch.forward.isOriginal.Rep OF) (hB : ch.backward.isOriginal.Rep OB) (ho : invertPermutation ch.rank = some ch.order) (rest : List Byte) :
    ∃ f b, finishRead hardened (podUnsigned.encAll ch.rank ++ ((sideChunks ch.forward).flatten ++ ((sideChunks ch.backward).flatten ++ rest)))
        ⟨chMagic, n, ch.forward.head.length, ch.backward.head.length⟩ = .ok (⟨ch.rank, ch.order, f, b⟩, rest) ∧
      SameSide ch.forward f OF ∧ SameSide ch.backward b OB := by
  obtain ⟨f, ef, sf⟩ := readSide_ok h.fwd hF rfl ((sideChunks ch.backward).flatten ++ rest)
  obtain ⟨b, eb, sb⟩ := readSide_ok h.bwd hB rfl rest
  refine ⟨f, b, ?_, sf, sb⟩
  unfold finishRead
  simp only []
  rw [readVector_ok (h.address.imp_right fun x => by rw [h.rank]; exact x) h.fits _ h.rank, Res.ok_bind]
  simp only []
  rw [ho, Res.ofOption_some, Res.ok_bind, ef, Res.ok_bind]
  simp only []
  rw [eb, Res.ok_bind]

theorem chunks_flatten (pad : List Byte) (ch : Ch) (rest : List Byte) : (chChunks pad ch).flatten ++ rest =
    ch.header.enc pad ++ (podUnsigned.encAll ch.rank ++ ((sideChunks ch.forward).flatten ++ ((sideChunks ch.backward).flatten ++ rest))) := by
  simp [chChunks]

theorem finishRead_eq_ok {hardened : Bool} {hd : ChHeader} (ok : hd.Ok) {ch : Ch} {src rest : List Byte}
    (h : finishRead hardened src hd = .ok (ch, rest)) :
    ChFits hardened hd.nodeCount ch ∧ ch.forward.head.length = hd.forwardArcCount ∧ ch.backward.head.length = hd.backwardArcCount ∧
      invertPermutation ch.rank = some ch.order ∧
      src = podUnsigned.encAll ch.rank ++ ((sideChunks ch.forward).flatten ++ ((sideChunks ch.backward).flatten ++ rest)) := by
  obtain ⟨_, o2, o3, o4⟩ := ok
  have hu : u64 = 18446744073709551616 := rfl
  unfold finishRead at h
  obtain ⟨⟨rank, s1⟩, e1, h⟩ := Res.bind_eq_ok.1 h
  obtain ⟨order, e2, h⟩ := Res.bind_eq_ok.1 h
  obtain ⟨⟨f, s3⟩, e3, h⟩ := Res.bind_eq_ok.1 h
  obtain ⟨⟨b, s4⟩, e4, h⟩ := Res.bind_eq_ok.1 h
  injection h with h
  injection h with h7 h8
  subst h7 h8
  obtain ⟨a1, b1, c1, d1⟩ := readVector_eq_ok e1
  obtain ⟨a3, b3, c3, d3⟩ := readSide_eq_ok (by omega) e3
  obtain ⟨a4, b4, c4, d4⟩ := readSide_eq_ok (by omega) e4
  refine ⟨⟨c1, o2, b1, a3, a4, by simp only [b3]; exact o3, by simp only [b4]; exact o4, a1.imp_right fun x => by rw [← c1]; exact x, c3, c4⟩, b3, b4,
    Res.ofOption_eq_ok.1 e2, ?_⟩
  rw [d1, d3, d4]

theorem readHeader_eq_ok {src rest : List Byte} {hd : ChHeader} (h : readHeader src = .ok (hd, rest)) :
    hd.Ok ∧ hd.magic = chMagic ∧ ∃ pad : List Byte, pad.length = 4 ∧ src = hd.enc pad ++ rest := by
  unfold readHeader at h
  obtain ⟨⟨l, s1⟩, e1, h⟩ := Res.bind_eq_ok.1 h
  obtain ⟨u, e2, h⟩ := Res.bind_eq_ok.1 h
  injection h with h
  injection h with h7 h8
  subst h7 h8
  obtain ⟨h1, h2⟩ := readBytes_eq_ok e1
  obtain ⟨g1, g2, g3⟩ := ChHeader.enc_dec h1
  exact ⟨g3, of_decide_eq_true (Res.require_eq_ok.1 e2), _, g2, by rw [g1, h2]⟩

/-- The number of bytes. -/
theorem chunks_length {hardened : Bool} {n : Nat} {ch : Ch} (h : ChFits hardened n ch) {pad : List Byte} (hp : pad.length = 4) :
    (chChunks pad ch).flatten.length = 24 + 4 * (n + 2 * add32 n 1 + 4 * ch.forward.head.length + 4 * ch.backward.head.length) +
      (ch.forward.head.length + 511) / 512 * 64 + (ch.backward.head.length + 511) / 512 * 64 := by
  have side : ∀ s : ChSide, SideFits hardened (add32 n 1) s → BitVector.Shape s.isOriginal →
      (sideChunks s).flatten.length = 4 * (add32 n 1 + 4 * s.head.length) + (s.head.length + 511) / 512 * 64 := by
    intro s hs hb
    have e : ∀ v, (podUnsigned.encAll v).length = 4 * v.length := podUnsigned_lawful.encAll_length
    have e' : ∀ v, (podWord.encAll v).length = 8 * v.length := podWord_lawful.encAll_length
    have := hb.len_eq
    simp only [sideChunks, List.flatten_cons, List.flatten_nil, List.length_append, e, e', hs.firstOut, hs.weight, hs.first,
      hs.second, this, hs.size, List.length_nil]
    omega
  have e := chunks_flatten pad ch []
  rw [List.append_nil] at e
  rw [e]
  have e4 : (podUnsigned.encAll ch.rank).length = 4 * ch.rank.length := podUnsigned_lawful.encAll_length _
  simp only [List.length_append, ChHeader.enc_length _ hp, e4, h.rank, side _ h.fwd h.shapeF, side _ h.bwd h.shapeB, List.length_nil]
  omega

/-- The expected size, if the 32 bit arithmetic does not wrap. -/
theorem expectedSize_eq {h : ChHeader} (hs : 3 * h.nodeCount + 2 + 4 * h.forwardArcCount + 4 * h.backwardArcCount < 2 ^ 32)
    (hf : h.forwardArcCount + 511 < 2 ^ 32) (hb : h.backwardArcCount + 511 < 2 ^ 32) :
    expectedSize h = 24 + 4 * (h.nodeCount + 2 * add32 h.nodeCount 1 + 4 * h.forwardArcCount + 4 * h.backwardArcCount) +
      (h.forwardArcCount + 511) / 512 * 64 + (h.backwardArcCount + 511) / 512 * 64 := by
  have hu : u32 = 4294967296 := rfl
  have e1 : ∀ a, a + 511 < 2 ^ 32 → headerBits a = (a + 511) / 512 * 64 := by
    intro a ha; unfold headerBits add32 mul32; rw [hu]; omega
  have e4 : add32 h.nodeCount 1 = h.nodeCount + 1 := by unfold add32; rw [hu]; omega
  have e5 : mul32 4 h.forwardArcCount = 4 * h.forwardArcCount := by unfold mul32; rw [hu]; omega
  have e6 : mul32 4 h.backwardArcCount = 4 * h.backwardArcCount := by unfold mul32; rw [hu]; omega
  have e : headerWords h = 3 * h.nodeCount + 2 + 4 * h.forwardArcCount + 4 * h.backwardArcCount := by
    unfold headerWords; rw [e4, e5, e6]; unfold add32; rw [hu]; omega
  unfold expectedSize
  rw [e, e1 _ hf, e1 _ hb, e4]
  omega

/-- The size of a file is at least the expected one; it is greater if the 32 bit arithmetic wraps. -/
theorem expectedSize_lt {h : ChHeader} (hs : 2 ^ 32 ≤ 3 * h.nodeCount + 2 + 4 * h.forwardArcCount + 4 * h.backwardArcCount)
    (hn : h.nodeCount + 1 < 2 ^ 32) :
    expectedSize h < 24 + 4 * (h.nodeCount + 2 * add32 h.nodeCount 1 + 4 * h.forwardArcCount + 4 * h.backwardArcCount) +
      (h.forwardArcCount + 511) / 512 * 64 + (h.backwardArcCount + 511) / 512 * 64 := by
  have hu : u32 = 4294967296 := rfl
  have e : headerWords h ≤ 3 * h.nodeCount + 2 + 4 * h.forwardArcCount + 4 * h.backwardArcCount - 2 ^ 32 := by
    unfold headerWords add32 mul32; rw [hu]; omega
  have e1 : ∀ a, headerBits a ≤ (a + 511) / 512 * 64 := by
    intro a; unfold headerBits add32 mul32; rw [hu]; omega
  have e2 := e1 h.forwardArcCount
  have e3 := e1 h.backwardArcCount
  have e4 : add32 h.nodeCount 1 = h.nodeCount + 1 := by unfold add32; rw [hu]; omega
  unfold expectedSize
  rw [e4]
  omega

theorem writeChunks_fine (ls : List (List Byte)) : ∀ {o : OStream} {w : List Byte} {cap : Nat}, o.Fine w cap → (w ++ ls.flatten).length ≤ cap →
    ∃ o', writeChunks o ls = .ok o' ∧ o'.Fine (w ++ ls.flatten) cap := by
  induction ls with
  | nil => intro o w cap h _; exact ⟨o, rfl, by simpa using h⟩
  | cons l ls ih =>
    intro o w cap h hc
    have e : w ++ (l :: ls).flatten = (w ++ l) ++ ls.flatten := by simp
    rw [e] at hc ⊢
    have h1 := OStream.write_fine (l := l) h (by rw [List.length_append] at hc; omega)
    obtain ⟨o', e1, h2⟩ := ih h1 hc
    refine ⟨o', ?_, h2⟩
    unfold writeChunks
    simp only [h1.good, Res.require_true, Res.ok_bind, e1]

/-- A stream whose buffer hands on everything notices a full device. -/
theorem writeChunks_unbuffered (N : Nat) (ls : List (List Byte)) : ∀ {o : OStream}, o.pending = [] → o.good = true → ls.flatten.length ≤ N →
    o.room < ls.flatten.length → (∀ i, i < ls.length → ∃ k, o.push[i]? = some k ∧ N ≤ k) → writeChunks o ls = .error := by
  induction ls with
  | nil => intro o _ _ _ h _; exact absurd h (by simp)
  | cons l ls ih =>
    intro o hp hg hN hr hk
    obtain ⟨k, e1, e2⟩ := hk 0 (by simp)
    obtain ⟨file, pending, room, good, push⟩ := o
    simp only [] at hp hg hr
    subst hp hg
    match push, e1, hk with
    | k' :: push, e1, hk =>
      simp only [List.getElem?_cons_zero, Option.some.injEq] at e1
      subst e1
      rw [List.flatten_cons, List.length_append] at hr hN
      have ht : l.take k' = l := List.take_of_length_le (by omega)
      have hd : l.drop k' = [] := List.drop_of_length_le (by omega)
      unfold writeChunks
      by_cases hl : l.length ≤ room
      · have hw : (OStream.mk file [] room true (k' :: push)).write l = ⟨file ++ l, [], room - l.length, true, push⟩ := by
          unfold OStream.write OStream.transfer
          simp only [if_true, List.nil_append, List.headD_cons, List.tail_cons, ht, hd, if_pos hl]
        simp only [hw, Res.require_true, Res.ok_bind]
        refine ih rfl rfl (by omega) (by show room - l.length < _; omega) (fun i hi => ?_)
        obtain ⟨k, g1, g2⟩ := hk (i + 1) (by simp; omega)
        exact ⟨k, by simpa using g1, g2⟩
      · have hw : ((OStream.mk file [] room true (k' :: push)).write l).good = false := by
          unfold OStream.write OStream.transfer
          simp only [if_true, List.nil_append, List.headD_cons, List.tail_cons, ht, if_neg hl]
        simp only [hw, Res.require_false, Res.error_bind]

end RK
