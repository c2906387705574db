import Verif.Proof.ChFile
import Verif.Proof.Sort
/-! # Property theorems C35 (files of contraction hierarchies)

`pad` is the content of the padding of the header structure, `hardened` tells whether the build checks the index of
`operator[]`, and `Disk` describes whether the file can be opened, how many bytes fit, and the behaviour of the buffer. -/
namespace RK.Props
open Spec RK

/-- One direction of a hierarchy that can be stored: sizes are consistent and within 32 bits, and so are all entries;
`B` are the bits that tell which arcs are original. -/
structure StorableSide (n : Nat) (s : ChSide) (B : List Bool) : Prop where
  firstOut : s.firstOut.length = n + 1
  weight : s.weight.length = s.head.length
  first : s.first.length = s.head.length
  second : s.second.length = s.head.length
  bits : s.isOriginal.Rep B
  bits_len : B.length = s.head.length
  arcs : s.head.length < 2 ^ 32
  entries : ∀ v ∈ [s.firstOut, s.head, s.weight, s.first, s.second], ∀ x ∈ v, x < 2 ^ 32

/-- A hierarchy that can be stored. -/
structure Storable (ch : Ch) (OF OB : List Bool) : Prop where
  nodes : ch.rank.length + 1 < 2 ^ 32
  perm : IsPermutation ch.rank
  inverse : AreInverse ch.rank ch.order
  forward : StorableSide ch.rank.length ch.forward OF
  backward : StorableSide ch.rank.length ch.backward OB

/-- Empty vectors are a problem in hardened builds. -/
def NoEmptyVectors (ch : Ch) : Prop := ch.rank ≠ [] ∧ ch.forward.head ≠ [] ∧ ch.backward.head ≠ []

/-- The loaded hierarchy `ch'` has the same contents as `ch`. (A bit vector without bits may be represented by a null
pointer or an empty array.) -/
def SameHierarchy (ch ch' : Ch) (OF OB : List Bool) : Prop :=
  ch'.rank = ch.rank ∧ ch'.order = ch.order ∧ SameSide ch.forward ch'.forward OF ∧ SameSide ch.backward ch'.backward OB

theorem Storable.fits {ch : Ch} {OF OB : List Bool} (h : Storable ch OF OB) {hardened : Bool} (hh : hardened = false ∨ NoEmptyVectors ch) :
    ChFits hardened ch.rank.length ch ∧ invertPermutation ch.rank = some ch.order := by
  have hu : u32 = 4294967296 := rfl
  have hn := h.nodes
  have e : add32 ch.rank.length 1 = ch.rank.length + 1 := by unfold add32; rw [hu]; omega
  have side : ∀ (s : ChSide) (B : List Bool), StorableSide ch.rank.length s B → (hardened = false ∨ s.head.length ≠ 0) →
      SideFits hardened (add32 ch.rank.length 1) s := by
    intro s B hs hd
    refine ⟨by rw [e]; exact hs.firstOut, hs.weight, hs.first, hs.second, by rw [hs.bits.size, hs.bits_len], ?_, ?_⟩
    · exact ⟨hs.entries _ (by simp), hs.entries _ (by simp), hs.entries _ (by simp), hs.entries _ (by simp), hs.entries _ (by simp)⟩
    · exact hd.imp_right fun x => ⟨by rw [hs.firstOut]; omega, x⟩
  refine ⟨⟨rfl, by omega, ?_, side _ _ h.forward (hh.imp_right fun x => by simpa using x.2.1),
    side _ _ h.backward (hh.imp_right fun x => by simpa using x.2.2), h.forward.arcs, h.backward.arcs,
    hh.imp_right fun x => by simpa using x.1, h.forward.bits.shape, h.backward.bits.shape⟩, ?_⟩
  · intro x hx
    have := List.mem_range.1 ((List.Perm.mem_iff h.perm).1 hx)
    omega
  · obtain ⟨q, e1, _, q2⟩ := invert_areInverse h.perm
    rw [e1]
    congr 1
    apply list_ext_rd (by rw [← q2.1, ← h.inverse.1])
    intro i hi
    obtain ⟨x, hx⟩ := rd_isSome (v := q) hi
    rw [hx]
    exact ((h.inverse.2 x i).1 ((q2.2 x i).2 hx)).symm

/-- C35, streams and callbacks. Writing succeeds, and reading the bytes back, followed by anything, yields the same
hierarchy and consumes exactly these bytes. -/
theorem C35_stream_round_trip (hardened : Bool) (pad : List Byte) (hp : pad.length = 4) (ch : Ch) (OF OB : List Bool)
    (h : Storable ch OF OB) (hh : hardened = false ∨ NoEmptyVectors ch) :
    ∃ ls, writeCh hardened pad ch = .ok ls ∧ ∀ rest, ∃ ch', readCh hardened (ls.flatten ++ rest) = .ok (ch', rest) ∧
      SameHierarchy ch ch' OF OB := by
  obtain ⟨hf, ho⟩ := h.fits hh
  refine ⟨_, writeCh_ok hf pad, fun rest => ?_⟩
  obtain ⟨f, b, e, sf, sb⟩ := finishRead_ok hf h.forward.bits h.backward.bits ho rest
  refine ⟨⟨ch.rank, ch.order, f, b⟩, ?_, rfl, rfl, sf, sb⟩
  unfold readCh
  rw [chunks_flatten, readHeader_ok hf.headerOk rfl hp, Res.ok_bind]
  simp only []
  rw [hf.header, e]

/-- C35 (partial: at most about `2^30` arcs), files. With enough space on the device, saving returns, and loading the file
yields the same hierarchy. Missing: larger hierarchies, see `C35_large_file_rejected`. -/
theorem C35_file_round_trip_partial (hardened : Bool) (pad : List Byte) (hp : pad.length = 4) (ch : Ch) (OF OB : List Bool)
    (h : Storable ch OF OB) (hh : hardened = false ∨ NoEmptyVectors ch)
    (hs : 3 * ch.rank.length + 2 + 4 * ch.forward.head.length + 4 * ch.backward.head.length < 2 ^ 32) (d : Disk) (ho : d.canOpen = true)
    (hr : 24 + 4 * (3 * ch.rank.length + 2 + 4 * ch.forward.head.length + 4 * ch.backward.head.length) +
      64 * ((ch.forward.head.length + 511) / 512) + 64 * ((ch.backward.head.length + 511) / 512) ≤ d.room) :
    ∃ f ch', saveCh hardened pad d ch = .ok f ∧ loadCh hardened (some f) = .ok ch' ∧ SameHierarchy ch ch' OF OB := by
  obtain ⟨hf, hord⟩ := h.fits hh
  have hu : u32 = 4294967296 := rfl
  have hn := h.nodes
  have e1 : add32 ch.rank.length 1 = ch.rank.length + 1 := by unfold add32; rw [hu]; omega
  have hlen := chunks_length hf hp
  obtain ⟨o, eo, fo⟩ := writeChunks_fine (chChunks pad ch) d.opened_fine (by rw [List.nil_append, hlen, e1]; omega)
  obtain ⟨f, b, e, sf, sb⟩ := finishRead_ok hf h.forward.bits h.backward.bits hord []
  refine ⟨(chChunks pad ch).flatten, ⟨ch.rank, ch.order, f, b⟩, ?_, ?_, rfl, rfl, sf, sb⟩
  · unfold saveCh
    rw [ho, Res.require_true, Res.ok_bind, writeCh_ok hf pad, Res.ok_bind, eo, Res.ok_bind,
      OStream.close_fine fo (by rw [List.nil_append, hlen, e1]; omega), List.nil_append]
  · have hx := expectedSize_eq (h := ch.header) (by rw [hf.header]; exact hs) (by rw [hf.header]; show ch.forward.head.length + 511 < _; omega)
      (by rw [hf.header]; show ch.backward.head.length + 511 < _; omega)
    have hsz : expectedSize ch.header = (chChunks pad ch).flatten.length := by
      rw [hx, hlen, hf.header]
    have hfl := chunks_flatten pad ch []
    rw [List.append_nil] at hfl
    unfold loadCh readChSized
    simp only []
    rw [← hsz, hfl, readHeader_ok hf.headerOk rfl hp, Res.ok_bind]
    simp only [decide_true, Res.require_true, Res.ok_bind]
    rw [hf.header, e, Res.ok_bind]

/-- C35. If the stream hands on the bytes at once (the `i`-th write is not kept in its buffer), then `save_file` throws on a
full device. Otherwise see `C35_full_device_unnoticed`. -/
theorem C35_unbuffered_full_device_throws (hardened : Bool) (pad : List Byte) (ch : Ch) (ls : List (List Byte))
    (hw : writeCh hardened pad ch = .ok ls) (d : Disk) (hr : d.room < ls.flatten.length)
    (hk : ∀ i, i < ls.length → ∃ k, d.push[i]? = some k ∧ ls.flatten.length ≤ k) : saveCh hardened pad d ch = .error := by
  unfold saveCh
  cases hc : d.canOpen with
  | false => rfl
  | true =>
    rw [Res.require_true, Res.ok_bind, hw, Res.ok_bind,
      writeChunks_unbuffered ls.flatten.length ls (o := d.opened) rfl rfl (Nat.le_refl _) hr hk, Res.error_bind]

/-- C35 is violated for large hierarchies: the expected size is computed with 32 bits, so that `load_file` rejects the
intact file. -/
theorem C35_large_file_rejected (hardened : Bool) (pad : List Byte) (hp : pad.length = 4) (ch : Ch) (OF OB : List Bool)
    (h : Storable ch OF OB) (hh : hardened = false ∨ NoEmptyVectors ch)
    (hs : 2 ^ 32 ≤ 3 * ch.rank.length + 2 + 4 * ch.forward.head.length + 4 * ch.backward.head.length) :
    ∃ ls, writeCh hardened pad ch = .ok ls ∧ loadCh hardened (some ls.flatten) = .error := by
  obtain ⟨hf, hord⟩ := h.fits hh
  refine ⟨_, writeCh_ok hf pad, ?_⟩
  have hx := expectedSize_lt (h := ch.header) (by rw [hf.header]; exact hs) (by rw [hf.header]; exact h.nodes)
  have hlen := chunks_length hf hp
  have hfl := chunks_flatten pad ch []
  rw [List.append_nil] at hfl
  have hne : expectedSize ch.header ≠ (chChunks pad ch).flatten.length := by
    rw [hf.header] at hx ⊢
    rw [hlen]
    exact Nat.ne_of_lt hx
  unfold loadCh readChSized
  simp only []
  generalize hm : (chChunks pad ch).flatten.length = m at hne ⊢
  rw [hfl, readHeader_ok hf.headerOk rfl hp, Res.ok_bind]
  simp only [hne, decide_false, Res.require_false, Res.error_bind]

/-- C35, all byte strings. Whatever `read` accepts is what `write` writes for the returned hierarchy (for some padding of
the header); the ranks are a permutation, and the order is its inverse. -/
theorem C35_read_accepts_only_written (hardened : Bool) (src rest : List Byte) (ch : Ch) (h : readCh hardened src = .ok (ch, rest)) :
    IsPermutation ch.rank ∧ AreInverse ch.rank ch.order ∧
      ∃ pad ls, pad.length = 4 ∧ writeCh hardened pad ch = .ok ls ∧ src = ls.flatten ++ rest := by
  unfold readCh at h
  obtain ⟨⟨hd, s1⟩, e1, h⟩ := Res.bind_eq_ok.1 h
  obtain ⟨ok, hm, pad, hp, e2⟩ := readHeader_eq_ok e1
  obtain ⟨hf, h1, h2, ho, e3⟩ := finishRead_eq_ok ok h
  have hperm : IsPermutation ch.rank := by
    unfold invertPermutation at ho
    cases e : checkPerm ch.rank with
    | none => rw [e] at ho; cases ho
    | some u => exact isPerm_iff_perm.1 (checkPerm_iff.1 e)
  obtain ⟨q, e4, _, q2⟩ := invert_areInverse hperm
  rw [ho] at e4
  injection e4 with e4
  refine ⟨hperm, by rw [e4]; exact q2, pad, _, hp, writeCh_ok hf pad, ?_⟩
  have hh : ch.header = hd := by
    rw [hf.header, h1, h2, ← hm]
  rw [chunks_flatten, hh, e2, e3]

/-- C35, all byte strings. `read` throws if the magic number is wrong (or missing). -/
theorem C35_wrong_magic_rejected (hardened : Bool) (src : List Byte) (fileSize : Nat)
    (h : src.length < 24 ∨ leVal (src.take 8) ≠ 0x436f6e7448696572) :
    readCh hardened src = .error ∧ readChSized hardened src fileSize = .error ∧ loadCh hardened (some src) = .error := by
  have key : readHeader src = .error := by
    unfold readHeader readBytes
    by_cases hl : 24 ≤ src.length
    · rw [if_pos hl, Res.ok_bind]
      have e : (ChHeader.dec (src.take 24)).magic = leVal (src.take 8) := by
        show leVal ((src.take 24).take 8) = _
        rw [List.take_take]; rfl
      rcases h with h | h
      · omega
      · have hne : ¬ (ChHeader.dec (src.take 24)).magic = chMagic := by rw [e]; exact h
        simp only [hne, decide_false, Res.require_false, Res.error_bind]
    · rw [if_neg hl, Res.error_bind]
  unfold readCh readChSized loadCh readChSized
  simp only [key, Res.error_bind]
  exact ⟨trivial, trivial, trivial⟩

/-- C35, all byte strings. `load_file` accepts a file only if its size is the one computed from the header, and then the
file contains nothing else than the hierarchy. -/
theorem C35_load_accepts_only_saved (hardened : Bool) (f : List Byte) (ch : Ch) (h : loadCh hardened (some f) = .ok ch) :
    ∃ pad ls rest, pad.length = 4 ∧ writeCh hardened pad ch = .ok ls ∧ f = ls.flatten ++ rest ∧
      (3 * ch.rank.length + 2 + 4 * ch.forward.head.length + 4 * ch.backward.head.length < 2 ^ 32 → rest = []) := by
  unfold loadCh readChSized at h
  simp only [] at h
  obtain ⟨⟨ch', rest⟩, h', e⟩ := Res.bind_eq_ok.1 h
  have e' : ch = ch' := by injection e with e; exact e.symm
  subst e'
  obtain ⟨⟨hd, s1⟩, e1, h⟩ := Res.bind_eq_ok.1 h'
  obtain ⟨u, e5, h⟩ := Res.bind_eq_ok.1 h
  obtain ⟨ok, hm, pad, hp, e2⟩ := readHeader_eq_ok e1
  obtain ⟨hf, h1, h2, ho, e3⟩ := finishRead_eq_ok ok h
  have hh : ch.header = hd := by
    rw [hf.header, h1, h2, ← hm]
  have hfl : f = (chChunks pad ch).flatten ++ rest := by rw [chunks_flatten, hh, e2]; exact congrArg _ e3
  refine ⟨pad, _, rest, hp, writeCh_ok hf pad, hfl, fun hs => ?_⟩
  have e6 : expectedSize hd = f.length := of_decide_eq_true (Res.require_eq_ok.1 e5)
  have hr := hf.rank
  have hx := expectedSize_eq (h := hd) (by rw [← hr, ← h1, ← h2]; exact hs) (by omega) (by omega)
  have hlen := chunks_length hf hp
  rw [h1, h2] at hlen
  rw [hfl, List.length_append, hlen, hx] at e6
  have : rest.length = 0 := by omega
  exact List.length_eq_zero_iff.1 this

/-- C35: the only inputs that lead to undefined behaviour (without hardening) are those whose ranks are no permutation;
they are not rejected. -/
theorem C35_undefined_only_for_bad_ranks (src : List Byte) (h : readCh false src = .ub) :
    ∃ rank rest, ¬ IsPermutation rank ∧ src.drop 24 = podUnsigned.encAll rank ++ rest := by
  have rb : ∀ (s : List Byte) (k : Nat), readBytes s k ≠ .ub := by
    intro s k; unfold readBytes; split <;> simp
  have rv : ∀ (s : List Byte) (n : Nat), readVector false podUnsigned s n ≠ .ub := by
    intro s n hc
    unfold readVector at hc
    rw [addressOfFirst_ok (Or.inl rfl), Res.ok_bind] at hc
    cases e : readBytes s (podUnsigned.size * n) with
    | ub => exact rb _ _ e
    | error => rw [e] at hc; cases hc
    | ok a => rw [e] at hc; cases hc
  have rbv : ∀ (s : List Byte) (n : Nat), n + 511 < u64 → readBitVector s n ≠ .ub := by
    intro s n hn hc
    unfold readBitVector at hc
    cases e : readBytes s (BitVector.v8Count n * 64) with
    | ub => exact rb _ _ e
    | error =>
      obtain ⟨v, _, e1, _⟩ := overwrite_new hn s
      rw [e1, Res.ofOption_some, Res.ok_bind, e] at hc; cases hc
    | ok a =>
      obtain ⟨l, s'⟩ := a
      obtain ⟨v, v', e1, e2, _⟩ := overwrite_new hn l
      rw [e1, Res.ofOption_some, Res.ok_bind, e, Res.ok_bind] at hc
      simp only [e2, Res.ok_bind] at hc
      cases hc
  have rs : ∀ (s : List Byte) (n m : Nat), m + 511 < u64 → readSide false s n m ≠ .ub := by
    intro s n m hm hc
    unfold readSide at hc
    cases e : readVector false podUnsigned s (add32 n 1) with
    | ub => exact rv _ _ e
    | error => rw [e] at hc; cases hc
    | ok a =>
      obtain ⟨v1, s1⟩ := a
      rw [e, Res.ok_bind] at hc
      simp only [] at hc
      cases e : readVector false podUnsigned s1 m with
      | ub => exact rv _ _ e
      | error => rw [e] at hc; cases hc
      | ok a =>
        obtain ⟨v2, s2⟩ := a
        rw [e, Res.ok_bind] at hc
        simp only [] at hc
        cases e : readVector false podUnsigned s2 m with
        | ub => exact rv _ _ e
        | error => rw [e] at hc; cases hc
        | ok a =>
          obtain ⟨v3, s3⟩ := a
          rw [e, Res.ok_bind] at hc
          simp only [] at hc
          cases e : readBitVector s3 m with
          | ub => exact rbv _ _ hm e
          | error => rw [e] at hc; cases hc
          | ok a =>
            obtain ⟨v4, s4⟩ := a
            rw [e, Res.ok_bind] at hc
            simp only [] at hc
            cases e : readVector false podUnsigned s4 m with
            | ub => exact rv _ _ e
            | error => rw [e] at hc; cases hc
            | ok a =>
              obtain ⟨v5, s5⟩ := a
              rw [e, Res.ok_bind] at hc
              simp only [] at hc
              cases e : readVector false podUnsigned s5 m with
              | ub => exact rv _ _ e
              | error => rw [e] at hc; cases hc
              | ok a => rw [e, Res.ok_bind] at hc; cases hc
  have hu : u64 = 18446744073709551616 := rfl
  unfold readCh at h
  cases e : readHeader src with
  | ub =>
    unfold readHeader at e
    cases e' : readBytes src 24 with
    | ub => exact absurd e' (rb _ _)
    | error => rw [e'] at e; cases e
    | ok a =>
      rw [e', Res.ok_bind] at e
      simp only [] at e
      unfold Res.require at e
      split at e <;> cases e
  | error => rw [e] at h; cases h
  | ok a =>
    obtain ⟨hd, s⟩ := a
    obtain ⟨ok, hm, pad, hp, e2⟩ := readHeader_eq_ok e
    have hdrop : src.drop 24 = s := by rw [e2]; exact drop_left' (ChHeader.enc_length _ hp)
    rw [e, Res.ok_bind] at h
    simp only [] at h
    unfold finishRead at h
    cases e3 : readVector false podUnsigned s hd.nodeCount with
    | ub => exact absurd e3 (rv _ _)
    | error => rw [e3] at h; cases h
    | ok a =>
      obtain ⟨rank, s1⟩ := a
      obtain ⟨_, _, _, e4⟩ := readVector_eq_ok e3
      refine ⟨rank, s1, fun hperm => ?_, by rw [hdrop, e4]⟩
      obtain ⟨q, eq, _⟩ := invert_areInverse hperm
      rw [e3, Res.ok_bind] at h
      simp only [] at h
      rw [eq, Res.ofOption_some, Res.ok_bind] at h
      cases e5 : readSide false s1 hd.nodeCount hd.forwardArcCount with
      | ub => exact rs _ _ _ (by have := ok.2.2.1; omega) e5
      | error => rw [e5] at h; cases h
      | ok a =>
        obtain ⟨f, s2⟩ := a
        rw [e5, Res.ok_bind] at h
        simp only [] at h
        cases e6 : readSide false s2 hd.nodeCount hd.backwardArcCount with
        | ub => exact rs _ _ _ (by have := ok.2.2.2; omega) e6
        | error => rw [e6] at h; cases h
        | ok a => rw [e6, Res.ok_bind] at h; cases h

/-! ### Samples -/

/-- A hierarchy of two nodes with one arc. -/
def smallCh : Ch := ⟨[1, 0], [1, 0], ⟨[0, 1, 1], [1], [7], [0], [0], ⟨some [1, 0, 0, 0, 0, 0, 0, 0], 1⟩⟩, ⟨[0, 0, 0], [], [], [], [], BitVector.null⟩⟩

/-- A hierarchy of two nodes with `m` parallel arcs in each direction. -/
def parallelCh (m : Nat) (v : BitVector) : Ch :=
  let s : ChSide := ⟨[0, m, m], List.replicate m 1, List.replicate m 7, List.replicate m 0, List.replicate m 0, v⟩
  ⟨[1, 0], [1, 0], s, s⟩

/-- Non-vacuity: for every number of arcs below `2^32` there is a hierarchy that can be stored. -/
theorem parallelCh_storable (m : Nat) (hm : m < 2 ^ 32) : ∃ v, Storable (parallelCh m v) (List.replicate m true) (List.replicate m true) := by
  have hu : u64 = 18446744073709551616 := rfl
  obtain ⟨v, _, r, _⟩ := BitVector.rep_new (n := m) (by omega) true
  have hs : StorableSide 2 ⟨[0, m, m], List.replicate m 1, List.replicate m 7, List.replicate m 0, List.replicate m 0, v⟩ (List.replicate m true) := by
    refine ⟨rfl, by simp, by simp, by simp, r, by simp, by simpa using hm, ?_⟩
    intro l hl x hx
    simp only [List.mem_cons, List.not_mem_nil, or_false] at hl
    rcases hl with rfl | rfl | rfl | rfl | rfl
    · simp only [List.mem_cons, List.not_mem_nil, or_false] at hx; omega
    all_goals (have := List.eq_of_mem_replicate hx; omega)
  refine ⟨v, ⟨by show 2 + 1 < 2 ^ 32; omega, ?_, ?_, hs, hs⟩⟩
  · show IsPermutation [1, 0]; unfold IsPermutation; decide
  · refine ⟨rfl, fun i j => ?_⟩
    show [1, 0][i]? = some j ↔ [1, 0][j]? = some i
    match i, j with
    | 0, 0 => decide
    | 0, 1 => decide
    | 1, 0 => decide
    | 1, 1 => decide
    | 0, j + 2 => simp
    | 1, j + 2 => simp
    | i + 2, 0 => simp
    | i + 2, 1 => simp
    | i + 2, j + 2 => simp

example : ∃ v, Storable (parallelCh 3 v) (List.replicate 3 true) (List.replicate 3 true) ∧ NoEmptyVectors (parallelCh 3 v) := by
  obtain ⟨v, h⟩ := parallelCh_storable 3 (by omega)
  exact ⟨v, h, by simp [NoEmptyVectors, parallelCh]⟩

/-- The hypotheses of `C35_large_file_rejected` can be met. -/
example : ∃ v, Storable (parallelCh (2 ^ 29) v) (List.replicate (2 ^ 29) true) (List.replicate (2 ^ 29) true) ∧
    2 ^ 32 ≤ 3 * (parallelCh (2 ^ 29) v).rank.length + 2 + 4 * (parallelCh (2 ^ 29) v).forward.head.length +
      4 * (parallelCh (2 ^ 29) v).backward.head.length := by
  obtain ⟨v, h⟩ := parallelCh_storable (2 ^ 29) (by omega)
  refine ⟨v, h, ?_⟩
  simp only [parallelCh, List.length_replicate]
  omega

/-- A default-constructed hierarchy. -/
def emptyCh : Ch := ⟨[], [], ⟨[], [], [], [], [], BitVector.null⟩, ⟨[], [], [], [], [], BitVector.null⟩⟩

set_option maxRecDepth 10000 in
/-- C35 is violated for a default-constructed hierarchy: the number of nodes is computed as -1, so that what was written
cannot be read. -/
theorem C35_default_constructed_violated : ∃ ls, writeCh false [0, 0, 0, 0] emptyCh = .ok ls ∧ readCh false ls.flatten = .error := by
  refine ⟨chChunks [0, 0, 0, 0] emptyCh, by decide +kernel, by decide +kernel⟩

/-- C35 is violated in hardened builds: a hierarchy without backward arcs cannot be written. -/
theorem C35_hardened_empty_aborts (pad : List Byte) : writeCh true pad smallCh = .ub := by
  unfold writeCh smallCh
  rfl

set_option maxRecDepth 10000 in
/-- C35 is violated for small files on a full device: the bytes are still in the buffer of the stream when the last write
is checked; the error occurs when the file is closed and goes unnoticed. -/
theorem C35_full_device_unnoticed : saveCh false [0, 0, 0, 0] ⟨true, 0, []⟩ smallCh = .ok [] := by decide +kernel

set_option maxRecDepth 20000 in
example : saveCh false [0, 0, 0, 0] ⟨true, 30, List.replicate 20 1000⟩ smallCh = .error := by decide +kernel

end RK.Props
