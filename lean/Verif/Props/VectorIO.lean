import Verif.Proof.VectorIO
import Verif.Proof.ChFile
/-! # Property theorems C47 (saving and loading vectors, strings and bit vectors)

`Pod.Lawful P valid` says that objects of the type (those satisfying `valid`) and byte strings of length `sizeof(T)`
correspond to each other. `Disk` describes the circumstances: can the file be opened, how many bytes fit on the device,
and how the stream buffer behaves. `hardened` builds check the index of `operator[]`. -/
namespace RK.Props
open RK

theorem write_close (d : Disk) (l : List Byte) : (d.opened.write l).close = l.take d.room := by
  by_cases hr : l.length ≤ d.room
  · have h := OStream.write_fine (l := l) d.opened_fine (by simpa using hr)
    rw [OStream.close_fine h (by simpa using hr), List.nil_append, List.take_of_length_le hr]
  · unfold OStream.close OStream.write Disk.opened
    simp only [if_true, List.nil_append]
    generalize d.push.headD 0 = k
    by_cases hk : (l.take k).length ≤ d.room
    · have hk' : k ≤ d.room := by
        by_contra hc
        rw [List.length_take] at hk; omega
      have hd : ¬ (((l.drop k).take (l.drop k).length).length ≤ d.room - (l.take k).length) := by
        rw [List.take_length, List.length_drop, List.length_take]; omega
      simp only [OStream.transfer, if_pos hk, if_neg hd, List.nil_append]
      rw [List.take_length, List.length_take, Nat.min_eq_left (by omega : k ≤ l.length), ← List.take_add]
      congr 1
      omega
    · have hk' : ¬ k ≤ d.room := by
        intro hc
        rw [List.length_take] at hk; omega
      simp only [OStream.transfer, if_neg hk, List.nil_append]
      have : ∀ x : List Byte, (if x.length ≤ 0 then (⟨(l.take k).take d.room ++ x, (l.drop k).drop (l.drop k).length, 0 - x.length, false, d.push.tail⟩ : OStream)
          else ⟨(l.take k).take d.room ++ x.take 0, (l.drop k).drop (l.drop k).length, 0, false, d.push.tail⟩).file = (l.take k).take d.room := by
        intro x
        cases x with
        | nil => simp
        | cons b x => simp
      rw [this, List.take_take]
      congr 1
      omega

/-- C47. Every vector survives a round trip, for every element type that is copied bytewise: with enough space on the
device the function returns and loading the file yields the same vector. (Empty vectors: only without hardening, see
`C47_empty_vector_hardened_aborts`.)
Partial: the device has enough space, see `C47_full_device_unnoticed`. -/
theorem C47_vector_round_trip_partial {α : Type} (P : Pod α) (valid : α → Prop) (hP : P.Lawful valid) (hardened : Bool) (v : List α)
    (hv : ∀ x ∈ v, valid x) (d : Disk) (ho : d.canOpen = true) (hr : P.size * v.length ≤ d.room) (hne : hardened = false ∨ v ≠ []) :
    ∃ f, saveVector hardened P d v = .ok f ∧ loadVector hardened P (some f) = .ok v := by
  have hl := hP.encAll_length v
  have ha : hardened = false ∨ v.length ≠ 0 := hne.imp_right fun h => by simpa using h
  refine ⟨P.encAll v, ?_, ?_⟩
  · unfold saveVector
    rw [ho, Res.require_true, Res.ok_bind, addressOfFirst_ok ha, Res.ok_bind, write_close, List.take_of_length_le (by omega)]
  · have h1 : P.size * v.length % P.size = 0 := Nat.mul_mod_right _ _
    have h2 : P.size * v.length / P.size = v.length := Nat.mul_div_cancel_left _ hP.pos
    have h3 := hP.decAll_encAll v [] hv
    rw [List.append_nil] at h3
    unfold loadVector
    simp only [hl, h1, h2, decide_true, Res.require_true, Res.ok_bind, addressOfFirst_ok ha, h3]

/-- C47. Values: `load_value` inverts `save_value`. -/
theorem C47_value_round_trip {α : Type} (P : Pod α) (valid : α → Prop) (hP : P.Lawful valid) (hardened : Bool) (x : α)
    (hv : valid x) (d : Disk) (ho : d.canOpen = true) (hr : P.size ≤ d.room) :
    ∃ f, saveValue hardened P d x = .ok f ∧ loadValue hardened P (some f) = .ok x := by
  obtain ⟨f, h1, h2⟩ := C47_vector_round_trip_partial P valid hP hardened [x] (by simpa using hv) d ho (by simpa using hr) (Or.inr (by simp))
  refine ⟨f, h1, ?_⟩
  unfold loadValue
  rw [h2, Res.ok_bind]

/-- C47. Loading any file: without hardening the function throws exactly if the file cannot be opened or its size is no
multiple of `sizeof(T)`; otherwise it returns the vector whose memory representation is the file. -/
theorem C47_load_vector_any_file {α : Type} (P : Pod α) (valid : α → Prop) (hP : P.Lawful valid) :
    loadVector false P none = .error ∧
    ∀ f : List Byte, (f.length % P.size ≠ 0 → loadVector false P (some f) = .error) ∧
      (f.length % P.size = 0 → ∃ v, loadVector false P (some f) = .ok v ∧ P.encAll v = f ∧ ∀ x ∈ v, valid x) := by
  refine ⟨rfl, fun f => ⟨fun h => ?_, fun h => ?_⟩⟩
  · unfold loadVector
    simp only [h, decide_false, Res.require_false, Res.error_bind]
  · have hm : P.size * (f.length / P.size) = f.length := by
      have := Nat.div_add_mod f.length P.size; omega
    refine ⟨P.decAll (f.length / P.size) f, ?_, ?_, hP.decAll_valid _ _ (le_of_eq hm)⟩
    · unfold loadVector
      simp only [h, decide_true, Res.require_true, Res.ok_bind, addressOfFirst_ok (Or.inl rfl)]
    · rw [hP.encAll_decAll _ _ (le_of_eq hm), hm, List.take_length]

/-- C47. Loading a value from any file: without hardening the function throws exactly if the file cannot be opened or its
size is not `sizeof(T)`; otherwise it returns the value whose memory representation is the file. -/
theorem C47_load_value_any_file {α : Type} (P : Pod α) (valid : α → Prop) (hP : P.Lawful valid) :
    loadValue false P none = .error ∧
    ∀ f : List Byte, (f.length ≠ P.size → loadValue false P (some f) = .error) ∧
      (f.length = P.size → ∃ x, loadValue false P (some f) = .ok x ∧ P.enc x = f ∧ valid x) := by
  obtain ⟨h0, h⟩ := C47_load_vector_any_file P valid hP
  refine ⟨by unfold loadValue; rw [h0]; rfl, fun f => ?_⟩
  by_cases hm : f.length % P.size = 0
  · obtain ⟨v, e1, e2, e3⟩ := (h f).2 hm
    have hl := hP.encAll_length v
    rw [e2] at hl
    unfold loadValue
    rw [e1, Res.ok_bind]
    have hp := hP.pos
    match v, hl, e2, e3 with
    | [], hl, _, _ => exact ⟨fun _ => rfl, fun e => by rw [hl] at e; simp at e; omega⟩
    | [x], hl, e2, e3 =>
      refine ⟨fun e => absurd hl (by simpa using e), fun _ => ⟨x, rfl, ?_, e3 x (by simp)⟩⟩
      rw [← e2]; simp [Pod.encAll]
    | x :: y :: v, hl, _, _ =>
      refine ⟨fun _ => rfl, fun e => ?_⟩
      rw [hl] at e
      have : P.size * 2 ≤ P.size * (x :: y :: v).length := Nat.mul_le_mul_left _ (by simp)
      omega
  · refine ⟨fun _ => ?_, fun e => absurd (by rw [e]; exact Nat.mod_self _) hm⟩
    unfold loadValue
    rw [(h f).1 hm]
    rfl

/-- C47 is violated on a full device: `save_vector` returns normally whatever happens, and the file contains only what
fits. -/
theorem C47_full_device_unnoticed {α : Type} (P : Pod α) (valid : α → Prop) (hP : P.Lawful valid) (v : List α) (d : Disk)
    (ho : d.canOpen = true) (hr : d.room < P.size * v.length) :
    ∃ f, saveVector false P d v = .ok f ∧ f.length = d.room ∧ f = (P.encAll v).take d.room := by
  refine ⟨(P.encAll v).take d.room, ?_, ?_, rfl⟩
  · unfold saveVector
    rw [ho, Res.require_true, Res.ok_bind, addressOfFirst_ok (Or.inl rfl), Res.ok_bind, write_close]
  · rw [List.length_take, hP.encAll_length]; omega

/-- C47 is violated in hardened builds: saving or loading an empty vector aborts. -/
theorem C47_empty_vector_hardened_aborts {α : Type} (P : Pod α) (d : Disk) (ho : d.canOpen = true) :
    saveVector true P d [] = .ub ∧ loadVector true P (some []) = .ub := by
  constructor
  · unfold saveVector
    rw [ho]
    rfl
  · unfold loadVector
    simp [addressOfFirst]

/-- C47. Vectors of strings without NUL characters survive a round trip. -/
theorem C47_strings_round_trip (hardened : Bool) (v : List (List Byte)) (hv : ∀ s ∈ v, ∀ b ∈ s, b ≠ 0) (d : Disk)
    (ho : d.canOpen = true) (hr : (v.flatMap fun s => s ++ [0]).length ≤ d.room) (hne : hardened = false ∨ v ≠ []) :
    ∃ f, saveStrings d v = .ok (some f) ∧ loadStrings hardened (some f) = .ok v := by
  refine ⟨v.flatMap fun s => s ++ [0], ?_, ?_⟩
  · unfold saveStrings
    rw [if_pos ho]
    have h := saveStringsLoop_fine v d.opened_fine (by simpa using hr)
    rw [OStream.close_fine h (by simpa using hr), List.nil_append]
  · generalize hf : (v.flatMap fun s => s ++ [0]) = f
    have ha : hardened = false ∨ f.length / podChar.size ≠ 0 := hne.imp_right fun h => by
      show f.length / 1 ≠ 0
      cases v with
      | nil => exact absurd rfl h
      | cons s v => rw [← hf]; simp
    have h1 : f.length % podChar.size = 0 := Nat.mod_one _
    have h2 : f.length / podChar.size = f.length := Nat.div_one _
    have h3 := podChar_lawful.encAll_decAll f.length f (le_of_eq (Nat.one_mul _))
    have h4 : podChar.decAll f.length f = f := by
      have e : ∀ w : List Byte, podChar.encAll w = w := by intro w; simp [Pod.encAll, podChar]
      rw [e] at h3
      rw [h3]
      show List.take (1 * f.length) f = f
      rw [Nat.one_mul, List.take_length]
    unfold loadStrings loadVector
    rw [h2] at ha
    simp only [h1, decide_true, Res.require_true, Res.ok_bind, h2, addressOfFirst_ok ha, h4]
    have := splitStrings_all v hv []
    rw [hf, List.nil_append] at this
    rw [this]

/-- Strings with NUL characters do not survive (the property excludes them): `["a\0b"]` becomes `["a", "b"]`. -/
example : saveStrings ⟨true, 100, []⟩ [[97, 0, 98]] = .ok (some [97, 0, 98, 0]) ∧
    loadStrings false (some [97, 0, 98, 0]) = .ok [[97], [98]] := by decide

/-- A file whose last string is not terminated is accepted; the rest is dropped silently. -/
theorem C47_unterminated_string_dropped : loadStrings false (some [97, 0, 98]) = .ok [[97]] := by decide

/-- C47 is violated if the file cannot be opened: saving strings returns normally without effect. -/
theorem C47_strings_unopened_unnoticed (d : Disk) (ho : d.canOpen = false) (v : List (List Byte)) : saveStrings d v = .ok none := by
  unfold saveStrings
  rw [ho]
  rfl

/-- C47. Bit vectors survive a round trip. `v.Rep B`: the vector `v` is in a regular state with bits `B`. -/
theorem C47_bit_vector_round_trip (v : BitVector) (B : List Bool) (h : v.Rep B) (d : Disk) (ho : d.canOpen = true)
    (hr : 8 + 64 * ((B.length + 511) / 512) ≤ d.room) (junk : List Byte) :
    ∃ f v', saveBitVector d v = .ok f ∧ f.length = 8 + 64 * ((B.length + 511) / 512) ∧
      loadBitVector junk (some f) = .ok v' ∧ v'.Rep B ∧ v.eq v' = some true := by
  have hb := h.shape.bound
  have hs := h.size
  have hu : u64 = 18446744073709551616 := rfl
  have hd : (podWord.enc (BitVec.ofNat 64 v.size)).length = 8 := podWord_lawful.len _
  have hl : (podWord.encAll v.words).length = BitVector.v8Count v.size * 64 := by
    rw [podWord_lawful.encAll_length, ← v8_len h.shape]
    show 8 * _ = _
    ring
  have hc := BitVector.v8Count_eq hb
  have hdec : podWord.dec (podWord.enc (BitVec.ofNat 64 v.size)) = BitVec.ofNat 64 v.size := podWord_lawful.dec_enc _ trivial
  have hsize : (BitVec.ofNat 64 v.size).toNat = v.size := by
    rw [BitVec.toNat_ofNat]; exact Nat.mod_eq_of_lt (by rw [show (2:Nat)^64 = u64 from rfl]; omega)
  have hlen : (podWord.enc (BitVec.ofNat 64 v.size) ++ podWord.encAll v.words).length = 8 + 64 * ((B.length + 511) / 512) := by
    rw [List.length_append, hd, hl, hc, hs]; omega
  obtain ⟨u, v', e, e1, s, w⟩ := overwrite_new hb (podWord.encAll v.words)
  have hw : podWord.decAll (BitVector.u64Count v.size) (podWord.encAll v.words) = v.words := by
    have := podWord_dec_all v.words []
    rw [List.append_nil, h.shape.len] at this
    exact this
  have rep := rep_of_words h s (w.trans hw)
  refine ⟨podWord.enc (BitVec.ofNat 64 v.size) ++ podWord.encAll v.words, v', ?_, hlen, ?_, rep, ?_⟩
  · unfold saveBitVector
    rw [ho, Res.require_true, Res.ok_bind, blockBytes_spec h.shape, Res.ok_bind]
    have f1 := OStream.write_fine (l := podWord.enc (BitVec.ofNat 64 v.size)) d.opened_fine (by simp only [List.nil_append, hd]; omega)
    rw [List.nil_append] at f1
    have f2 := OStream.write_fine (l := podWord.encAll v.words) f1 (by omega)
    rw [OStream.close_fine f2 (by omega)]
  · have htake : ((podWord.enc (BitVec.ofNat 64 v.size) ++ podWord.encAll v.words) ++ junk).take 8 = podWord.enc (BitVec.ofNat 64 v.size) := by
      rw [List.append_assoc]; exact take_left' hd
    have hreq : (BitVector.v8Count v.size * 64 + 8) % u64 = (podWord.enc (BitVec.ofNat 64 v.size) ++ podWord.encAll v.words).length := by
      rw [hlen, hc, hs, hu]; omega
    unfold loadBitVector
    simp only [htake, hdec, hsize, hreq, decide_true, Res.require_true, Res.ok_bind, e, Res.ofOption_some, drop_left' hd, e1]
  · obtain ⟨b, e2, hb⟩ := BitVector.Rep.eq h rep
    rw [e2, hb.2 rfl]

/-- C47. `load_bit_vector` throws for every file shorter than a header and for every file whose size does not fit to its
header. -/
theorem C47_load_bit_vector_rejects (junk f : List Byte) (hj : 8 ≤ junk.length)
    (h : f.length < 8 ∨ f.length ≠ 8 + 64 * ((leVal (f.take 8) + 511) % 2 ^ 64 / 512)) : loadBitVector junk (some f) = .error := by
  have hu : u64 = 18446744073709551616 := rfl
  have key : (BitVector.v8Count (podWord.dec ((f ++ junk).take 8)).toNat * 64 + 8) % u64 ≠ f.length := by
    have hlt : ∀ x, (BitVector.v8Count x * 64 + 8) % u64 = BitVector.v8Count x * 64 + 8 := by
      intro x; unfold BitVector.v8Count; rw [hu]; omega
    rw [hlt]
    rcases h with h | h
    · omega
    · by_cases h8 : f.length < 8
      · omega
      · have e : (f ++ junk).take 8 = f.take 8 := List.take_append_of_le_length (by omega)
        have hv := leVal_lt (f.take 8)
        have hl : (f.take 8).length = 8 := by rw [List.length_take]; omega
        rw [hl] at hv
        have e2 : (podWord.dec (f.take 8)).toNat = leVal (f.take 8) := by
          show (BitVec.ofNat 64 (leVal (f.take 8))).toNat = _
          rw [BitVec.toNat_ofNat]
          exact Nat.mod_eq_of_lt (lt_of_lt_of_eq hv (by norm_num))
        rw [e, e2]
        unfold BitVector.v8Count
        rw [hu]
        norm_num at h ⊢
        omega
  unfold loadBitVector
  simp only [key, decide_false, Res.require_false, Res.error_bind]

/-- A file of one bit with a non-zero padding bit. -/
def dirtyFile : List Byte := [1, 0, 0, 0, 0, 0, 0, 0, 3] ++ List.replicate 63 0

set_option maxRecDepth 20000 in
/-- C47 is violated for files from elsewhere: `load_bit_vector` does not clear (or check) the padding bits, so that it
returns a vector which breaks the invariant of the class; counting its bits fails an assertion (in release builds the
result is wrong). -/
theorem C47_dirty_padding_accepted :
    ∃ v, loadBitVector [] (some dirtyFile) = .ok v ∧ v.size = 1 ∧ v.populationCount = none := by
  have h : loadBitVector [] (some dirtyFile) = .ok ⟨some [3, 0, 0, 0, 0, 0, 0, 0], 1⟩ := by decide +kernel
  exact ⟨_, h, rfl, by decide +kernel⟩

set_option maxRecDepth 20000 in
/-- C47 is violated for files from elsewhere: for the size `2^64-1` the computation of the expected file size wraps, so that
a file of 8 bytes passes the check; the constructor of the vector then leaves the array. -/
theorem C47_huge_size_undefined : loadBitVector [] (some (List.replicate 8 255)) = .ub := by decide +kernel

/-! Samples: the hypotheses hold for concrete objects. -/

example : ∃ f, saveVector true podUnsigned ⟨true, 12, [5, 0]⟩ [1, 70000, 4294967295] = .ok f ∧
    loadVector true podUnsigned (some f) = .ok [1, 70000, 4294967295] :=
  C47_vector_round_trip_partial podUnsigned _ podUnsigned_lawful true _ (by decide) _ rfl (by decide) (Or.inr (by simp))

example : saveVector true podUnsigned ⟨true, 12, [5, 0]⟩ [1, 70000, 4294967295] = .ok [1, 0, 0, 0, 112, 17, 1, 0, 255, 255, 255, 255] := by decide

example : ∃ f, saveStrings ⟨true, 100, [1, 2, 3]⟩ [[104, 105], [], [33]] = .ok (some f) ∧ loadStrings true (some f) = .ok [[104, 105], [], [33]] :=
  C47_strings_round_trip true _ (by decide) _ rfl (by decide) (Or.inr (by simp))

end RK.Props
