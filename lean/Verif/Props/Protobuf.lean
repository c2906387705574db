import Verif.Proof.Protobuf
/-!
# C36 and C37: decoding protobuf messages

The specification of the wire format is in `Verif/Spec/Protobuf.lean`, the model of the decoder in
`Verif/Model/Protobuf.lean`. Outcomes: `ok` (the call returns), `error` (an exception), `ub` (undefined behaviour, which
includes reading at or beyond the end pointer).
-/
namespace RK
open Spec

/-! ### C36 Numbers -/

/-- C36: every encoding of every 64 bit number, in front of arbitrary bytes, is decoded to this number, and exactly the
encoding is consumed. -/
theorem C36_decodes_every_encoding {l : List Byte} {x : Nat} (h : EncodesVarint l x) (rest : List Byte) :
    decodeVarint (l ++ rest) = .ok (BitVec.ofNat 64 x, rest) := by
  obtain ⟨m, e, hm⟩ := h.wrapped.decode rest
  rw [e, ← hm, BitVec.ofNat_toNat, BitVec.setWidth_eq]

/-- C36: in particular the canonical encoding that every encoder writes; `x` is any 64 bit number. -/
theorem C36_decodes_canonical (x : Word) (rest : List Byte) : decodeVarint (encodeVarint x.toNat ++ rest) = .ok (x, rest) := by
  obtain ⟨h1, h2, h3⟩ := encodeVarint_spec x.toNat
  have hx := x.isLt
  rw [C36_decodes_every_encoding ⟨h1, h3 9 (lt_trans hx (by decide)), h2, hx⟩ rest, BitVec.ofNat_toNat, BitVec.setWidth_eq]

/-- C36: the outcome for every input. (1) The call returns exactly if the input starts with a terminated number of at most
ten bytes, which is consumed. (2) It throws if there is none, because the input is empty, or ends within the number, or
the number has more than ten bytes; (3) with the exception of `TooLong` inputs, for which a shift by 70 is undefined. The
full statement wants an exception there, and also for ten byte numbers which need more than 64 bits. -/
theorem C36_outcome_partial (l : List Byte) :
    (∀ (m : Word) (rest : List Byte), decodeVarint l = .ok (m, rest) ↔ ∃ v, l = v ++ rest ∧ WrappedVarint v m.toNat) ∧
    (decodeVarint l = .ub ↔ TooLong l) ∧
    (decodeVarint l = .error ↔ (∀ b ∈ l.take 10, 128 ≤ b.toNat) ∧ ¬ TooLong l) := by
  have ub : decodeVarint l = .ub ↔ TooLong l := ⟨decodeVarint_ub, fun h => (decodeVarint_bad h.2.1).2 h⟩
  refine ⟨fun m rest => ⟨fun h => ?_, ?_⟩, ub, fun h => ⟨?_, ?_⟩, ?_⟩
  · obtain ⟨v, e, hv, _⟩ := decodeVarint_wrapped h
    exact ⟨v, e, hv⟩
  · rintro ⟨v, rfl, hv⟩
    obtain ⟨m', e, hm⟩ := hv.decode rest
    rw [e, BitVec.eq_of_toNat_eq hm]
  · by_contra hb
    push Not at hb
    obtain ⟨v, rest, rfl, h1, h2⟩ := isVarint_of_prefix l 10 hb
    obtain ⟨m, e, _⟩ := decodeVarint_ok (rest := rest) h1 h2
    rw [e] at h; cases h
  · intro ht
    rw [ub.2 ht] at h; cases h
  · rintro ⟨hb, ht⟩
    refine (decodeVarint_bad hb).1 ?_
    by_contra hc
    push Not at hc
    exact ht ⟨hc.1, hb, hc.2⟩

/-- C36: unterminated input is rejected: no byte without high bit, and at most ten bytes. -/
theorem C36_rejects_unterminated (l : List Byte) (h : ∀ b ∈ l, 128 ≤ b.toNat) (hl : l.length ≤ 10) : decodeVarint l = .error :=
  (decodeVarint_bad (fun b hb => h b (List.mem_of_mem_take hb))).1 (Or.inl hl)

/-- C36: numbers of nine bytes and less always fit and are decoded to their value. -/
theorem C36_short_numbers_fit {l : List Byte} (h : IsVarint l) (hl : l.length ≤ 9) (rest : List Byte) :
    ∃ m : Word, decodeVarint (l ++ rest) = .ok (m, rest) ∧ m.toNat = varintValue l := by
  obtain ⟨m, e, hm⟩ := decodeVarint_ok (rest := rest) h (by omega)
  refine ⟨m, e, hm.trans (Nat.mod_eq_of_lt ?_)⟩
  have key : ∀ l : List Byte, varintValue l < 128 ^ l.length := by
    intro l
    induction l with
    | nil => simp [varintValue]
    | cons b l ih =>
      rw [varintValue, List.length_cons, pow_succ]
      have := Nat.mod_lt b.toNat (show 0 < 128 by omega)
      omega
  calc varintValue l < 128 ^ l.length := key l
    _ ≤ 128 ^ 9 := Nat.pow_le_pow_right (by omega) hl
    _ < 2 ^ 64 := by decide

/-- C36 is violated: a number that does not fit into 64 bit is accepted, its high bits are dropped. The encoding of `2^64`
(ten bytes) is decoded to zero. -/
theorem C36_too_large_accepted_violated : encodesTwoTo64.length = 10 ∧ IsVarint encodesTwoTo64 ∧ varintValue encodesTwoTo64 = 2 ^ 64 ∧
    decodeVarint encodesTwoTo64 = .ok (0, []) := by
  refine ⟨by decide, ⟨List.replicate 9 0x80#8, 2#8, by decide, by decide, by decide⟩, by decide, by decide⟩

/-- C36 is violated: on a number of eleven bytes whose tenth byte is `0x81` the decoder shifts a 64 bit number by 70. -/
theorem C36_eleven_bytes_undefined : decodeVarint (List.replicate 9 0x80#8 ++ [0x81#8, 0#8]) = .ub := by decide

/-- C36: zigzag decoding is the inverse of zigzag encoding, for all 64 bit numbers. -/
theorem C36_zigzag_decode_encode (x : Int) (h1 : -2 ^ 63 ≤ x) (h2 : x < 2 ^ 63) : zigzagDecode (BitVec.ofNat 64 (zigzag x)) = x :=
  zigzagDecode_zigzag x h1 h2

/-- C36: and conversely: every 64 bit word is the zigzag encoding of the number it is decoded to, which fits into 64 bits. -/
theorem C36_zigzag_encode_decode (w : Word) : zigzag (zigzagDecode w) = w.toNat ∧ -2 ^ 63 ≤ zigzagDecode w ∧ zigzagDecode w < 2 ^ 63 :=
  zigzag_zigzagDecode w

/-- The hypotheses are satisfiable: 300 is `ac 02`. -/
example : encodeVarint 300 = [0xac#8, 0x02#8] := by
  rw [encodeVarint, if_neg (by omega), encodeVarint, if_pos (by omega)]

/-- A number with an unnecessary byte, at the largest length. -/
example : EncodesVarint (List.replicate 9 0xff#8 ++ [0x01#8]) (2 ^ 64 - 1) :=
  ⟨⟨List.replicate 9 0xff#8, 0x01#8, rfl, by decide, by decide⟩, by decide, by decide, by decide⟩

example : EncodesVarint [0x81#8, 0x80#8, 0x00#8] 1 := ⟨⟨[0x81#8, 0x80#8], 0x00#8, rfl, by decide, by decide⟩, by decide, by decide, by decide⟩

/-! ### C37 Messages -/

/-- C37: the outcome for every byte string. The reported fields encode a prefix of the input, in order. (1) If the call
returns then the prefix is the whole input; (2) otherwise no field can be decoded behind the prefix. (3) The behaviour is
undefined only if somewhere in the input a number starts that is longer than ten bytes (the full statement wants an
exception there, and no reduction modulo `2^64`). The number of passes of the loop is at most the length of the input. -/
theorem C37_outcome_partial (l : List Byte) (fs : List Field) (r : Res Unit) (h : decodeMessage (l.length + 1) l = (fs, r)) :
    ∃ l' rest, l = l' ++ rest ∧ EncodesMessage WrappedVarint l' fs ∧
      match r with
      | .ok _ => rest = []
      | .error => rest ≠ [] ∧ ∀ f v tail, EncodesField WrappedVarint v f → rest ≠ v ++ tail
      | .ub => ∃ a c, rest = a ++ c ∧ TooLong c := by
  obtain ⟨l', rest, e, h1, h2⟩ := decodeMessage_inv (l.length + 1) l fs r (by omega) h
  refine ⟨l', rest, e, h1, ?_⟩
  cases r with
  | ok _ => exact h2
  | error =>
    refine ⟨h2.1, fun f v tail hv he => ?_⟩
    have h3 := h2.2
    rw [he, decodeField_ok hv] at h3
    cases h3
  | ub => exact decodeField_ub h2.2

/-- C37: the call returns after having reported the fields `fs` exactly if the input is an encoding of `fs`. -/
theorem C37_accepts_exactly_messages (l : List Byte) (fs : List Field) :
    decodeMessage (l.length + 1) l = (fs, .ok ()) ↔ EncodesMessage WrappedVarint l fs := by
  constructor
  · intro h
    obtain ⟨l', rest, e, h1, h2⟩ := decodeMessage_inv (l.length + 1) l fs _ (by omega) h
    rw [show rest = [] from h2, List.append_nil] at e
    rw [e]; exact h1
  · exact fun h => decodeMessage_ok h _ (by omega)

/-- C37: every valid message is decoded to its fields. -/
theorem C37_decodes_every_message {l : List Byte} {fs : List Field} (h : EncodesMessage EncodesVarint l fs) :
    decodeMessage (l.length + 1) l = (fs, .ok ()) :=
  decodeMessage_ok (encodesMessage_mono (fun _ _ hv => hv.wrapped) h) _ (by omega)

/-- C37: a message is an encoding of at most one sequence of fields. -/
theorem C37_unambiguous {l : List Byte} {fs fs' : List Field} (h : EncodesMessage EncodesVarint l fs) (h' : EncodesMessage EncodesVarint l fs') :
    fs = fs' := by
  have e := (C37_decodes_every_message h).symm.trans (C37_decodes_every_message h')
  injection e

/-- C37: if there is no place in the input where a number of more than ten bytes may start then the behaviour is
defined. -/
theorem C37_defined (l : List Byte) (h : ∀ a c, l = a ++ c → ¬ TooLong c) : (decodeMessage (l.length + 1) l).2 ≠ .ub := by
  intro hub
  obtain ⟨l', rest, e, _, h2⟩ := C37_outcome_partial l (decodeMessage (l.length + 1) l).1 .ub (by rw [← hub])
  obtain ⟨a, c, e2, h3⟩ := h2
  exact h (l' ++ a) c (by rw [e, e2, List.append_assoc]) h3

/-- A message with a number, a string and a 32 bit value is decoded. -/
example : decodeMessage 12 [0x08#8, 0x96#8, 0x01#8, 0x12#8, 0x01#8, 0x41#8, 0x1d#8, 0#8, 0#8, 0#8, 1#8] =
    ([.varint 1 150, .bytes 2 [0x41#8], .fixed32 3 [0#8, 0#8, 0#8, 1#8]], .ok ()) := by decide

/-- A string whose length is beyond the end of the input is an error; the fields before have been reported. -/
example : decodeMessage 7 [0x08#8, 0x96#8, 0x01#8, 0x12#8, 0x02#8, 0x41#8] = ([.varint 1 150], .error) := by decide

/-- The hypothesis of `C37_decodes_every_message` is satisfiable. -/
example : EncodesMessage EncodesVarint [0x12#8, 0x01#8, 0x41#8] [.bytes 2 [0x41#8]] :=
  .cons (l := [0x12#8, 0x01#8, 0x41#8]) (m := [])
    ⟨[0x12#8], [0x01#8], rfl, ⟨⟨[], 0x12#8, rfl, by simp, by decide⟩, by decide, by decide, by decide⟩,
      ⟨⟨[], 0x01#8, rfl, by simp, by decide⟩, by decide, by decide, by decide⟩⟩ .nil

end RK
