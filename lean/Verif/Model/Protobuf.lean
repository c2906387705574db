import Verif.Model.VectorIO
import Verif.Spec.Protobuf
/-!
# Model of src/protobuf.h and src/protobuf.cpp

The memory from `begin` to `end` is a list of bytes.
-/
namespace RK
open Spec (Field)

/-- protobuf.cpp:18 and 24: `n | ((byte & mask) << shift)`; a shift by 64 or more is undefined. -/
def varintAdd (n : Word) (b : Byte) (shift : Nat) : Res Word :=
  if shift < 64 then .ok (n ||| (((b &&& 0x7f#8).setWidth 64) <<< shift)) else .ub

/-- protobuf.cpp:15-27, the loop and the last byte. Reading at `end` is undefined. -/
def varintLoop : List Byte → Word → Nat → Res (Word × List Byte)
  | [], _, _ => .ub
  | b :: rest, n, shift =>
    if b &&& 0x80#8 ≠ 0 then
      if shift = 7 * 9 ∧ b ≠ 0x81#8 then .error
      else do
        let n ← varintAdd n b shift
        if rest = [] then .error else varintLoop rest n (shift + 7)
    else do
      let n ← varintAdd n b shift
      .ok (n, rest)

/-- protobuf.cpp:5-28 `decode_varint_as_uint64_and_advance_first_parameter`: the number and the memory behind it. -/
def decodeVarint (l : List Byte) : Res (Word × List Byte) :=
  if l = [] then .error else varintLoop l 0 0

/-- protobuf.cpp:30-35 `zigzag_convert_uint64_to_int64`; `int64_t` in two's complement. -/
def zigzagDecode (x : Word) : Int :=
  if x &&& 1 ≠ 0 then -(x >>> 1).toInt - 1 else (x >>> 1).toInt

/-- protobuf.h:17-47, one pass of the loop: the callback that is called, and the memory behind the field. The callback
gets `double` and `float` values by reinterpreting (possibly misaligned) memory; here it gets the bytes. The callbacks
themselves are not modelled; if one throws then the decoder stops. -/
def decodeField (l : List Byte) : Res (Field × List Byte) := do
  let (header, l) ← decodeVarint l
  let id := (header >>> 3).toNat
  match (header &&& 7).toNat with
  | 0 => do
    let (x, l) ← decodeVarint l
    .ok (.varint id x.toNat, l)
  | 1 =>
    if l.length < 8 then .error else .ok (.fixed64 id (l.take 8), l.drop 8)
  | 5 =>
    if l.length < 4 then .error else .ok (.fixed32 id (l.take 4), l.drop 4)
  | 2 => do
    let (len, l) ← decodeVarint l
    if l.length < len.toNat then .error else .ok (.bytes id (l.take len.toNat), l.drop len.toNat)
  | _ => .error

/-- protobuf.h:15-49 `decode_protobuf_message_with_callbacks`: the callbacks that are called in order, and how the call
ends. `fuel` bounds the number of passes. -/
def decodeMessage : Nat → List Byte → List Field × Res Unit
  | 0, _ => ([], .ub)
  | fuel + 1, l =>
    if l = [] then ([], .ok ())
    else match decodeField l with
      | .ok (f, rest) =>
        let (fs, r) := decodeMessage fuel rest
        (f :: fs, r)
      | .error => ([], .error)
      | .ub => ([], .ub)

end RK
