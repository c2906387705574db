import Mathlib.Data.Nat.Notation
/-! # Specification: the protobuf wire format

https://protobuf.dev/programming-guides/encoding -/
namespace Spec

/-- Seven bits per byte, least significant first; the high bits are ignored. -/
def varintValue : List (BitVec 8) → Nat
  | [] => 0
  | b :: l => b.toNat % 128 + 128 * varintValue l

/-- All bytes but the last have the high bit set. -/
def IsVarint (l : List (BitVec 8)) : Prop :=
  ∃ init last, l = init ++ [last] ∧ (∀ b ∈ init, 128 ≤ b.toNat) ∧ last.toNat < 128

/-- The canonical (shortest) encoding of a number. -/
def encodeVarint (x : Nat) : List (BitVec 8) :=
  if x < 128 then [BitVec.ofNat 8 x] else BitVec.ofNat 8 (x % 128 + 128) :: encodeVarint (x / 128)
termination_by x

/-- An encoding of the 64 bit number `x` in at most ten bytes. -/
def EncodesVarint (l : List (BitVec 8)) (x : Nat) : Prop := IsVarint l ∧ l.length ≤ 10 ∧ varintValue l = x ∧ x < 2 ^ 64

/-- As `EncodesVarint`, but the value may have more than 64 bits (ten bytes carry 70 bits); then `x` is its remainder
modulo `2^64`. -/
def WrappedVarint (l : List (BitVec 8)) (x : Nat) : Prop := IsVarint l ∧ l.length ≤ 10 ∧ varintValue l % 2 ^ 64 = x

/-- `l` starts with ten bytes that have the high bit set, the tenth of them is `0x81`, and there is an eleventh byte. -/
def TooLong (l : List (BitVec 8)) : Prop := 10 < l.length ∧ (∀ b ∈ l.take 10, 128 ≤ b.toNat) ∧ l[9]? = some 0x81#8

/-- Zigzag encoding of signed numbers: 0, -1, 1, -2, 2, ... -/
def zigzag (x : Int) : Nat := if 0 ≤ x then (2 * x).toNat else (-2 * x - 1).toNat

/-- A field of a message with its content; floating point numbers are given by their bytes. -/
inductive Field where
  | varint (id value : Nat)
  | fixed64 (id : Nat) (bytes : List (BitVec 8))
  | fixed32 (id : Nat) (bytes : List (BitVec 8))
  | bytes (id : Nat) (content : List (BitVec 8))
deriving Repr, DecidableEq

/-- `l` is an encoding of the field, where `V` is the encoding of numbers: the key `8 * id + wire type` followed by the
content; byte strings are preceded by their length. -/
def EncodesField (V : List (BitVec 8) → Nat → Prop) (l : List (BitVec 8)) : Field → Prop
  | .varint id x => ∃ k v, l = k ++ v ∧ V k (8 * id + 0) ∧ V v x
  | .fixed64 id c => ∃ k, l = k ++ c ∧ V k (8 * id + 1) ∧ c.length = 8
  | .fixed32 id c => ∃ k, l = k ++ c ∧ V k (8 * id + 5) ∧ c.length = 4
  | .bytes id c => ∃ k n, l = k ++ n ++ c ∧ V k (8 * id + 2) ∧ V n c.length

/-- `l` is an encoding of a message: the concatenation of the encodings of its fields. -/
inductive EncodesMessage (V : List (BitVec 8) → Nat → Prop) : List (BitVec 8) → List Field → Prop
  | nil : EncodesMessage V [] []
  | cons {l m : List (BitVec 8)} {f : Field} {fs : List Field} :
      EncodesField V l f → EncodesMessage V m fs → EncodesMessage V (l ++ m) (f :: fs)

end Spec
