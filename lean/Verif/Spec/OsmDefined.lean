import Verif.Spec.OsmFile
/-! # Specification: contents of a file in the OpenStreetMap PBF format for which the decoder is not defined

All definitions are about the bytes of a file; messages and lists need not be correct behind the part that matters. -/
namespace Spec

/-- `l` is a sequence of numbers. -/
inductive Numbers : Str → List Nat → Prop
  | nil : Numbers [] []
  | cons {v l : Str} {x : Nat} {xs : List Nat} : WrappedVarint v x → Numbers l xs → Numbers (v ++ l) (x :: xs)

/-- One of the numbers at the beginning of `c` is `x`. -/
def ListHas (c : Str) (x : Nat) : Prop := ∃ a xs v b, c = a ++ v ++ b ∧ Numbers a xs ∧ WrappedVarint v x

/-- After some numbers there is one of more than ten bytes that the decoder does not refuse. -/
def LongInList (c : Str) : Prop := ∃ a xs b, c = a ++ b ∧ Numbers a xs ∧ TooLong b

/-- `f` is one of the fields at the beginning of `l`. -/
def HasField (l : Str) (f : Field) : Prop := ∃ a b fs, l = a ++ b ∧ EncodesMessage WrappedVarint a fs ∧ f ∈ fs

/-- After some fields the key of the next one, or the number behind this key, has more than ten bytes and is not refused. -/
def LongInMessage (l : Str) : Prop :=
  ∃ a fs b, l = a ++ b ∧ EncodesMessage WrappedVarint a fs ∧ (TooLong b ∨ ∃ k x r, b = k ++ r ∧ WrappedVarint k x ∧ TooLong r)

/-! ### Blocks -/

/-- `o` is an object in a group of the block `d`: a node (`k = 1`), several nodes (2), a way (3) or a relation (4). -/
def HasObject (d : Str) (k : Nat) (o : Str) : Prop := ∃ g, HasField d (.bytes 2 g) ∧ HasField g (.bytes k o)

/-- `c` is a list of indices of keys and values of tags of an object of the block. -/
def HasTagList (d c : Str) : Prop :=
  (∃ k ∈ [1, 3, 4], ∃ o, HasObject d k o ∧ ∃ i ∈ [2, 3], HasField o (.bytes i c)) ∨ ∃ o, HasObject d 2 o ∧ HasField o (.bytes 10 c)

/-- `c` is a list of numbers of an object of the block. -/
def HasList (d c : Str) : Prop :=
  HasTagList d c ∨
  (∃ o, HasObject d 2 o ∧ ∃ i ∈ [1, 8, 9], HasField o (.bytes i c)) ∨
  (∃ o, HasObject d 3 o ∧ HasField o (.bytes 8 c)) ∨
  (∃ o, HasObject d 4 o ∧ ∃ i ∈ [8, 9, 10], HasField o (.bytes i c))

/-- `l` is one of the messages of the block: the block itself, a string table, a group or an object. -/
def HasMessage (d l : Str) : Prop :=
  l = d ∨ HasField d (.bytes 1 l) ∨ HasField d (.bytes 2 l) ∨ ∃ k ∈ [1, 2, 3, 4], HasObject d k l

/-- Whether a field is a string. -/
def isString : Field → Bool
  | .bytes _ _ => true
  | _ => false

/-- The number of strings in the string tables (fields with the key 1) among the fields of a block. -/
inductive TableSize : List Field → Nat → Prop
  | nil : TableSize [] 0
  | table {c : Str} {gs fs : List Field} {n : Nat} : EncodesMessage WrappedVarint c gs → TableSize fs n →
      TableSize (.bytes 1 c :: fs) ((gs.filter isString).length + n)
  | other {f : Field} {fs : List Field} {n : Nat} : (∀ c, f ≠ .bytes 1 c) → TableSize fs n → TableSize (f :: fs) n

/-- The string tables of the block `d` have `n` strings together. -/
def StringCount (d : Str) (n : Nat) : Prop := ∃ fs, EncodesMessage WrappedVarint d fs ∧ TableSize fs n

/-- The block contains a number that is too long but not refused, or an index of a tag which, cut to 32 bits, is the number of
strings of the block (the first index that is not allowed). -/
def UnclearBlock (d : Str) : Prop :=
  (∃ l, HasMessage d l ∧ LongInMessage l) ∨ (∃ c, HasList d c ∧ LongInList c) ∨
  ∃ c n x, HasTagList d c ∧ StringCount d n ∧ ListHas c x ∧ x % 2 ^ 32 = n

/-! ### Files -/

/-- The message `h` states that `n` bytes follow; numbers are cut to 32 bits. -/
def Announces (h : Str) (n : Nat) : Prop :=
  ∃ fs, EncodesMessage WrappedVarint h fs ∧ ∃ x, (nums 3 fs).getLast? = some x ∧ x % 2 ^ 32 = n

/-- `r` is what follows a number of blocks of the file. Each block has four bytes with the size of its header (which is left
open here, as one variant of the decoder reads sizes from 65536 on differently), the header and the content; the content may be
missing, because the decoder reads an incomplete content as if it were the next block. -/
inductive Behind (file : Str) : Str → Prop
  | start : Behind file file
  | next {s h b r : Str} : Behind file (s ++ h ++ b ++ r) → s.length = 4 → Announces h b.length ∨ b = [] → Behind file r

/-- `h` is the header of a block of the file. -/
def HasHead (file h : Str) : Prop := ∃ s r, Behind file (s ++ h ++ r) ∧ s.length = 4

/-- `b` is the content of a block of the file. -/
def HasBlob (file b : Str) : Prop := ∃ s h r, Behind file (s ++ h ++ b ++ r) ∧ s.length = 4 ∧ Announces h b.length

/-- `d` is the data in `b`, as it is or compressed. -/
def IsData (inflate : Str → Option Str) (b d : Str) : Prop :=
  HasField b (.bytes 1 d) ∨ ∃ z, HasField b (.bytes 3 z) ∧ inflate z = some d

/-- The name of a known feature in `b` is continued by a zero byte and a further byte. -/
def HasLongFeature (b : Str) : Prop :=
  ∃ x r, HasField b (.bytes 4 (text "DenseNodes" ++ 0 :: x :: r)) ∨ HasField b (.bytes 5 (text "Sort.Type_then_ID" ++ 0 :: x :: r))

/-- Something in the file is not refused although the decoder is not prepared for it. -/
def UnclearFile (inflate : Str → Option Str) (file : Str) : Prop :=
  (∃ h, HasHead file h ∧ LongInMessage h) ∨
  ∃ b, HasBlob file b ∧ (LongInMessage b ∨ HasLongFeature b ∨ ∃ d, IsData inflate b d ∧ UnclearBlock d)

end Spec
