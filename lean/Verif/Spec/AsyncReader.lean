import Mathlib.Data.Nat.Notation
/-! # Specification: reading a byte stream -/
namespace Spec

/-- One call of a byte source: it writes some bytes to the front of the given memory and returns a number `n`: the first
`n` of these bytes are the next bytes of the stream, and `n = 0` means that the stream has ended. Or it throws. -/
inductive SourceCall where
  | returns (written : List (BitVec 8)) (n : Nat)
  | throws (written : List (BitVec 8))
deriving Repr, DecidableEq

/-- The source respects the size of the memory it is given. -/
def SourceCall.Ok (blockSize : Nat) : SourceCall → Prop
  | .returns w n => n ≤ w.length ∧ w.length ≤ blockSize
  | .throws w => w.length ≤ blockSize

/-- The stream of a source given by the outcomes of the calls: everything up to the end (or up to an exception). A source
whose list is used up is at its end. -/
def stream : List SourceCall → List (BitVec 8)
  | [] => []
  | .throws _ :: _ => []
  | .returns w n :: rest => if n = 0 then [] else w.take n ++ stream rest

/-- The outcome of a call of `read`. -/
inductive ReadResult where
  /-- a pointer to these bytes -/
  | slice (bytes : List (BitVec 8))
  /-- a null pointer -/
  | null
  /-- an exception because of the size -/
  | rejected
  /-- the exception of the source -/
  | threw
deriving Repr, DecidableEq

/-- The calls of `read` (sizes and outcomes in order) are those of a sequential reader on the stream `s`, and `rest` is
left over: slices are consecutive parts of the stream, null is returned only if less than the wanted bytes are left, and
exceptions happen only for sizes larger than the block size, or if the source throws (`srcThrows`). -/
def Delivers (blockSize : Nat) (srcThrows : Prop) : List (BitVec 8) → List (Nat × ReadResult) → List (BitVec 8) → Prop
  | s, [], rest => rest = s
  | s, (size, .slice bytes) :: log, rest =>
    size ≤ blockSize ∧ size ≤ s.length ∧ bytes = s.take size ∧ Delivers blockSize srcThrows (s.drop size) log rest
  | s, (size, .null) :: log, rest => size ≤ blockSize ∧ s.length < size ∧ Delivers blockSize srcThrows s log rest
  | s, (size, .rejected) :: log, rest => blockSize < size ∧ Delivers blockSize srcThrows s log rest
  | s, (size, .threw) :: log, rest => size ≤ blockSize ∧ srcThrows ∧ Delivers blockSize srcThrows s log rest

end Spec
