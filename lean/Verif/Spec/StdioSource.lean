/-! # Specification of an object that reads a file through a library with a buffer -/
namespace Spec

/-- Calls on one object. Whether the device fails is part of the call. -/
inductive StdioOp (β : Type)
  | open (found : Option (List β))          -- open(name); `none`: the file cannot be opened
  | close
  | rewind (fails : Bool)
  | size (tell seek tell' seek' : Bool)     -- size(): which of the four steps fail
  | read (count : Nat) (failure : Option Nat) -- read(buffer, count); `some k`: the device fails after `k` bytes

inductive StdioOut (β : Type)
  | unit
  | number (n : Nat)
  | bytes (l : List β)
  | error                                   -- an exception
deriving DecidableEq

/-- Nothing, or an open file: its content, the position, and whether a read has failed since it was opened. -/
abbrev StdioView (β : Type) := Option (List β × Nat × Bool)

/-- `rewind` and `read` need an open file, and the second determination of the position in `size` does not fail. -/
def StdioPre {β : Type} (s : StdioView β) : StdioOp β → Prop
  | .rewind _ | .read _ _ => s ≠ none
  | .size _ _ tell' _ => tell' = false
  | _ => True

/-- What the calls mean. After a failure of the device the position is unknown; after a failed read, all further reads
fail until a file is opened again. -/
def StdioStep {β : Type} (s : StdioView β) (op : StdioOp β) (out : StdioOut β) (s' : StdioView β) : Prop :=
  match op, s with
  | .open none, _ => out = .error ∧ s' = s
  | .open (some c), _ => out = .unit ∧ s' = some (c, 0, false)
  | .close, _ => out = .unit ∧ s' = none
  | .rewind _, none => False
  | .rewind true, some (c, _, b) => out = .error ∧ ∃ p', s' = some (c, p', b)
  | .rewind false, some (c, _, b) => out = .unit ∧ s' = some (c, 0, b)
  | .size _ _ _ _, none => out = .number 0 ∧ s' = none
  | .size false false false false, some (c, _, _) => out = .number c.length ∧ s' = s
  | .size _ _ _ _, some (c, _, b) => out = .error ∧ ∃ p', s' = some (c, p', b)
  | .read _ _, none => False
  | .read count none, some (c, p, false) =>
      out = .bytes ((c.drop p).take count) ∧ s' = some (c, p + ((c.drop p).take count).length, false)
  | .read _ _, some (c, _, _) => out = .error ∧ ∃ p', s' = some (c, p', true)

end Spec
