/-! # Specification of the life of readers with a thread of their own -/
namespace Spec

/-- What cannot be obtained during the construction of a reader. -/
inductive Lacking
  | record    -- the memory of the implementation record
  | buffer    -- the memory of the buffer
  | thread    -- the thread
deriving DecidableEq, Repr

/-- Calls on variables of type `BufferedAsynchronousReader`, numbered in the order of their definition. -/
inductive ReaderOp
  | empty                                -- BufferedAsynchronousReader r;
  | construct (lacking : Option Lacking) -- BufferedAsynchronousReader r(source, block_size);
  | moveConstruct (i : Nat)              -- BufferedAsynchronousReader r(std::move(variable i));
  | moveAssign (i j : Nat)               -- variable i = std::move(variable j);
  | destroy (i : Nat)                    -- the end of the life of variable i; it is empty afterwards
deriving DecidableEq, Repr

/-- What is seen: the readers (numbered in the order of their construction) whose threads have ended and whose memory has
been returned by the call; an exception; the end of the program by `std::terminate`. -/
inductive ReaderOut
  | ended (readers : List Nat)
  | error
  | terminated
deriving DecidableEq, Repr

/-- The reader that each variable holds, and the number of the next reader. -/
structure ReaderVars where
  vars : List (Option Nat)
  next : Nat

/-- The calls refer to existing variables. Buffers and threads can be obtained. -/
def ReaderPre (s : ReaderVars) : ReaderOp → Prop
  | .empty => True
  | .construct lacking => lacking = none ∨ lacking = some .record
  | .moveConstruct i | .destroy i => i < s.vars.length
  | .moveAssign i j => i < s.vars.length ∧ j < s.vars.length

/-- What the calls mean. -/
def ReaderStep (s : ReaderVars) (op : ReaderOp) (out : ReaderOut) (s' : ReaderVars) : Prop :=
  match op with
  | .empty => out = .ended [] ∧ s' = ⟨s.vars ++ [none], s.next⟩
  | .construct none => out = .ended [] ∧ s' = ⟨s.vars ++ [some s.next], s.next + 1⟩
  | .construct (some _) => out = .error ∧ s' = s
  | .moveConstruct i => ∃ v, s.vars[i]? = some v ∧ out = .ended [] ∧ s' = ⟨s.vars.set i none ++ [v], s.next⟩
  | .moveAssign i j => ∃ old v, s.vars[i]? = some old ∧ s.vars[j]? = some v ∧
      (i = j → out = .ended [] ∧ s' = s) ∧
      (i ≠ j → out = .ended old.toList ∧ s' = ⟨(s.vars.set i v).set j none, s.next⟩)
  | .destroy i => ∃ old, s.vars[i]? = some old ∧ out = .ended old.toList ∧ s' = ⟨s.vars.set i none, s.next⟩

end Spec
