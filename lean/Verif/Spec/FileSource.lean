/-! # Specification of objects that read files -/
namespace Spec

/-- Calls on a growing collection of objects, numbered in the order of their creation. The state of the world that a call
meets is part of the call: which content (if any) is found when a file is opened, and how much a read delivers at once. -/
inductive FileOp (β : Type)
  | create                                 -- FileDataSource()
  | open (i : Nat) (found : Option (List β)) -- open(name); `none`: the file cannot be opened
  | close (i : Nat)                        -- close(), also the destructor
  | rewind (i : Nat)
  | read (i count deliver : Nat)           -- read(buffer, count); the device has `deliver` bytes ready
  | construct (i : Nat)                    -- FileDataSource(std::move(object i))
  | assign (i j : Nat)                     -- object i = std::move(object j)

inductive FileOut (β : Type)
  | unit
  | bytes (l : List β)
  | error                                  -- an exception
deriving DecidableEq

/-- What an object refers to: nothing, or the content of a file and a position in it. -/
abbrev FileView (β : Type) := Option (List β × Nat)

/-- The calls refer to existing objects. -/
def FilePre {β : Type} (s : List (FileView β)) : FileOp β → Prop
  | .create => True
  | .open i _ | .close i | .rewind i | .read i _ _ | .construct i => i < s.length
  | .assign i j => i < s.length ∧ j < s.length

/-- What the calls mean. -/
def FileStep {β : Type} (s : List (FileView β)) (op : FileOp β) (out : FileOut β) (s' : List (FileView β)) : Prop :=
  match op with
  | .create => out = .unit ∧ s' = s ++ [none]
  | .open i found => match found with
    | none => out = .error ∧ s' = s
    | some c => out = .unit ∧ s' = s.set i (some (c, 0))
  | .close i => out = .unit ∧ s' = s.set i none
  | .rewind i => (s[i]? = some none ∧ out = .error ∧ s' = s) ∨
      ∃ c p, s[i]? = some (some (c, p)) ∧ out = .unit ∧ s' = s.set i (some (c, 0))
  | .read i count _ => (s[i]? = some none ∧ out = .error ∧ s' = s) ∨
      ∃ c p l, s[i]? = some (some (c, p)) ∧ out = .bytes l ∧ (∃ rest, c.drop p = l ++ rest) ∧ l.length ≤ count ∧
        (l = [] → count = 0 ∨ c.length ≤ p) ∧ s' = s.set i (some (c, p + l.length))
  | .construct i => ∃ v, s[i]? = some v ∧ out = .unit ∧ s' = s.set i none ++ [v]
  | .assign i j => ∃ v, s[j]? = some v ∧ out = .unit ∧ s' = (s.set i v).set j none

end Spec
