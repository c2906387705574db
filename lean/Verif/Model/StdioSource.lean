import Verif.Basic
import Verif.Spec.StdioSource
import Verif.Model.VectorIO
/-! # Model of `/repo/src/file_data_source.cpp:94-173` (without POSIX: the streams of the C library)

One object; moving is as in the POSIX variant and left out. A stream is the content of its file, a position and the error indicator of the C library. `none` is undefined
behaviour: a null pointer given to a function of the library. The file does not change while it is open. `fread` reads
until it has everything, the file ends or the device fails. A position that does not fit `long` is a failure of
`ftell`. -/
namespace RK
open Spec

/-- A `FILE`. `err` is what `ferror` returns; `fseek` does not clear it. -/
structure Stream where
  content : List Byte
  pos : Nat
  err : Bool
deriving DecidableEq

/-- file_data_source.h:47: the member `file_descriptor`; `none` is `nullptr` (file_data_source.cpp:97-99). -/
abbrev StdioState := Option Stream

namespace StdioState

/-- file_data_source.cpp:122-129 `open`, also the constructors 101-109. A failed `open` leaves the old file. -/
def openFile (s : StdioState) : Option (List Byte) → StdioState × StdioOut Byte
  | none => (s, .error)
  | some c => (some ⟨c, 0, false⟩, .unit)

/-- file_data_source.cpp:131-136 `close`. -/
def closeFile (_ : StdioState) : StdioState × StdioOut Byte := (none, .unit)

/-- file_data_source.cpp:138-141 `rewind`. -/
def rewind (s : StdioState) (fails : Bool) : Option (StdioState × StdioOut Byte) := do
  let f ← s
  if fails then some (some f, .error)
  else some (some { f with pos := 0 }, .unit)

/-- file_data_source.cpp:143-162 `size`. The second result of `ftell` is not tested: line 157 tests the first again; the
result -1 is converted to `unsigned long long`. -/
def size (s : StdioState) (tell seek tell' seek' : Bool) : StdioState × StdioOut Byte :=
  match s with
  | none => (none, .number 0)
  | some f =>
    if tell then (some f, .error)
    else if seek then (some f, .error)
    else
      let n := if tell' then 2 ^ 64 - 1 else f.content.length
      if seek' then (some { f with pos := f.content.length }, .error)
      else (some f, .number n)

/-- file_data_source.cpp:165-171 `my_read` and 176-178 `read`. -/
def readFile (s : StdioState) (count : Nat) (failure : Option Nat) : Option (StdioState × StdioOut Byte) := do
  let f ← s
  let l := (f.content.drop f.pos).take (match failure with
    | none => count
    | some k => min k count)
  let f := { f with pos := f.pos + l.length, err := f.err || failure.isSome }
  if f.err then some (some f, .error)
  else some (some f, .bytes l)

/-- file_data_source.cpp:122-178, the calls. -/
def call (s : StdioState) : StdioOp Byte → Option (StdioState × StdioOut Byte)
  | .open found => some (s.openFile found)
  | .close => some s.closeFile
  | .rewind fails => s.rewind fails
  | .size a b c d => some (s.size a b c d)
  | .read count failure => s.readFile count failure

/-- The usual loop that reads everything: blocks of `count` bytes until a read delivers nothing. -/
def readAllStd (s : StdioState) (count : Nat) : Nat → Option (List Byte)
  | 0 => none
  | fuel + 1 => do
    let (s', out) ← s.readFile count none
    match out with
    | .bytes [] => some []
    | .bytes l => do
      let rest ← readAllStd s' count fuel
      some (l ++ rest)
    | _ => none

end StdioState
end RK
