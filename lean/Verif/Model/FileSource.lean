import Verif.Basic
import Verif.Res
import Verif.Spec.FileSource
import Verif.Model.VectorIO
/-!
# Model of `/repo/src/file_data_source.h` and `/repo/src/file_data_source.cpp` (POSIX variant)

The operating system is a table of file descriptors: position `k` tells what descriptor `k` refers to. As POSIX demands,
`open` uses the lowest free descriptor. Files do not change while they are open, and `read` fails only for a descriptor
that is not open; it may deliver less than asked for. `close` is never interrupted.
-/
namespace RK
open Spec

/-- An open file. -/
structure OpenFile where
  content : List Byte
  pos : Nat
deriving DecidableEq

/-- The descriptors of the process. -/
abbrev FdTable := List (Option OpenFile)

namespace FdTable

/-- What descriptor `fd` refers to. -/
def look (t : FdTable) (fd : Nat) : Option OpenFile := t[fd]?.join

/-- `::open` of an existing file: the lowest free descriptor. -/
def alloc (t : FdTable) (f : OpenFile) : FdTable × Nat :=
  let fd := t.findIdx Option.isNone
  (if fd < t.length then t.set fd (some f) else t ++ [some f], fd)

/-- `::read(fd, buffer, count)`: at most `count` bytes; if there are any left, at least one. `none`: the result is -1. -/
def read (t : FdTable) (fd count deliver : Nat) : Option (FdTable × List Byte) := do
  let f ← t.look fd
  let l := (f.content.drop f.pos).take (min count (max deliver 1))
  some (t.set fd (some { f with pos := f.pos + l.length }), l)

/-- `::lseek(fd, 0, SEEK_SET)`. `none`: the result is -1. -/
def seekStart (t : FdTable) (fd : Nat) : Option FdTable := do
  let f ← t.look fd
  some (t.set fd (some { f with pos := 0 }))

/-- `::close(fd)`, the result is ignored by the caller. -/
def close (t : FdTable) (fd : Nat) : FdTable := t.set fd none

end FdTable

/-- The process: its descriptors, and the member `file_descriptor` of each `FileDataSource` (`none` for -1). -/
structure FileState where
  table : FdTable
  objs : List (Option Nat)

namespace FileState

/-- file_data_source.cpp:46-55 `open`. -/
def openFile (s : FileState) (i : Nat) (found : Option (List Byte)) : Option (FileState × FileOut Byte) := do
  let old ← rd s.objs i
  match found with
  | none => some (s, .error)
  | some c =>
    let (t, fd) := s.table.alloc ⟨c, 0⟩
    let t := match old with
      | some o => t.close o
      | none => t
    let objs ← wr s.objs i (some fd)
    some (⟨t, objs⟩, .unit)

/-- file_data_source.cpp:57-62 `close`. -/
def closeFile (s : FileState) (i : Nat) : Option (FileState × FileOut Byte) := do
  let old ← rd s.objs i
  match old with
  | none => some (s, .unit)
  | some fd =>
    let objs ← wr s.objs i none
    some (⟨s.table.close fd, objs⟩, .unit)

/-- file_data_source.cpp:64-69 `rewind`; descriptor -1 is not open. -/
def rewind (s : FileState) (i : Nat) : Option (FileState × FileOut Byte) := do
  let old ← rd s.objs i
  match old.bind s.table.seekStart with
  | none => some (s, .error)
  | some t => some (⟨t, s.objs⟩, .unit)

/-- file_data_source.cpp:85-92 `my_read` for the descriptor `fd`. -/
def myRead (s : FileState) (fd : Option Nat) (count deliver : Nat) : FileState × FileOut Byte :=
  match fd.bind fun fd => s.table.read fd count deliver with
  | none => (s, .error)
  | some (t, l) => (⟨t, s.objs⟩, .bytes l)

/-- file_data_source.cpp:176-178 `read`. -/
def readFile (s : FileState) (i count deliver : Nat) : Option (FileState × FileOut Byte) := do
  let old ← rd s.objs i
  some (s.myRead old count deliver)

/-- file_data_source.cpp:71-82 `size()`, as written: `fstat` returns 0 on success. `ub` is the use of the uninitialised
`buf` after a failure. -/
def size (s : FileState) (i : Nat) : Res Nat :=
  match rd s.objs i with
  | none => .ub
  | some none => .ok 0
  | some (some fd) =>
    match s.table.look fd with
    | some _ => .error
    | none => .ub

/-- file_data_source.cpp:34-37 move construction and 39-43 move assignment, and the other calls. -/
def call (s : FileState) : FileOp Byte → Option (FileState × FileOut Byte)
  | .create => some (⟨s.table, s.objs ++ [none]⟩, .unit)
  | .open i found => s.openFile i found
  | .close i => s.closeFile i
  | .rewind i => s.rewind i
  | .read i count deliver => s.readFile i count deliver
  | .construct i => do
    let o ← rd s.objs i
    let objs ← wr s.objs i none
    some (⟨s.table, objs ++ [o]⟩, .unit)
  | .assign i j => do
    let o ← rd s.objs j
    let objs ← wr s.objs i o
    let objs ← wr objs j none
    some (⟨s.table, objs⟩, .unit)

end FileState

/-- The usual loop that reads everything: blocks of `count` bytes until a read delivers nothing; `deliver k` is what the
device has ready in round `k`. -/
def readAll (s : FileState) (i count : Nat) (deliver : Nat → Nat) : Nat → Option (List Byte)
  | 0 => none
  | fuel + 1 => do
    let (s', out) ← s.readFile i count (deliver fuel)
    match out with
    | .bytes [] => some []
    | .bytes l => do
      let rest ← readAll s' i count deliver fuel
      some (l ++ rest)
    | _ => none

end RK
