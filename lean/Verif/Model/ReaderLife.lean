import Verif.Basic
import Verif.Spec.ReaderLife
/-! # Construction, moves and destruction of `BufferedAsynchronousReader`
(`/repo/src/buffered_asynchronous_reader.cpp:15-88`)

What happens between construction and destruction is modelled in `Model/AsyncReader`. Here a reader is an implementation
record with a buffer and a thread; the memory is a list of the records that exist. -/
namespace RK
open Spec

/-- buffered_asynchronous_reader.cpp:15-30 `Impl`: which resources the record has. The pointer `buffer` is not
initialized by `new Impl`; the thread is not joinable before line 85. -/
structure ReaderImpl where
  id : Nat
  hasBuffer : Bool
  joinable : Bool
deriving DecidableEq, Repr

/-- buffered_asynchronous_reader.h:30 the members `impl` (`none` is the null pointer) of all variables, and the records
that exist. -/
structure ReaderWorld where
  vars : List (Option Nat)
  heap : List ReaderImpl
  next : Nat

/-- What the destructor of a record does. -/
inductive Destroyed
  | done (heap : List ReaderImpl)
  | terminated
  | undefined
deriving DecidableEq, Repr

/-- buffered_asynchronous_reader.cpp:32-41 `~Impl`. Joining a thread that is not joinable throws; as destructors must not
throw, the program ends. Deleting an uninitialized pointer, and deleting a record twice, are undefined. -/
def destroyImpl (heap : List ReaderImpl) (id : Nat) : Destroyed :=
  match heap.find? (fun r => r.id = id) with
  | none => .undefined
  | some r =>
    if !r.joinable then .terminated
    else if !r.hasBuffer then .undefined
    else .done (heap.filter fun r => r.id ≠ id)

namespace ReaderWorld

/-- The destructor of `std::unique_ptr`, or its replacement of the old value `old`. -/
def release (s : ReaderWorld) (old : Option Nat) : Option (ReaderWorld × ReaderOut) :=
  match old with
  | none => some (s, .ended [])
  | some id =>
    match destroyImpl s.heap id with
    | .done h => some (⟨s.vars, h, s.next⟩, .ended [id])
    | .terminated => some (s, .terminated)
    | .undefined => none

/-- buffered_asynchronous_reader.cpp:66-93, the constructor: record (line 69), buffer (line 74), thread (line 85). If
something throws after line 69, the record is destroyed before the exception leaves the constructor. -/
def construct (s : ReaderWorld) (lacking : Option Lacking) : Option (ReaderWorld × ReaderOut) :=
  match lacking with
  | some .record => some (s, .error)
  | some .buffer =>
    match destroyImpl (⟨s.next, false, false⟩ :: s.heap) s.next with
    | .done h => some (⟨s.vars, h, s.next⟩, .error)
    | .terminated => some (s, .terminated)
    | .undefined => none
  | some .thread =>
    match destroyImpl (⟨s.next, true, false⟩ :: s.heap) s.next with
    | .done h => some (⟨s.vars, h, s.next⟩, .error)
    | .terminated => some (s, .terminated)
    | .undefined => none
  | none => some (⟨s.vars ++ [some s.next], ⟨s.next, true, true⟩ :: s.heap, s.next + 1⟩, .ended [])

/-- buffered_asynchronous_reader.cpp:52-64: default construction, move construction, move assignment, destruction. The
assignment of a `std::unique_ptr` takes the pointer out of the source, puts it into the target and then destroys what the
target had. -/
def call (s : ReaderWorld) : ReaderOp → Option (ReaderWorld × ReaderOut)
  | .empty => some (⟨s.vars ++ [none], s.heap, s.next⟩, .ended [])
  | .construct lacking => s.construct lacking
  | .moveConstruct i => do
    let p ← rd s.vars i
    let vars ← wr s.vars i none
    some (⟨vars ++ [p], s.heap, s.next⟩, .ended [])
  | .moveAssign i j => do
    let p ← rd s.vars j
    let vars ← wr s.vars j none
    let old ← rd vars i
    let vars ← wr vars i p
    release ⟨vars, s.heap, s.next⟩ old
  | .destroy i => do
    let old ← rd s.vars i
    let vars ← wr s.vars i none
    release ⟨vars, s.heap, s.next⟩ old

end ReaderWorld
end RK
