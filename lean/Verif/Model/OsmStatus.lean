import Verif.Model.OsmFile
/-!
# Model of the status word in src/osm_decoder.cpp

`OsmPBFDecompressor::status` (line 241) is written by the thread of the second reader and read by the thread which calls `ordered_read_osm_pbf`, without
a mutex, and it is not atomic. Here the two threads are interleaved (sequentially consistent memory, although the program has a data race).
-/
namespace RK.Osm
open Spec (Field)

/-- The values which the other thread stores in `status`, in order: lines 130, 158 and 160. Storing the value that is already there (line 130, from the
second data block on) is left out. -/
def statusWrites (inflate : List Byte → Option (List Byte)) (own : Bool) : Nat → Status → List Byte → List Status
  | 0, _, _ => []
  | fuel + 1, st, l =>
    match oneBlock own st l with
    | (st', r) => (if st' = st then [] else [st']) ++
      match r with
      | .ok (.again l) => statusWrites inflate own fuel st' l
      | .ok (.blob b l) =>
        match unblob inflate b with
        | .ok _ => statusWrites inflate own fuel st' l
        | _ => []
      | _ => []

/-- The thread that calls `ordered_read_osm_pbf`, lines 679-687. -/
inductive SpinPc where
  /-- reads `status` in line 680, again and again -/
  | spin
  /-- reads `status` in line 687 -/
  | decide
  /-- reads the file once (`true`) or up to three times -/
  | left (once : Bool)
deriving Repr, DecidableEq

structure SpinState where
  status : Status
  /-- what the other thread will store -/
  todo : List Status
  pc : SpinPc
deriving Repr, DecidableEq

/-- Both threads at their beginning; line 76 `status(0)`. -/
def SpinState.init (inflate : List Byte → Option (List Byte)) (own : Bool) (file : List Byte) : SpinState :=
  ⟨⟨false, false, false, false⟩, statusWrites inflate own (file.length + 1) ⟨false, false, false, false⟩ file, .spin⟩

/-- A store of the other thread. -/
def SpinState.store (s : SpinState) : Option SpinState :=
  match s.todo with
  | [] => none
  | v :: vs => some { s with status := v, todo := vs }

/-- A step of the waiting thread: one evaluation of the condition in line 680, or the one of line 687. -/
def SpinState.look (s : SpinState) : Option SpinState :=
  match s.pc with
  | .spin => some (if s.status.available then { s with pc := .decide } else s)
  | .decide => some { s with pc := .left s.status.ordered }
  | .left _ => none

/-- An execution: `true` is a step of the other thread. Steps that are not possible are skipped. -/
def SpinState.run (s : SpinState) : List Bool → SpinState
  | [] => s
  | true :: es => (s.store.getD s).run es
  | false :: es => (s.look.getD s).run es

end RK.Osm
