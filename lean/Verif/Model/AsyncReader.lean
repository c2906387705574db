import Verif.Model.VectorIO
import Verif.Spec.AsyncReader
/-!
# Model of src/buffered_asynchronous_reader.cpp

An interleaving semantics of the two threads. A state contains the shared memory, the mutex, and a program counter for
each thread. What a thread does while it holds the mutex, up to a point where it may lose it, is one step, except that
testing the condition of a `wait` and falling asleep are two steps (the worker sets `read_exception` without holding the
mutex). `condition_variable::wait` releases the mutex and falls asleep in one step; a sleeping thread continues (by
acquiring the mutex and testing the condition again) after a notification or spuriously.

Simplifications: sequentially consistent memory; the source writes the memory in one step (the theorems show that the
written positions are not those of the slice which the client may be reading at the same time). The client is a thread
that calls `read` with arbitrary sizes and may destroy the object. `read_or_throw` (line 177-182) throws if `read`
returns null and is not modelled separately. `std::thread` can be created and memory can be allocated.
-/
namespace RK
open Spec (SourceCall ReadResult)

inductive Thread where
  | worker
  | client
deriving Repr, DecidableEq

/-- Program counter of the worker, lines 86-136. -/
inductive WPc where
  /-- waits for the mutex: line 87, or within `wait` after having been woken up -/
  | lock
  /-- holds the mutex and tests the condition of `wait`, lines 90-95 -/
  | check
  /-- holds the mutex, the condition was false -/
  | park
  | sleep
  /-- calls the source without mutex, lines 101-102 -/
  | read
  /-- waits for the mutex, line 103; the source has returned `n` -/
  | relock (n : Nat)
  /-- lines 104-131 -/
  | body (n : Nat)
  /-- the source has thrown; line 134, without mutex -/
  | throw1
  /-- line 135, without mutex -/
  | throw2
  | done
deriving Repr, DecidableEq

/-- Program counter of the client. -/
inductive CPc where
  /-- outside of the reader -/
  | idle
  /-- in `read(size)`: waits for the mutex, line 145 or within `wait` -/
  | lock (size : Nat)
  /-- holds the mutex and tests the condition, lines 147-152 -/
  | check (size : Nat)
  /-- holds the mutex, the condition was false -/
  | park (size : Nat)
  | sleep (size : Nat)
  /-- lines 154-174 -/
  | body (size : Nat)
  /-- in the destructor, lines 33-36 -/
  | dlock
  /-- line 37 -/
  | dnotify
  /-- line 38 -/
  | djoin
  | destroyed
deriving Repr, DecidableEq

/-- Lines 15-29 (`Impl`), the local variables, and the calls of the client so far. -/
structure AState where
  blockSize : Nat
  buffer : List Byte
  dataBegin : Nat
  dataEnd : Nat
  eof : Bool
  term : Bool
  exc : Bool
  mutex : Option Thread
  wpc : WPc
  cpc : CPc
  /-- the outcomes of the calls of the source that are still to come -/
  source : List SourceCall
  /-- position and size of the last slice that was given to the client, until the next call -/
  ret : Option (Nat × Nat)
  /-- sizes and outcomes of the calls of `read`, in order -/
  log : List (Nat × ReadResult)
deriving Repr, DecidableEq

/-- Lines 43-49 `how_many_bytes_are_in_the_buffer`; `n = blocks_per_buffer*block_size`. -/
def howMany (n dataBegin dataEnd : Nat) : Nat :=
  if dataBegin ≤ dataEnd then dataEnd - dataBegin else n - (dataBegin - dataEnd)

/-- `blocks_per_buffer*block_size`, computed as `unsigned`. -/
def AState.ring (s : AState) : Nat := mul32 5 s.blockSize

def AState.count (s : AState) : Nat := howMany s.ring s.dataBegin s.dataEnd

/-- Lines 66-84, the constructor. The buffer has `(blocks_per_buffer+1)*block_size` bytes, computed as `unsigned`; its
content is not initialized (`b` here). -/
def AState.init (blockSize : Nat) (source : List SourceCall) (b : Byte) : AState where
  blockSize := blockSize
  buffer := List.replicate (mul32 6 blockSize) b
  dataBegin := 0
  dataEnd := 0
  eof := false
  term := false
  exc := false
  mutex := none
  wpc := .lock
  cpc := .idle
  source := source
  ret := none
  log := []

/-- Writing a range of bytes. -/
def writeAt (buf : List Byte) (pos : Nat) (data : List Byte) : Option (List Byte) :=
  if pos + data.length ≤ buf.length then some (buf.take pos ++ data ++ buf.drop (pos + data.length)) else none

/-- `memcpy(buffer+dst, buffer+src, len)`; the ranges must be inside of the buffer and must not overlap. -/
def memcpy (buf : List Byte) (dst src len : Nat) : Option (List Byte) :=
  if src + len ≤ buf.length ∧ (dst + len ≤ src ∨ src + len ≤ dst) then writeAt buf dst ((buf.drop src).take len) else none

/-- Lines 118-129: the new bytes, which the source has written behind `data_end`, become data. -/
def ringAppend (n blockSize : Nat) (buf : List Byte) (dataEnd bytesRead : Nat) : Option (List Byte × Nat) := do
  let newEnd := dataEnd + bytesRead
  let (buf, newEnd) ← (if newEnd ≥ n then (memcpy buf 0 n (newEnd - n)).map (fun b => (b, newEnd - n)) else some (buf, newEnd))
  let buf ← (if dataEnd < blockSize then
      (if newEnd < blockSize then memcpy buf (n + dataEnd) dataEnd bytesRead
        else memcpy buf (n + dataEnd) dataEnd (blockSize - dataEnd))
    else some buf)
  some (buf, newEnd)

/-- `worker_thread_has_done_something.notify_one()`: the client is the only thread that may wait for it. -/
def AState.wakeClient (s : AState) : AState :=
  match s.cpc with
  | .sleep size => { s with cpc := .lock size }
  | _ => s

/-- `main_thread_has_done_something.notify_one()`. -/
def AState.wakeWorker (s : AState) : AState :=
  match s.wpc with
  | .sleep => { s with wpc := .lock }
  | _ => s

/-- Line 93, the condition of the worker. -/
def AState.workerMayRun (s : AState) : Bool := decide (s.ring - s.count ≥ 2 * s.blockSize) || s.term

/-- Lines 102: a call of the source; it writes to `buffer + data_end`. -/
def AState.callSource (s : AState) : Res AState :=
  match s.source with
  | [] => .ok { s with wpc := .relock 0 }
  | .returns w n :: rest =>
    match writeAt s.buffer s.dataEnd w with
    | some b => .ok { s with buffer := b, source := rest, wpc := .relock n }
    | none => .ub
  | .throws w :: rest =>
    match writeAt s.buffer s.dataEnd w with
    | some b => .ok { s with buffer := b, source := rest, wpc := .throw1 }
    | none => .ub

/-- Lines 104-131, while the mutex is held. -/
def AState.afterRead (s : AState) (n : Nat) : Res AState :=
  if n > s.blockSize then .ub
  else if s.term then .ok { s with mutex := none, wpc := .done }
  else if n = 0 then .ok { s.wakeClient with eof := true, mutex := none, wpc := .done }
  else match ringAppend s.ring s.blockSize s.buffer s.dataEnd n with
    | some (b, e) => .ok { s.wakeClient with buffer := b, dataEnd := e, wpc := .check }
    | none => .ub

/-- One step of the worker; `error` if it is blocked. -/
def AState.workerStep (s : AState) : Res AState :=
  match s.wpc with
  | .lock => if s.mutex = none then .ok { s with mutex := some .worker, wpc := .check } else .error
  | .check =>
    if s.workerMayRun then
      if s.term then .ok { s with mutex := none, wpc := .done } else .ok { s with mutex := none, wpc := .read }
    else .ok { s with wpc := .park }
  | .park => .ok { s with mutex := none, wpc := .sleep }
  | .sleep => .error
  | .read => s.callSource
  | .relock n => if s.mutex = none then .ok { s with mutex := some .worker, wpc := .body n } else .error
  | .body n => s.afterRead n
  | .throw1 => .ok { s with exc := true, wpc := .throw2 }
  | .throw2 => .ok { s.wakeClient with wpc := .done }
  | .done => .error

/-- Lines 154-174: the end of `read`, while the mutex is held. The client sees the bytes of the buffer. -/
def AState.finishRead (s : AState) (size : Nat) : Res AState :=
  if s.exc then .ok { s with eof := true, mutex := none, cpc := .idle, log := s.log ++ [(size, .threw)] }
  else if s.count ≥ size then
    let b := s.dataBegin + size
    let b := if b ≥ s.ring then b - s.ring else b
    if s.dataBegin + size ≤ s.buffer.length then
      let bytes := (s.buffer.drop s.dataBegin).take size
      let s := s.wakeWorker
      .ok { s with dataBegin := b, mutex := none, cpc := .idle, ret := some (s.dataBegin, size), log := s.log ++ [(size, .slice bytes)] }
    else .ub
  else if s.eof then .ok { s with mutex := none, cpc := .idle, log := s.log ++ [(size, .null)] }
  else .ub

/-- One step of the client within a call; `error` if it is blocked or not in a call. -/
def AState.clientStep (s : AState) : Res AState :=
  match s.cpc with
  | .idle => .error
  | .lock size => if s.mutex = none then .ok { s with mutex := some .client, cpc := .check size } else .error
  | .check size =>
    if s.eof || decide (s.count ≥ size) || s.exc then .ok { s with cpc := .body size } else .ok { s with cpc := .park size }
  | .park size => .ok { s with mutex := none, cpc := .sleep size }
  | .sleep _ => .error
  | .body size => s.finishRead size
  | .dlock => if s.mutex = none then .ok { s with term := true, cpc := .dnotify } else .error
  | .dnotify => .ok { s.wakeWorker with cpc := .djoin }
  | .djoin => if s.wpc = .done then .ok { s with cpc := .destroyed } else .error
  | .destroyed => .error

/-- What may happen next. -/
inductive AEvent where
  | worker
  | client
  /-- the client calls `read(size)` -/
  | call (size : Nat)
  /-- the client calls the destructor -/
  | destroy
  /-- spurious wakeups -/
  | spuriousWorker
  | spuriousClient
deriving Repr, DecidableEq

/-- One event; `error` if it is not possible in this state. Lines 142-143 are in the event `call`. -/
def AState.step (s : AState) : AEvent → Res AState
  | .worker => s.workerStep
  | .client => s.clientStep
  | .call size =>
    if s.cpc = .idle then
      if size > s.blockSize then .ok { s with log := s.log ++ [(size, .rejected)] }
      else .ok { s with cpc := .lock size, ret := none }
    else .error
  | .destroy => if s.cpc = .idle then .ok { s with cpc := .dlock, ret := none } else .error
  | .spuriousWorker => if s.wpc = .sleep then .ok { s with wpc := .lock } else .error
  | .spuriousClient =>
    match s.cpc with
    | .sleep size => .ok { s with cpc := .lock size }
    | _ => .error

/-- A finite execution. -/
def AState.run (s : AState) : List AEvent → Res AState
  | [] => .ok s
  | e :: es => do
    let s ← s.step e
    s.run es

end RK
