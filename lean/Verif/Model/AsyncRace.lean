import Verif.Model.AsyncReader
/-!
# The accesses to shared memory of src/buffered_asynchronous_reader.cpp

Which shared variables the next step of each thread of `Verif.Model.AsyncReader` reads and writes. `std::mutex`, `std::condition_variable` and
`std::thread` synchronise and are not variables here. `buffer`, `block_size` (lines 16-17) are written by the constructor, before the thread starts, and the
buffer is deleted behind `join`.
-/
namespace RK
open Spec (SourceCall ReadResult)

/-- Lines 17-25: the variables that both threads use, and the bytes of the buffer. -/
inductive SharedVar where
  | dataBegin
  | dataEnd
  | eof
  | term
  | exc
  | byte (i : Nat)
deriving Repr, DecidableEq

/-- What the next step of the worker reads: line 93 (within `how_many_bytes_are_in_the_buffer` lines 43-49) and 97; line 102; lines 108-128. -/
def AState.workerReads (s : AState) : SharedVar → Prop
  | .dataBegin => s.wpc = .check
  | .dataEnd => s.wpc = .check ∨ s.wpc = .read ∨ ∃ n, s.wpc = .body n
  | .term => s.wpc = .check ∨ ∃ n, s.wpc = .body n
  | .eof | .exc => False
  | .byte i => ∃ n, s.wpc = .body n ∧ s.dataEnd ≤ i ∧ i < s.dataEnd + n

/-- What the next step of the worker writes: the source writes up to `block_size` bytes, line 102; line 113; the copies of lines 121 and 124-127; line 129;
line 134. -/
def AState.workerWrites (s : AState) : SharedVar → Prop
  | .dataBegin | .term => False
  | .dataEnd | .eof => ∃ n, s.wpc = .body n
  | .exc => s.wpc = .throw1
  | .byte i => (s.wpc = .read ∧ s.dataEnd ≤ i ∧ i < s.dataEnd + s.blockSize) ∨
      ∃ n, s.wpc = .body n ∧ (i + s.ring < s.dataEnd + n ∨
        (s.dataEnd < s.blockSize ∧ s.ring + s.dataEnd ≤ i ∧ i < s.ring + s.dataEnd + n ∧ i < s.ring + s.blockSize))

/-- The bytes which the last call has returned; the client may use them until the next call. -/
def AState.slice (s : AState) (i : Nat) : Prop := s.cpc = .idle ∧ ∃ pos k, s.ret = some (pos, k) ∧ pos ≤ i ∧ i < pos + k

/-- What the client may read: lines 150 and 154-172, its slice, and if `read` has returned null then `read_or_throw` counts the bytes in the buffer,
line 180, without the mutex. -/
def AState.clientReads (s : AState) : SharedVar → Prop
  | .dataBegin | .dataEnd => (∃ size, s.cpc = .check size ∨ s.cpc = .body size) ∨ (s.cpc = .idle ∧ ∃ size, s.log.getLast? = some (size, .null))
  | .eof | .exc => ∃ size, s.cpc = .check size ∨ s.cpc = .body size
  | .term => False
  | .byte i => s.slice i

/-- What the client may write: lines 155 and 168; line 35; its slice (`read` returns `char*`). -/
def AState.clientWrites (s : AState) : SharedVar → Prop
  | .dataBegin | .eof => ∃ size, s.cpc = .body size
  | .term => s.cpc = .dlock
  | .dataEnd | .exc => False
  | .byte i => s.slice i

end RK
