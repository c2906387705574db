import Verif.Model.BitVector
/-!
# Model of the replacement for `aligned_alloc`: src/bit_vector.cpp, lines 26-43 (`ROUTING_KIT_NO_ALIGNED_ALLOC`)

Addresses and sizes are 64 bit numbers. The memory consists of the blocks that `malloc` has handed out and that are not freed, and of their bytes; `none` is a byte
that was not written yet. What `malloc` answers is up to the environment; 0 is the null pointer. `none` as a result is undefined behaviour: an access outside of all
blocks, a read of a byte that was not written, or `free` with something that is not the start of a block.
-/
namespace RK

/-- The memory. A block has a start and a length. -/
structure ByteHeap where
  live : List (Nat × Nat)
  mem : Nat → Option Nat

/-- `x` is an address within a block. -/
def ByteHeap.within (s : ByteHeap) (x : Nat) : Bool := s.live.any fun b => decide (b.1 ≤ x) && decide (x < b.1 + b.2)

/-- Write a byte. -/
def ByteHeap.store (s : ByteHeap) (x b : Nat) : Option ByteHeap := do
  check (s.within x)
  some { s with mem := fun y => if y = x then some (b % 256) else s.mem y }

/-- Read a byte. -/
def ByteHeap.load (s : ByteHeap) (x : Nat) : Option Nat := do
  check (s.within x)
  s.mem x

/-- `malloc(len)` with the answer `p`; the bytes of a new block are indeterminate. -/
def ByteHeap.malloc (s : ByteHeap) (len p : Nat) : ByteHeap :=
  if p = 0 then s else ⟨(p, len) :: s.live, fun y => if p ≤ y ∧ y < p + len then none else s.mem y⟩

/-- `free(p)` -/
def ByteHeap.free (s : ByteHeap) (p : Nat) : Option ByteHeap :=
  if p = 0 then some s
  else do
    check (s.live.any fun b => b.1 == p)
    some { s with live := s.live.filter fun b => b.1 != p }

/-- bit_vector.cpp:27-33 `aligned_alloc`; `p` is what `malloc` answers. -/
def alignedAlloc (s : ByteHeap) (alignment size p : Nat) : Option (ByteHeap × Nat) := do
  let s := s.malloc ((size + alignment) % u64) p
  check (decide (alignment ≠ 0))
  let q := ((p + alignment) % u64) / alignment * alignment % u64
  let s ← s.store ((q + u64 - 1) % u64) ((q + u64 - p) % u64)
  some (s, q)

/-- bit_vector.cpp:35-42 `aligned_free`. -/
def alignedFree (s : ByteHeap) (q : Nat) : Option ByteHeap :=
  if q ≠ 0 then do
    let shift ← s.load ((q + u64 - 1) % u64)
    s.free ((q + u64 - shift) % u64)
  else some s

/-- What a program does with such memory: allocate (with the answer of `malloc`), free, and access bytes of a buffer. -/
inductive AllocOp where
  | alloc (alignment size answer : Nat)
  | free (ptr : Nat)
  | write (ptr offset byte : Nat)
  | read (ptr offset : Nat)
deriving Repr, DecidableEq

inductive AllocOut where
  | unit
  | ptr (p : Nat)
  | byte (b : Nat)
deriving Repr, DecidableEq

/-- One operation. -/
def allocCall (s : ByteHeap) : AllocOp → Option (ByteHeap × AllocOut)
  | .alloc a n p => (alignedAlloc s a n p).map fun r => (r.1, .ptr r.2)
  | .free q => (alignedFree s q).map fun s => (s, .unit)
  | .write q x b => (s.store (q + x) b).map fun s => (s, .unit)
  | .read q x => (s.load (q + x)).map fun b => (s, .byte b)

end RK
