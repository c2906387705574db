import Verif.Spec.History
import Verif.Model.AlignedAlloc
/-! # Specification of an allocator of aligned buffers -/
namespace Spec
open RK

/-- A buffer that is in use: the block of `malloc` behind it, its address, its size and the bytes written so far. -/
structure Buffer where
  base : Nat
  len : Nat
  ptr : Nat
  size : Nat
  content : Nat → Option Nat

/-- Two ranges of addresses have no address in common. -/
def Apart (p n q m : Nat) : Prop := p + n ≤ q ∨ q + m ≤ p

/-- A new buffer has a non-null address that is a multiple of the alignment, and no byte in common with the others. Freeing a buffer gives its block back, freeing
the null pointer does nothing. Reading yields the byte that was written last to this place of this buffer. -/
def AllocStep (S : List Buffer) (op : AllocOp) (out : AllocOut) (S' : List Buffer) : Prop :=
  match op with
  | .alloc a n p => ∃ q, out = .ptr q ∧ q ≠ 0 ∧ q % a = 0 ∧ (∀ b ∈ S, q ≠ b.ptr ∧ Apart q n b.ptr b.size) ∧
      S' = ⟨p, n + a, q, n, fun _ => none⟩ :: S
  | .free q => out = .unit ∧ S' = S.filter fun b => b.ptr != q
  | .write q x b => out = .unit ∧ S' = S.map fun u => if u.ptr = q then { u with content := fun y => if y = x then some b else u.content y } else u
  | .read q x => S' = S ∧ ∃ u ∈ S, ∃ b, u.ptr = q ∧ u.content x = some b ∧ out = .byte b

/-- The program uses only buffers that it owns and only their bytes, and alignments of a byte. `malloc` does not fail (see `C96_malloc_fails_violated`) and returns memory
that is not in use, does not contain the null pointer and lies within the address space. -/
def AllocPre (S : List Buffer) : AllocOp → Prop
  | .alloc a n p => 0 < a ∧ a < 256 ∧ p ≠ 0 ∧ p + (n + a) < u64 ∧ ∀ b ∈ S, Apart p (n + a) b.base b.len
  | .free q => q = 0 ∨ ∃ b ∈ S, b.ptr = q
  | .write q x b => b < 256 ∧ ∃ u ∈ S, u.ptr = q ∧ x < u.size
  | .read q x => ∃ u ∈ S, u.ptr = q ∧ x < u.size ∧ u.content x ≠ none

end Spec
