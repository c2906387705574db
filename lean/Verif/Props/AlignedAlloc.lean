import Verif.Proof.AlignedAlloc
/-! # C96: the replacement for `aligned_alloc` -/
namespace RK.Props
open RK _root_.Spec

/-- The memory before the first allocation. -/
def noMemory : ByteHeap := ⟨[], fun _ => none⟩

/-- C96, for allocations that succeed. Whatever blocks `malloc` hands out, every program that accesses only the bytes of its buffers and frees each buffer at most
once runs without undefined behaviour: buffers are aligned, not null and do not overlap; reading yields what was written last to this buffer; freeing passes to
`free` exactly the block that `malloc` returned for this buffer. Afterwards the blocks that are not freed are those of the buffers in use. -/
theorem C96_every_program_partial (ops : List AllocOp) (legal : Legal allocCall AllocStep AllocPre noMemory [] ops) :
    ∃ s outs S, runCalls allocCall noMemory ops = some (s, outs) ∧ SpecRun AllocStep [] ops outs S ∧ s.live = S.map fun u => (u.base, u.len) := by
  obtain ⟨s, outs, S, e, hs, h⟩ := run_of_simulation (call := allocCall) (step := AllocStep) (pre := AllocPre) HoldsBuffers
    ⟨rfl, fun _ h => (by cases h), List.Pairwise.nil⟩ (fun _ _ op h hp => allocCall_spec h op hp) ops legal
  exact ⟨s, outs, S, e, hs, h.live⟩

/-- C96 is violated if `malloc` fails: nothing is at the addresses up to the alignment, but the code stores the shift there instead of returning null. So
`std::bad_alloc` is never thrown. -/
theorem C96_malloc_fails_violated (s : ByteHeap) (a n : Nat) (ha : 0 < a) (ha' : a < 256) (hs : ∀ b ∈ s.live, 256 ≤ b.1) : alignedAlloc s a n 0 = none := by
  unfold alignedAlloc ByteHeap.malloc
  have e2 : (0 + a) % u64 = a := by rw [Nat.zero_add]; exact Nat.mod_eq_of_lt (by unfold u64; omega)
  have e3 : a / a * a % u64 = a := by rw [Nat.div_self ha, Nat.one_mul]; exact Nat.mod_eq_of_lt (by unfold u64; omega)
  have e4 : (a + u64 - 1) % u64 = a - 1 := mod_back (by omega) (by unfold u64; omega)
  simp only [if_pos, e2, e3, e4, decide_eq_true (show a ≠ 0 by omega), check_true, Option.bind_eq_bind, Option.bind_some]
  unfold ByteHeap.store
  have : s.within (a - 1) = false := by
    unfold ByteHeap.within
    rw [List.any_eq_false]
    intro b hb
    have := hs b hb
    simp only [Bool.and_eq_true, decide_eq_true_eq, not_and, Nat.not_lt]
    omega
  rw [this]
  rfl

/-- Non-vacuity: two buffers of 64 bytes from blocks at 1000 and 5000, one of them with a shift of 64 (an answer that is already aligned: 4992 = 78 * 64). -/
example : (runCalls allocCall noMemory [.alloc 64 64 1000, .alloc 64 64 4992, .write 1024 0 7, .write 5056 63 200, .read 1024 0, .read 5056 63, .free 1024,
      .read 5056 63, .free 0, .free 5056]).map (fun r => (r.1.live, r.2)) =
    some ([], [.ptr 1024, .ptr 5056, .unit, .unit, .byte 7, .byte 200, .unit, .byte 200, .unit, .unit]) := by decide +kernel

/-- The precondition of an allocation beside another buffer. -/
example : AllocPre [⟨1000, 128, 1024, 64, fun _ => none⟩] (.alloc 64 64 4992) := by
  refine ⟨by omega, by omega, by omega, by unfold u64; omega, ?_⟩
  intro b hb
  rw [List.mem_singleton.1 hb]
  exact Or.inr (by show 1000 + 128 ≤ 4992; omega)

/-- A program that has freed a buffer must not free it again. -/
example : runCalls allocCall noMemory [.alloc 64 64 1000, .free 1024, .free 1024] = none := by rfl

end RK.Props
