import Verif.Proof.BitVectorHeap
/-! # C95: bit vectors behave as values, own their memory, and survive failing allocations

Programs construct, copy, move, assign, exchange, resize, change and destroy bit vectors in any order; for every operation the environment decides whether an
allocation would succeed. -/
namespace RK.Props
open RK _root_.Spec

/-- C95. Every program that uses only objects that exist, positions in range and operands of equal size is executed without undefined behaviour - no block is used
after it was freed or freed twice. The bits of all vectors are those that the operations mean: no operation changes a vector that it is not applied to. An
operation throws only if there is no memory; then it changes nothing. Afterwards the size and the bits that a reader sees are the expected ones and the memory
is in order. -/
theorem C95_every_program (ops : List (Bool × BVMemOp)) (legal : Legal memCall BitStep BitPre BVHeap.empty (fun _ => none) ops) :
    ∃ h threw F, runCalls memCall BVHeap.empty ops = some (h, threw) ∧ SpecRun BitStep (fun _ => none) ops threw F ∧ MemoryOk h ∧
      (∀ k, F k = none → h.get k = none) ∧
      (∀ k B, F k = some B → ∃ v, h.get k = some v ∧ v.size = B.length ∧ ∀ x b, B[x]? = some b → v.isSet x = some b) := by
  obtain ⟨h, threw, F, e, hs, hm, hr⟩ := run_of_simulation (call := memCall) (step := BitStep) (pre := BitPre)
    (fun h F => MemoryOk h ∧ BitsRep h.get F) ⟨memoryOk_empty, fun _ => rfl⟩ (fun _ _ op h hp => mem_step_bits h op hp) ops legal
  refine ⟨h, threw, F, e, hs, hm, fun k e => hr.none e, ?_⟩
  intro k B e
  obtain ⟨v, e1, hv⟩ := hr.some e
  refine ⟨v, e1, hv.size, ?_⟩
  intro x b hx
  obtain ⟨hlt, hx⟩ := List.getElem?_eq_some_iff.1 hx
  rw [hv.isSet hlt, BitVector.at_lt hlt, hx]

/-- C95. The pointers do not matter: also a program that violates preconditions runs exactly as if the variables held values, with the same exceptions, and is
undefined only if an operation on the values is. -/
theorem C95_value_semantics (ops : List (Bool × BVMemOp)) :
    (runCalls memCall BVHeap.empty ops).map (fun r => (r.1.get, r.2)) = runCalls varsCall (fun _ => none) ops :=
  (run_agree memoryOk_empty ops).1

/-- C95. After every program each vector has a block of its own, and once all vectors are destroyed no block remains. -/
theorem C95_no_leak (ops : List (Bool × BVMemOp)) {h : BVHeap} {threw : List Bool} (e : runCalls memCall BVHeap.empty ops = some (h, threw)) :
    MemoryOk h ∧ ((∀ k, h.objs k = none) → ∀ b ∈ h.blocks, b = none) := by
  have m := (run_agree memoryOk_empty ops).2 _ e
  refine ⟨m, ?_⟩
  intro hn b hb
  cases b with
  | none => rfl
  | some ws =>
    obtain ⟨p, hp⟩ := List.mem_iff_getElem?.1 hb
    obtain ⟨k, o, ek, _⟩ := m.owned p ws hp
    rw [hn k] at ek
    cases ek

/-- C95. An operation that throws has changed nothing, not even which blocks are allocated; and it throws only if the allocation failed. -/
theorem C95_strong_exception_guarantee {h h' : BVHeap} {ok : Bool} {op : BVMemOp} (e : h.step ok op = some (h', true)) : h' = h ∧ ok = false :=
  step_threw e

/-- A program with copies, moves, a self assignment by move, a failing and a succeeding resize, and the destruction of all objects. -/
def memProgram : List (Bool × BVMemOp) :=
  [(true, .create 0 70 false), (true, .update 0 (.set 69)), (true, .copy 1 0), (true, .update 0 (.reset 69)), (true, .combine 1 0 .or),
   (false, .resize 1 600 false), (true, .resize 1 600 false), (true, .moveAssign 1 1), (true, .move 2 1), (false, .assign 0 2), (false, .copy 3 1),
   (true, .copy 3 1), (true, .swap 2 0)]

/-- Non-vacuity: the program runs and throws three times; also the copy of a vector without bits needs a block. -/
example : (runCalls memCall BVHeap.empty memProgram).map (fun r => (r.2, r.1.blocks.map Option.isSome)) =
      some ([false, false, false, false, false, true, false, false, false, true, true, false, false], [true, false, true, true]) ∧
    (runCalls memCall BVHeap.empty memProgram).map (fun r => [0, 1, 2, 3].map fun k => ((r.1.get k).map BitVector.size, (r.1.get k).bind BitVector.populationCount)) =
      some [(some 600, some 1), (some 0, some 0), (some 70, some 0), (some 0, some 0)] := by decide +kernel

/-- Afterwards all objects can be destroyed and nothing remains. -/
example : (runCalls memCall BVHeap.empty (memProgram ++ [(true, .destroy 0), (true, .destroy 1), (true, .destroy 2), (true, .destroy 3)])).map
      (fun r => r.1.blocks.map Option.isSome) = some [false, false, false, false] := by decide +kernel

/-- Destroying an object twice is undefined. -/
example : runCalls memCall BVHeap.empty [(true, .create 0 70 false), (true, .destroy 0), (true, .destroy 0)] = none := by rfl

/-- A legal program: all preconditions hold. -/
example : Legal memCall BitStep BitPre BVHeap.empty (fun _ => none) [(true, .create 0 70 false), (false, .create 1 3 true)] := by
  intro before op after e c' outs s' _ hs
  match before, e with
  | [], e =>
    cases e
    rw [specRun_nil_inv hs]
    exact ⟨rfl, by unfold maxBits; omega⟩
  | [_], e =>
    cases e
    obtain ⟨outs', s1, hs0, hs1⟩ : ∃ outs' s1, SpecRun BitStep (fun _ => none) [] outs' s1 ∧ ∃ t, BitStep s1 (true, .create 0 70 false) t s' := by
      generalize hops : [(true, BVMemOp.create 0 70 false)] = ops at hs
      cases hs with
      | nil => cases hops
      | @snoc ops' _ _ op' _ _ h1 h2 =>
        have : ops' = [] ∧ op' = (true, BVMemOp.create 0 70 false) := by
          have := List.append_inj' (s₁ := []) (t₁ := [(true, BVMemOp.create 0 70 false)]) hops rfl
          exact ⟨this.1.symm, (List.cons.inj this.2).1.symm⟩
        obtain ⟨rfl, rfl⟩ := this
        exact ⟨_, _, h1, _, h2⟩
    rw [specRun_nil_inv hs0] at hs1
    obtain ⟨t, hs1⟩ := hs1
    rcases hs1 with ⟨_, hf, _⟩ | ⟨_, hm⟩
    · cases hf
    · rw [show s' = _ from hm]
      exact ⟨rfl, by unfold maxBits; omega⟩
  | a :: b :: rest, e => simp at e

end RK.Props
