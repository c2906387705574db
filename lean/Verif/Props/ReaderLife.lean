import Verif.Proof.ReaderLife
/-! # C101: construction, moves and destruction of readers with a thread of their own -/
namespace RK.Props
open RK _root_.Spec

/-- C101 (partial: only if buffers and threads can be obtained, see `C101_failed_construction_ends_the_program`). In every
history of constructions, moves (also of a variable into itself), failed allocations of the record and destructions, moves
hand the reader over and leave the source empty, and exactly the reader that loses its variable is ended. -/
theorem C101_life_partial : Implements ReaderWorld.call ReaderStep ReaderPre ⟨[], [], 0⟩ ⟨[], 0⟩ :=
  implements_of_simulation RepReaders readers_start readers_step

/-- C101 (partial as above). After every such history the threads and buffers that exist are exactly those of the readers
that variables hold, each held by one variable and existing once: nothing is leaked, nothing is returned twice. -/
theorem C101_nothing_leaks_partial (ops : List ReaderOp)
    (legal : Legal ReaderWorld.call ReaderStep ReaderPre ⟨[], [], 0⟩ ⟨[], 0⟩ ops) :
    ∃ w outs s, runCalls ReaderWorld.call ⟨[], [], 0⟩ ops = some (w, outs) ∧ SpecRun ReaderStep ⟨[], 0⟩ ops outs s ∧
      (∀ id, (∃ r ∈ w.heap, r.id = id) ↔ some id ∈ s.vars) ∧
      (w.heap.map (·.id)).Nodup ∧
      (∀ i j id : Nat, s.vars[i]? = some (some id) → s.vars[j]? = some (some id) → i = j) := by
  obtain ⟨w, outs, s, h1, h2, e1, _, h⟩ := run_of_simulation RepReaders readers_start readers_step ops legal
  refine ⟨w, outs, s, h1, h2, ?_, h.nodup, ?_⟩
  · intro id
    rw [← e1, List.mem_iff_getElem?]
    have := h.mem id
    simpa using this
  · rw [← e1]; exact h.inj

/-- C101 is violated: if the buffer or the thread cannot be obtained, the caller does not get an exception; the program
ends, whatever was done before. -/
theorem C101_failed_construction_ends_the_program (w : ReaderWorld) :
    (∃ w', w.call (.construct (some .buffer)) = some (w', .terminated)) ∧
    (∃ w', w.call (.construct (some .thread)) = some (w', .terminated)) := by
  constructor <;> exact ⟨w, by simp [ReaderWorld.call, ReaderWorld.construct, destroyImpl]⟩

/-- Two readers; the second replaces the first, is moved into itself, moved into a new variable and destroyed there. -/
example : (runCalls ReaderWorld.call ⟨[], [], 0⟩
    [.construct none, .construct (some .record), .construct none, .moveAssign 0 1, .moveAssign 0 0, .moveConstruct 0,
      .destroy 0, .destroy 1, .destroy 2]).map (·.2) =
    some [.ended [], .error, .ended [], .ended [0], .ended [], .ended [], .ended [], .ended [], .ended [1]] := by decide

/-- A history with a failed construction and a move that meets the hypothesis of the theorems. -/
example : Legal ReaderWorld.call ReaderStep ReaderPre ⟨[], [], 0⟩ ⟨[], 0⟩
    [.construct (some .record), .construct none, .moveConstruct 0] := by
  refine legal_of_spec ?_
  intro pre op post hh outs m hr
  match pre, hh with
  | [], hh => cases hh; exact .inr rfl
  | [a], hh => cases hh; exact .inl rfl
  | [a, b], hh =>
    cases hh
    obtain ⟨_, _, m1, _, h2⟩ := specRun_snoc_inv (ops := [ReaderOp.construct (some .record)]) hr
    rw [h2.2]
    simp [ReaderPre]
  | a :: b :: c :: rest, hh => simp at hh

end RK.Props
