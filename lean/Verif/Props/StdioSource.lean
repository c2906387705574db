import Verif.Proof.History
import Verif.Model.StdioSource
/-! # Property theorems C99 (file_data_source.cpp:94-173, the variant without POSIX) -/
namespace RK.Props
open RK _root_.Spec

private def stdioView (s : StdioState) : StdioView Byte := s.map fun f => (f.content, f.pos, f.err)

private theorem stdioCall_spec (s : StdioState) (op : StdioOp Byte) (hp : StdioPre (stdioView s) op) :
    ∃ s' out v', s.call op = some (s', out) ∧ StdioStep (stdioView s) op out v' ∧ stdioView s' = v' := by
  cases op with
  | «open» found => cases found <;> exact ⟨_, _, _, rfl, ⟨rfl, rfl⟩, rfl⟩
  | close => exact ⟨_, _, _, rfl, ⟨rfl, rfl⟩, rfl⟩
  | rewind fails =>
    cases s with
    | none => exact absurd rfl hp
    | some f =>
      cases fails
      · exact ⟨_, _, _, rfl, ⟨rfl, rfl⟩, rfl⟩
      · exact ⟨_, _, _, rfl, ⟨rfl, _, rfl⟩, rfl⟩
  | size a b c d =>
    have hc : c = false := hp
    subst hc
    cases s with
    | none => exact ⟨_, _, _, rfl, ⟨rfl, rfl⟩, rfl⟩
    | some f =>
      cases a <;> cases b <;> cases d
      · exact ⟨_, _, _, rfl, ⟨rfl, rfl⟩, rfl⟩
      all_goals exact ⟨_, _, _, rfl, ⟨rfl, _, rfl⟩, rfl⟩
  | read count failure =>
    cases s with
    | none => exact absurd rfl hp
    | some f =>
      obtain ⟨c, p, e⟩ := f
      cases e <;> cases failure
      · exact ⟨_, _, _, rfl, ⟨rfl, rfl⟩, rfl⟩
      all_goals exact ⟨_, _, _, rfl, ⟨rfl, _, rfl⟩, rfl⟩

/-- C99: every history of calls, with failures of the device at any point. What is delivered are the next bytes of the
file, as many as asked for unless the file ends; `size` is the size of the file and does not move the position; a
failure of the device is an exception. Missing: `rewind` and `read` without an open file, and a failure of the second
`ftell` in `size` (see the theorems below). -/
theorem C99_histories_partial : Implements StdioState.call StdioStep StdioPre (none : StdioState) (none : StdioView Byte) :=
  implements_of_simulation (fun s v => stdioView s = v) rfl (fun s v op h hp => by
    subst h
    exact stdioCall_spec s op hp)

/-- C99: reading block by block until nothing comes yields exactly the content of the file. -/
theorem C99_whole_file (s : StdioState) (content : List Byte) (count : Nat) (hcount : 0 < count) :
    StdioState.readAllStd (s.openFile (some content)).1 count (content.length + 1) = some content := by
  have key : ∀ (fuel p : Nat), content.length < p + fuel →
      StdioState.readAllStd (some ⟨content, p, false⟩) count fuel = some (content.drop p) ∨ content.length < p := by
    intro fuel
    induction fuel with
    | zero => intro p h; exact Or.inr h
    | succ fuel ih =>
      intro p h
      left
      have e : StdioState.readFile (some ⟨content, p, false⟩) count none =
          some (some ⟨content, p + ((content.drop p).take count).length, false⟩, .bytes ((content.drop p).take count)) := rfl
      unfold StdioState.readAllStd
      cases hl : (content.drop p).take count with
      | nil =>
        simp only [e, hl, Option.bind_eq_bind, Option.bind_some]
        rcases List.take_eq_nil_iff.1 hl with q | q
        · omega
        · rw [q]
      | cons x l =>
        have hlen := congrArg List.length hl
        simp only [List.length_take, List.length_drop, List.length_cons] at hlen
        simp only [e, hl, Option.bind_eq_bind, Option.bind_some, List.length_cons]
        rcases ih (p + (l.length + 1)) (by omega) with q | q
        · rw [q, ← hl]
          simp only [Option.bind_some, Option.some.injEq]
          have hk : l.length + 1 = ((content.drop p).take count).length := by rw [hl]; rfl
          rw [← List.drop_drop, hk]
          conv => rhs; rw [← List.take_append_drop count (content.drop p)]
          congr 1
          rw [List.length_take]
          rcases Nat.le_total count (content.drop p).length with w | w
          · rw [Nat.min_eq_left w]
          · rw [Nat.min_eq_right w, List.drop_eq_nil_of_le w, List.drop_eq_nil_of_le (Nat.le_refl _)]
        · omega
  rcases key (content.length + 1) 0 (by omega) with q | q
  · exact q
  · omega

/-- C99, finding: if the position at the end of the file cannot be determined (for example a file whose size does not
fit `long`), `size` throws nothing and returns 2^64 - 1: the test after the second `ftell` is of the result of the first. -/
theorem C99_size_violated (f : Stream) :
    StdioState.call (some f) (.size false false true false) = some (some f, .number (2 ^ 64 - 1)) := rfl

/-- C99, finding: after a failed read `rewind` does not help: the error indicator stays, the next read throws although
the device delivers everything. -/
theorem C99_failed_read_is_forever (f : Stream) (count k count' : Nat) :
    ∃ s s' s'', StdioState.call (some f) (.read count (some k)) = some (s, .error) ∧
      s.call (.rewind false) = some (s', .unit) ∧ s'.call (.read count' none) = some (s'', .error) := by
  refine ⟨some ⟨f.content, f.pos + ((f.content.drop f.pos).take (min k count)).length, true⟩, some ⟨f.content, 0, true⟩,
    some ⟨f.content, 0 + ((f.content.drop 0).take count').length, true⟩, ?_, rfl, ?_⟩
  · simp [StdioState.call, StdioState.readFile]
  · simp [StdioState.call, StdioState.readFile]

/-- C99, finding: without an open file `rewind` and `read` hand a null pointer to the C library; the POSIX variant throws. -/
theorem C99_no_file_is_undefined (fails : Bool) (count : Nat) (failure : Option Nat) :
    StdioState.call none (.rewind fails) = none ∧ StdioState.call none (.read count failure) = none := ⟨rfl, rfl⟩

example : runCalls StdioState.call none [.size false false false false, .open (some [1, 2, 3]), .read 2 none,
      .size false false false false, .read 2 none, .read 2 none, .rewind false, .read 9 none, .open none, .close] =
    some (none, [.number 0, .unit, .bytes [1, 2], .number 3, .bytes [3], .bytes [], .unit, .bytes [1, 2, 3], .error, .unit]) := by
  decide +kernel

end RK.Props
