import Verif.Proof.FileSource
/-! # Property theorems C69 (file_data_source.h, file_data_source.cpp) -/
namespace RK.Props
open RK _root_.Spec

theorem fdOk_run {s0 : FileState} (h0 : FdOk s0) (ops : List (FileOp Byte)) : ∀ {s : FileState} {outs : List (FileOut Byte)},
    runCalls FileState.call s0 ops = some (s, outs) → FdOk s := by
  induction ops using List.reverseRecOn with
  | nil =>
    intro s outs h
    cases h
    exact h0
  | append_singleton ops op ih =>
    intro s outs h
    rw [runCalls_snoc, Option.bind_eq_some_iff] at h
    obtain ⟨⟨s1, o1⟩, e1, h⟩ := h
    rw [Option.map_eq_some_iff] at h
    obtain ⟨⟨s2, o2⟩, e2, h⟩ := h
    cases h
    exact fdOk_call (ih e1) e2

theorem fdOk_start (t : FdTable) : FdOk ⟨t, []⟩ :=
  ⟨fun i fd h => (by simp at h), fun i j fd h => (by simp at h)⟩

/-- C69: any number of objects, any history of calls, any files opened by the rest of the program: each object reads the
file that was opened with it, from the beginning and in order, however the data arrive; a failed `open` changes nothing;
moving hands file and position over; using an object without a file throws. -/
theorem C69_histories (t : FdTable) : Implements FileState.call FileStep FilePre ⟨t, []⟩ [] :=
  implements_of_simulation FileRep ⟨fdOk_start t, rfl⟩ (fun _ _ _ h hp => fileCall_spec h hp)

/-- C69, reading block by block until nothing comes yields exactly the content of the file, whatever the block size and
however much each read delivers. -/
theorem C69_whole_file (t : FdTable) (ops : List (FileOp Byte)) (s s' : FileState) (outs : List (FileOut Byte))
    (hrun : runCalls FileState.call ⟨t, []⟩ ops = some (s, outs)) (i : Nat) (content : List Byte) (out : FileOut Byte)
    (hopen : s.call (.open i (some content)) = some (s', out)) (count : Nat) (hcount : 0 < count) (deliver : Nat → Nat) :
    readAll s' i count deliver (content.length + 1) = some content := by
  obtain ⟨s1, o1, v1, e1, h1, h2⟩ := fileCall_spec (v := s.objs.map (viewOf s.table)) ⟨fdOk_run (fdOk_start t) ops hrun, rfl⟩ (call_pre hopen)
  rw [hopen] at e1
  injection e1 with e1
  cases e1
  have hi : i < s.objs.length := by simpa [FilePre] using call_pre hopen
  obtain ⟨_, rfl⟩ := h1
  have key : ∀ (fuel : Nat) (s : FileState) (v : List (FileView Byte)) (p : Nat), FileRep s v → v[i]? = some (some (content, p)) →
      p ≤ content.length → content.length < p + fuel → readAll s i count deliver fuel = some (content.drop p) := by
    intro fuel
    induction fuel with
    | zero => intro s v p h hv hp hf; omega
    | succ fuel ih =>
      intro s v p h hv hp hf
      obtain ⟨s', out, v', e, hst, h'⟩ := fileCall_spec (op := .read i count (deliver fuel)) h (List.getElem?_eq_some_iff.1 hv).1
      have e' : s.readFile i count (deliver fuel) = some (s', out) := e
      rcases hst with ⟨hn, _, _⟩ | ⟨c, q, l, hc, rfl, ⟨rest, hr⟩, _, hz, rfl⟩
      · rw [hv] at hn; cases hn
      · rw [hv] at hc
        injection hc with hc
        injection hc with hc
        injection hc with hc1 hc2
        subst hc1; subst hc2
        unfold readAll
        have hlen := congrArg List.length hr
        rw [List.length_drop, List.length_append] at hlen
        cases l with
        | nil =>
          simp only [e', Option.bind_eq_bind, Option.bind_some]
          rcases hz rfl with hz | hz
          · omega
          · rw [List.drop_eq_nil_of_le hz]
        | cons x l =>
          simp only [List.length_cons] at hlen
          have := ih s' _ (p + (x :: l).length) h' (by rw [List.getElem?_set_self (List.getElem?_eq_some_iff.1 hv).1])
            (by simp only [List.length_cons]; omega) (by simp only [List.length_cons]; omega)
          simp only [e', this, Option.bind_eq_bind, Option.bind_some]
          rw [← List.drop_drop, hr, List.drop_left]
  exact (key _ s' _ 0 h2 (by rw [List.getElem?_set_self (by rw [List.length_map]; exact hi)]) (by omega) (by omega)).trans (by simp)

/-- C69, finding: the result of `fstat` is tested the wrong way round, so the size of an open file can never be asked. -/
theorem C69_size_violated (t : FdTable) (ops : List (FileOp Byte)) (s : FileState) (outs : List (FileOut Byte))
    (hrun : runCalls FileState.call ⟨t, []⟩ ops = some (s, outs)) (i fd : Nat) (hi : s.objs[i]? = some (some fd)) :
    s.size i = .error := by
  obtain ⟨f, hf⟩ := (fdOk_run (fdOk_start t) ops hrun).isOpen i fd hi
  have hi' : rd s.objs i = some (some fd) := hi
  simp only [FileState.size, hi', hf]

/-- States of a program that only moves into objects without an open file. -/
inductive CarefulRun (t : FdTable) : FileState → Prop
  | start : CarefulRun t ⟨t, []⟩
  | step {s s' : FileState} {op : FileOp Byte} {out : FileOut Byte} : CarefulRun t s → s.call op = some (s', out) →
      (∀ i j, op = .assign i j → s.objs[i]? = some none) → CarefulRun t s'

/-- C69, no descriptor is lost: once all objects are closed or destroyed, exactly the files are open that were open
before, at the same positions. This needs that no file is overwritten by a move assignment. -/
theorem C69_no_leak_partial (t : FdTable) (s : FileState) (h : CarefulRun t s) (hclosed : ∀ o ∈ s.objs, o = none) (fd : Nat) :
    s.table.look fd = t.look fd := by
  have inv : FdOk s ∧ (∀ fd f, t.look fd = some f → s.table.look fd = some f ∧ ∀ i : Nat, s.objs[i]? ≠ some (some fd)) ∧
      ∀ fd, (∃ f, s.table.look fd = some f) → (∃ f, t.look fd = some f) ∨ ∃ i : Nat, s.objs[i]? = some (some fd) := by
    clear hclosed
    induction h with
    | start => exact ⟨fdOk_start t, fun fd f hf => ⟨hf, by simp⟩, fun fd h => Or.inl h⟩
    | step _ e hc ih =>
      obtain ⟨i1, i2, i3⟩ := ih
      obtain ⟨d1, d2, d3, d4⟩ := call_descriptors i1 e
      refine ⟨fdOk_call i1 e, ?_, ?_⟩
      · intro fd f hf
        obtain ⟨h1, h2⟩ := i2 fd f hf
        refine ⟨?_, ?_⟩
        · rcases d2 fd f h1 with h | ⟨i, hi⟩
          · exact h
          · exact absurd hi (h2 i)
        · intro i hi
          rcases d3 i fd hi with h | ⟨j, hj⟩
          · rw [h1] at h; cases h
          · exact h2 j hj
      · intro fd hfd
        rcases d1 fd hfd with h | h
        · rcases i3 fd h with h | ⟨i, hi⟩
          · exact Or.inl h
          · exact Or.inr (d4 hc i fd hi hfd)
        · exact Or.inr h
  obtain ⟨_, i2, i3⟩ := inv
  cases ht : t.look fd with
  | some f => exact (i2 fd f ht).1
  | none =>
    cases hs : s.table.look fd with
    | none => rfl
    | some f =>
      rcases i3 fd ⟨f, hs⟩ with ⟨g, hg⟩ | ⟨i, hi⟩
      · rw [ht] at hg; cases hg
      · cases hclosed _ (List.mem_of_getElem? hi)

/-- C69, finding: move assignment to an object with an open file loses the descriptor for good: it stays open, belongs to
no object, and no later call can close it. -/
theorem C69_move_assignment_leaks (t : FdTable) (before after : List (FileOp Byte)) (s s1 s2 : FileState)
    (outs outs' : List (FileOut Byte)) (out : FileOut Byte) (hrun : runCalls FileState.call ⟨t, []⟩ before = some (s, outs))
    (i j fd : Nat) (hi : s.objs[i]? = some (some fd)) (hmove : s.call (.assign i j) = some (s1, out))
    (hrest : runCalls FileState.call s1 after = some (s2, outs')) :
    (∃ f, s2.table.look fd = some f) ∧ ∀ k : Nat, s2.objs[k]? ≠ some (some fd) := by
  have hok := fdOk_run (fdOk_start t) before hrun
  have hlen : (s.objs.map (viewOf s.table)).length = s.objs.length := List.length_map _
  have hp := call_pre hmove
  have hj : j < s.objs.length := by rw [← hlen]; exact hp.2
  have hil : i < s.objs.length := by rw [← hlen]; exact hp.1
  obtain ⟨o, ho⟩ := rd_isSome hj
  have ho' : s.objs[j]? = some o := ho
  have h1 : Orphan s1 fd := by
    have e := hmove
    simp only [FileState.call, ho, wr_lt hil, wr_lt (show j < (s.objs.set i o).length by rw [List.length_set]; exact hj),
        Option.bind_eq_bind, Option.bind_some, Option.some.injEq, Prod.mk.injEq] at e
    obtain ⟨rfl, _⟩ := e
    refine ⟨hok.isOpen i fd hi, fun k hk => ?_⟩
    rcases getElem?_set_some hk with ⟨_, hk⟩ | ⟨hkj, hk⟩
    · cases hk
    · rcases getElem?_set_some hk with ⟨hki, hk⟩ | ⟨hki, hk⟩
      · have := hok.distinct i j fd hi (by rw [ho', ← hk])
        omega
      · exact hki (hok.distinct k i fd hk hi)
  have hok1 := fdOk_call hok hmove
  clear hmove hrun hi
  induction after using List.reverseRecOn generalizing s2 outs' with
  | nil => cases hrest; exact h1
  | append_singleton ops op ih =>
    rw [runCalls_snoc, Option.bind_eq_some_iff] at hrest
    obtain ⟨⟨s3, o3⟩, e3, hrest⟩ := hrest
    rw [Option.map_eq_some_iff] at hrest
    obtain ⟨⟨s4, o4⟩, e4, hrest⟩ := hrest
    cases hrest
    exact orphan_call (fdOk_run hok1 ops e3) (ih s3 o3 e3) e4

/-- C69, finding: the function object for reading remembers the number of the descriptor. After `close` it reads from
whatever file has got this number. -/
theorem C69_stale_reader_violated :
    ((runCalls FileState.call ⟨[none, none], []⟩ [.create, .create, .open 0 (some [1, 2, 3]), .read 0 2 2, .close 0,
      .open 1 (some [7, 8, 9])]).map fun r => (r.2, (r.1.myRead (some 0) 2 2).2, r.1.objs)) =
    some ([.unit, .unit, .unit, .bytes [1, 2], .unit, .unit], .bytes [7, 8], [none, some 0]) := by decide

/-- A history: short reads, a failed `open`, moves, `rewind`, and a second object. -/
example : (runCalls FileState.call ⟨[some ⟨[9], 0⟩, none], []⟩ [.create, .open 0 (some [1, 2, 3, 4]), .read 0 10 3, .open 0 none, .construct 0,
      .read 1 10 10, .read 0 1 1, .read 1 5 5, .rewind 1, .create, .open 2 (some [5]), .read 1 2 9, .assign 0 2, .read 0 4 4, .close 0,
      .close 1]).map (fun r => (r.2, r.1.table, r.1.objs)) =
    some ([.unit, .unit, .bytes [1, 2, 3], .error, .unit, .bytes [4], .error, .bytes [], .unit, .unit, .unit, .bytes [1, 2], .unit,
      .bytes [5], .unit, .unit], [some ⟨[9], 0⟩, none, none], [none, none, none]) := by decide

end RK.Props
