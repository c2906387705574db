import Verif.Model.OsmStatus
import Verif.Props.OsmPbf
/-! # C56: the status word -/
namespace RK.Props
open RK RK.Osm _root_.Spec

/-- What holds once the information of the header is available. -/
def Settled (o : Bool) (st : Status) : Prop := st.available = true ∧ st.ordered = o ∧ (st.blobRead = true ∨ st.headerRead = true)

theorem oneBlock_settled {own : Bool} {o : Bool} {st : Status} {l : List Byte} (h : Settled o st) : Settled o (oneBlock own st l).1 := by
  obtain ⟨h1, h2, h3⟩ := h
  unfold oneBlock
  split
  · exact ⟨h1, h2, h3⟩
  · exact ⟨h1, h2, h3⟩
  · exact ⟨h1, h2, h3⟩
  · split
    · exact ⟨rfl, h2, Or.inl rfl⟩
    · split
      · rw [if_pos ⟨h1, h3⟩]
        exact ⟨h1, h2, h3⟩
      · exact ⟨h1, h2, h3⟩

theorem oneBlock_first {own : Bool} {l : List Byte} :
    (oneBlock own ⟨false, false, false, false⟩ l).1 = ⟨false, false, false, false⟩ ∨ ∃ o, Settled o (oneBlock own ⟨false, false, false, false⟩ l).1 := by
  unfold oneBlock
  split
  · exact Or.inl rfl
  · exact Or.inl rfl
  · exact Or.inl rfl
  · split
    · exact Or.inr ⟨false, rfl, rfl, Or.inl rfl⟩
    · split
      · rw [if_neg (by simp)]
        split
        · rename_i o _ _
          exact Or.inr ⟨o, rfl, rfl, Or.inr rfl⟩
        · exact Or.inl rfl
        · exact Or.inl rfl
      · exact Or.inl rfl

theorem statusWrites_settled {inflate : List Byte → Option (List Byte)} {own : Bool} {o : Bool} : ∀ (fuel : Nat) {st : Status} {l : List Byte}, Settled o st →
    Settled o (decompress inflate own fuel st l).1 ∧ ∀ v ∈ statusWrites inflate own fuel st l, Settled o v
  | 0, st, l, h => ⟨h, by simp [statusWrites]⟩
  | fuel + 1, st, l, h => by
    have h1 := oneBlock_settled (own := own) (l := l) h
    unfold decompress statusWrites
    cases hb : oneBlock own st l with
    | mk st' r =>
      rw [hb] at h1
      have hin : ∀ v ∈ (if st' = st then [] else [st']), Settled o v := by
        intro v hv
        split at hv
        · cases hv
        · simp only [List.mem_singleton] at hv
          rw [hv]
          exact h1
      cases r with
      | error => exact ⟨h1, by simpa using hin⟩
      | ub => exact ⟨h1, by simpa using hin⟩
      | ok x =>
        cases x with
        | done => exact ⟨h1, by simpa using hin⟩
        | again l' =>
          obtain ⟨a, b⟩ := statusWrites_settled (inflate := inflate) (own := own) fuel (l := l') h1
          exact ⟨a, fun v hv => by rcases List.mem_append.1 hv with hv | hv; exacts [hin v hv, b v hv]⟩
        | blob b' l' =>
          obtain ⟨a, b⟩ := statusWrites_settled (inflate := inflate) (own := own) fuel (l := l') h1
          dsimp only
          cases unblob inflate b' with
          | error => exact ⟨h1, by simpa using hin⟩
          | ub => exact ⟨h1, by simpa using hin⟩
          | ok d => exact ⟨a, fun v hv => by rcases List.mem_append.1 hv with hv | hv; exacts [hin v hv, b v hv]⟩

/-- Either nothing is ever stored, or all stored values agree with the last one. -/
theorem statusWrites_init {inflate : List Byte → Option (List Byte)} {own : Bool} : ∀ (fuel : Nat) {l : List Byte},
    (statusWrites inflate own fuel ⟨false, false, false, false⟩ l = [] ∧
      (decompress inflate own fuel ⟨false, false, false, false⟩ l).1 = ⟨false, false, false, false⟩) ∨
    (statusWrites inflate own fuel ⟨false, false, false, false⟩ l ≠ [] ∧ ∃ o, Settled o (decompress inflate own fuel ⟨false, false, false, false⟩ l).1 ∧
      ∀ v ∈ statusWrites inflate own fuel ⟨false, false, false, false⟩ l, Settled o v)
  | 0, l => Or.inl ⟨rfl, rfl⟩
  | fuel + 1, l => by
    have h1 := oneBlock_first (own := own) (l := l)
    unfold decompress statusWrites
    cases hb : oneBlock own ⟨false, false, false, false⟩ l with
    | mk st' r =>
      rw [hb] at h1
      dsimp only at h1 ⊢
      rcases h1 with rfl | ⟨o, h1⟩
      · rw [if_pos rfl, List.nil_append]
        cases r with
        | error => exact Or.inl ⟨rfl, rfl⟩
        | ub => exact Or.inl ⟨rfl, rfl⟩
        | ok x =>
          cases x with
          | done => exact Or.inl ⟨rfl, rfl⟩
          | again l' => exact statusWrites_init fuel
          | blob b' l' =>
            dsimp only
            cases unblob inflate b' with
            | error => exact Or.inl ⟨rfl, rfl⟩
            | ub => exact Or.inl ⟨rfl, rfl⟩
            | ok d => exact statusWrites_init fuel
      · have hne : st' ≠ ⟨false, false, false, false⟩ := by
          rintro rfl
          cases h1.1
        rw [if_neg hne]
        refine Or.inr ⟨by simp, o, ?_⟩
        cases r with
        | error => exact ⟨h1, by simpa using h1⟩
        | ub => exact ⟨h1, by simpa using h1⟩
        | ok x =>
          cases x with
          | done => exact ⟨h1, by simpa using h1⟩
          | again l' =>
            obtain ⟨a, b⟩ := statusWrites_settled (inflate := inflate) (own := own) fuel (l := l') h1
            exact ⟨a, by simpa using ⟨h1, b⟩⟩
          | blob b' l' =>
            obtain ⟨a, b⟩ := statusWrites_settled (inflate := inflate) (own := own) fuel (l := l') h1
            dsimp only
            cases unblob inflate b' with
            | error => exact ⟨h1, by simpa using h1⟩
            | ub => exact ⟨h1, by simpa using h1⟩
            | ok d => exact ⟨a, by simpa using ⟨h1, b⟩⟩

/-- What is known during an execution. -/
structure SpinInv (o : Bool) (s : SpinState) : Prop where
  todo : ∀ v ∈ s.todo, Settled o v
  status : s.status = ⟨false, false, false, false⟩ ∨ Settled o s.status
  decide : s.pc = .decide → Settled o s.status
  left : ∀ b, s.pc = .left b → b = o

theorem spin_run {o : Bool} : ∀ (es : List Bool) {s : SpinState}, SpinInv o s → SpinInv o (s.run es)
  | [], s, h => h
  | true :: es, s, h => by
    refine spin_run es ?_
    unfold SpinState.store
    cases ht : s.todo with
    | nil => exact h
    | cons v vs =>
      have hv : Settled o v := h.todo v (by rw [ht]; exact List.mem_cons_self)
      exact ⟨fun w hw => h.todo w (by rw [ht]; exact List.mem_cons_of_mem _ hw), Or.inr hv, fun _ => hv, h.left⟩
  | false :: es, s, h => by
    refine spin_run es ?_
    unfold SpinState.look
    split
    · by_cases ha : s.status.available = true
      · simp only [ha, if_true, Option.getD_some]
        have hs : Settled o s.status := by
          rcases h.status with e | e
          · rw [e] at ha; cases ha
          · exact e
        exact ⟨h.todo, h.status, fun _ => hs, fun b hb => by cases hb⟩
      · simp only [ha, Bool.false_eq_true, if_false, Option.getD_some]
        exact h
    · rename_i hpc
      exact ⟨h.todo, h.status, fun e => (by cases e), fun b hb => by cases hb; exact (h.decide hpc).2.1⟩
    · exact h

/-- **C56**, the decision of `ordered_read_osm_pbf` does not depend on the schedule: whenever the waiting thread leaves its loop, it decides by what the
status is in the end, for all bytes in the file (this is what `orderedRead` uses). -/
theorem C56_order_decision {inflate : List Byte → Option (List Byte)} (own : Bool) (file : List Byte) (es : List Bool) {once : Bool}
    (h : ((SpinState.init inflate own file).run es).pc = .left once) : once = (decompressFile inflate own file).1.ordered := by
  have key : SpinInv (decompressFile inflate own file).1.ordered (SpinState.init inflate own file) := by
    unfold decompressFile
    rcases statusWrites_init (inflate := inflate) (own := own) (file.length + 1) (l := file) with ⟨h1, h2⟩ | ⟨_, o, h1, h2⟩
    · refine ⟨?_, Or.inl rfl, fun e => (by cases e), fun b e => (by cases e)⟩
      unfold SpinState.init
      rw [h1]
      simp
    · rw [h1.2.1]
      exact ⟨h2, Or.inl rfl, fun e => (by cases e), fun b e => (by cases e)⟩
  exact (spin_run es key).left _ h

/-- **C56**, the loop is left if and only if the status says at some time that the information of the header is available: otherwise it never ends. -/
theorem C56_waiting_ends_iff {inflate : List Byte → Option (List Byte)} (own : Bool) (file : List Byte) :
    (∃ es, ((SpinState.init inflate own file).run es).pc ≠ .spin) ↔ (decompressFile inflate own file).1.available = true := by
  unfold decompressFile
  rcases statusWrites_init (inflate := inflate) (own := own) (file.length + 1) (l := file) with ⟨h1, h2⟩ | ⟨hne, o, h1, h2⟩
  · rw [h2]
    refine iff_of_false ?_ (by decide)
    rintro ⟨es, he⟩
    apply he
    have : ∀ es : List Bool, (SpinState.mk ⟨false, false, false, false⟩ [] .spin).run es = ⟨⟨false, false, false, false⟩, [], .spin⟩ := by
      intro es
      induction es with
      | nil => rfl
      | cons e es ih => cases e <;> exact ih
    unfold SpinState.init
    rw [h1, this]
  · refine iff_of_true ⟨[true, false], ?_⟩ h1.1
    unfold SpinState.init
    cases hw : statusWrites inflate own (file.length + 1) ⟨false, false, false, false⟩ file with
    | nil => exact absurd hw hne
    | cons v vs =>
      have hv := (h2 v (by rw [hw]; exact List.mem_cons_self)).1
      simp [SpinState.run, SpinState.store, SpinState.look, hv]

/-- **C56** is violated, undefined behaviour: for every valid file there is an execution in which one thread is about to store the status and the other one
about to read it, and nothing synchronises them (the variable is not atomic): a data race. -/
theorem C56_status_data_race_violated {inflate : List Byte → Option (List Byte)} {required optional : List Str} {file : List Byte} {items : List OsmItem}
    (hf : EncodesFile inflate required optional file items) (own : Bool) :
    ∃ es s, (SpinState.init inflate own file).run es = s ∧ s.store.isSome ∧ s.look.isSome := by
  refine ⟨[], _, rfl, ?_, rfl⟩
  have h : (decompressFile inflate own file).1.available = true := by
    obtain ⟨st, ds, parts, e, _, _, _, g4⟩ := decompressFile_ok own hf (rest := []) (by decide)
    rw [List.append_nil] at e
    rw [e]
    exact g4
  unfold decompressFile at h
  rcases statusWrites_init (inflate := inflate) (own := own) (file.length + 1) (l := file) with ⟨_, h2⟩ | ⟨hne, _⟩
  · rw [h2] at h
    cases h
  · show (SpinState.store ⟨_, _, _⟩).isSome = true
    unfold SpinState.store
    cases hw : statusWrites inflate own (file.length + 1) ⟨false, false, false, false⟩ file with
    | nil => exact absurd hw hne
    | cons v vs => rfl

/-- The hypotheses are satisfiable: for this file the loop is left after two steps. -/
example : ((SpinState.init (fun _ => none) false exFile).run [false, true, false, true, false]).pc = .left false := by decide +kernel

end RK.Props
