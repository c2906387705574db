import Verif.Model.AsyncRace
import Verif.Props.AsyncReader
/-! # C38: no data races -/
namespace RK
open Spec

/-- A data race: both threads can do a step now (the client can use what it was given while it is outside of the reader), both access the same variable,
and at least one of them writes it. -/
def DataRace (s : AState) : Prop :=
  (∃ s', s.step .worker = .ok s') ∧ (s.cpc = .idle ∨ ∃ s', s.step .client = .ok s') ∧
    ∃ v, (s.workerWrites v ∧ (s.clientReads v ∨ s.clientWrites v)) ∨ (s.workerReads v ∧ s.clientWrites v)

/-- If null was returned, then the end of the stream was reached. -/
def NullAtEnd (s : AState) : Prop := ∀ size, (size, ReadResult.null) ∈ s.log → s.eof = true

theorem NullAtEnd.congr {s s' : AState} (h : NullAtEnd s) (hl : s'.log = s.log) (he : s.eof = true → s'.eof = true) : NullAtEnd s' := by
  intro size hm
  rw [hl] at hm
  exact he (h size hm)

theorem wakeClient_log (s : AState) : s.wakeClient.log = s.log ∧ s.wakeClient.eof = s.eof := by
  unfold AState.wakeClient
  split <;> exact ⟨rfl, rfl⟩

theorem wakeWorker_log (s : AState) : s.wakeWorker.log = s.log ∧ s.wakeWorker.eof = s.eof := by
  unfold AState.wakeWorker
  split <;> exact ⟨rfl, rfl⟩

theorem nullAtEnd_step {s s' : AState} {e : AEvent} (h : NullAtEnd s) (hs : s.step e = .ok s') : NullAtEnd s' := by
  cases e with
  | worker =>
    simp only [AState.step, AState.workerStep] at hs
    split at hs
    · split at hs <;> cases hs; exact h
    · split at hs
      · split at hs <;> cases hs <;> exact h
      · cases hs; exact h
    · cases hs; exact h
    · cases hs
    · unfold AState.callSource at hs
      split at hs
      · cases hs; exact h
      · split at hs <;> cases hs; exact h
      · split at hs <;> cases hs; exact h
    · split at hs <;> cases hs; exact h
    · unfold AState.afterRead at hs
      split at hs
      · cases hs
      · split at hs
        · cases hs; exact h
        · split at hs
          · cases hs; exact h.congr (wakeClient_log s).1 (fun _ => rfl)
          · split at hs <;> cases hs
            exact h.congr (wakeClient_log s).1 (fun e => by rw [← (wakeClient_log s).2] at e; exact e)
    · cases hs; exact h
    · cases hs; exact h.congr (wakeClient_log s).1 (fun e => by rw [← (wakeClient_log s).2] at e; exact e)
    · cases hs
  | client =>
    simp only [AState.step, AState.clientStep] at hs
    split at hs
    · cases hs
    · split at hs <;> cases hs; exact h
    · split at hs <;> cases hs <;> exact h
    · cases hs; exact h
    · cases hs
    · rename_i size _
      unfold AState.finishRead at hs
      split at hs
      · cases hs
        intro n hn
        rfl
      · split at hs
        · dsimp only at hs
          split at hs <;> cases hs
          intro n hn
          simp only [(wakeWorker_log s).1, List.mem_append, List.mem_singleton, Prod.mk.injEq, reduceCtorEq, and_false, or_false] at hn
          have := h n hn
          rw [← (wakeWorker_log s).2] at this
          exact this
        · split at hs
          · rename_i he
            cases hs
            intro n hn
            exact he
          · cases hs
    · split at hs <;> cases hs; exact h
    · cases hs; exact h.congr (wakeWorker_log s).1 (fun e => by rw [← (wakeWorker_log s).2] at e; exact e)
    · split at hs <;> cases hs; exact h
    · cases hs
  | call size =>
    simp only [AState.step] at hs
    split at hs
    · split at hs <;> cases hs
      · intro n hn
        simp only [List.mem_append, List.mem_singleton, Prod.mk.injEq, reduceCtorEq, and_false, or_false] at hn
        exact h n hn
      · exact h
    · cases hs
  | destroy => simp only [AState.step] at hs; split at hs <;> cases hs; exact h
  | spuriousWorker => simp only [AState.step] at hs; split at hs <;> cases hs; exact h
  | spuriousClient => simp only [AState.step] at hs; split at hs <;> cases hs; exact h

theorem nullAtEnd_run : ∀ (es : List AEvent) {s s' : AState}, NullAtEnd s → s.run es = .ok s' → NullAtEnd s'
  | [], s, s', h, hs => by injection hs with hs; subst hs; exact h
  | e :: es, s, s', h, hs => by
    obtain ⟨t, e1, e2⟩ := Res.bind_eq_ok.1 hs
    exact nullAtEnd_run es (nullAtEnd_step h e1) e2

/-- **C38**, no data races: if the source does not throw then whatever the schedule is, the threads never access the same variable, or the same byte of the
buffer, at the same time such that one of them writes. (By the C++ standard, programs without data races have sequentially consistent executions only, which
are those of the model.)
Partial: sources that do not throw, see `C38_throwing_source_data_race_violated`. -/
theorem C38_no_data_race_partial {B : Nat} {src : List SourceCall} (h : AsyncOk B src) (hnt : ∀ w, SourceCall.throws w ∉ src) (b : Byte)
    (es : List AEvent) {s : AState} (hs : (AState.init B src b).run es = .ok s) : ¬ DataRace s := by
  rintro ⟨⟨s1, hw⟩, hc, v, hv⟩
  obtain ⟨c, p, hi⟩ := h.run b es hs
  have hnull := nullAtEnd_run es (s := AState.init B src b) (fun size hm => by cases hm) hs
  have hring : s.ring = 5 * B := ring_eq (show 6 * B < u32 from h.small) hi.bs
  have hde : s.dataEnd < 5 * B := by rw [hi.de]; exact Nat.mod_lt _ (by have := h.pos; omega)
  have hB := h.pos
  -- the bytes
  have bytes : ∀ i, s.slice i → (s.workerWrites (.byte i) ∨ s.workerReads (.byte i)) → False := by
    rintro i ⟨hidle, pos, k, hr, hi1, hi2⟩ hacc
    have key : ∀ m, m < B → (s.wpc = .read ∨ ∃ n, s.wpc = .relock n ∨ s.wpc = .body n) → (s.dataEnd + m) % (5 * B) ≠ i % (5 * B) := by
      intro m hm hpc
      have := C38_no_conflicting_accesses h b es hs hr hpc hm (show i - pos < k by omega)
      rwa [show pos + (i - pos) = i by omega] at this
    have hbody : ∀ n, s.wpc = .body n → n ≤ B := fun n e => by
      have := hi.wf
      rw [e] at this
      exact this.2.2.2.1
    rcases hacc with (⟨e, h1, h2⟩ | ⟨n, e, h1 | ⟨h1, h2, h3, _⟩⟩) | ⟨n, e, h1, h2⟩
    · rw [hi.bs] at h2
      exact key (i - s.dataEnd) (by omega) (Or.inl e) (by rw [show s.dataEnd + (i - s.dataEnd) = i by omega])
    · have := hbody n e
      rw [hring] at h1
      refine key (i + 5 * B - s.dataEnd) (by omega) (Or.inr ⟨n, Or.inr e⟩) ?_
      rw [show s.dataEnd + (i + 5 * B - s.dataEnd) = i + 5 * B by omega, Nat.add_mod_right]
    · have := hbody n e
      rw [hring] at h2 h3
      refine key (i - 5 * B - s.dataEnd) (by omega) (Or.inr ⟨n, Or.inr e⟩) ?_
      rw [show i = s.dataEnd + (i - 5 * B - s.dataEnd) + 5 * B by omega, Nat.add_mod_right]
      congr 2
      omega
    · have := hbody n e
      exact key (i - s.dataEnd) (by omega) (Or.inr ⟨n, Or.inr e⟩) (by rw [show s.dataEnd + (i - s.dataEnd) = i by omega])
  have hthrow : s.wpc ≠ .throw1 := by
    intro e
    have := hi.wf
    rw [e] at this
    obtain ⟨_, _, _, w, hw⟩ := this
    exact hnt w hw
  -- the worker holds the mutex
  have locked : s.wpc.holds = true → (∀ size, s.cpc ≠ .check size ∧ s.cpc ≠ .body size) ∧ s.cpc ≠ .dlock := by
    intro hh
    have hm := hi.mw.2 hh
    have hn := hi.notClient hh
    refine ⟨fun size => ⟨fun e => ?_, fun e => ?_⟩, fun e => ?_⟩
    · rw [e] at hn; cases hn
    · rw [e] at hn; cases hn
    · rcases hc with hc | ⟨s2, hc⟩
      · rw [e] at hc; cases hc
      · simp [AState.step, AState.clientStep, e, hm] at hc
  have hnullpc : ∀ size, s.log.getLast? = some (size, .null) → ∀ n, s.wpc ≠ .body n := by
    intro size hl n e
    have h1 := hnull size (List.mem_of_getLast? hl)
    have h2 := hi.wf
    rw [e] at h2
    rw [h2.1] at h1
    cases h1
  cases v with
  | byte i =>
    rcases hv with ⟨h1, h2 | h2⟩ | ⟨h1, h2⟩
    · exact bytes i h2 (Or.inl h1)
    · exact bytes i h2 (Or.inl h1)
    · exact bytes i h2 (Or.inr h1)
  | dataBegin =>
    rcases hv with ⟨h1, _⟩ | ⟨h1, size, h2⟩
    · exact h1
    · exact ((locked (by rw [show s.wpc = .check from h1]; rfl)).1 size).2 h2
  | dataEnd =>
    rcases hv with ⟨⟨n, h1⟩, (⟨size, h2⟩ | ⟨_, size, h2⟩) | h2⟩ | ⟨_, h2⟩
    · have := (locked (by rw [h1]; rfl)).1 size
      exact h2.elim this.1 this.2
    · exact hnullpc size h2 n h1
    · exact h2
    · exact h2
  | eof =>
    rcases hv with ⟨⟨n, h1⟩, ⟨size, h2⟩ | ⟨size, h2⟩⟩ | ⟨h1, _⟩
    · have := (locked (by rw [h1]; rfl)).1 size
      exact h2.elim this.1 this.2
    · exact ((locked (by rw [h1]; rfl)).1 size).2 h2
    · exact h1
  | term =>
    rcases hv with ⟨h1, _⟩ | ⟨h1 | ⟨n, h1⟩, h2⟩
    · exact h1
    · exact (locked (by rw [h1]; rfl)).2 h2
    · exact (locked (by rw [h1]; rfl)).2 h2
  | exc =>
    rcases hv with ⟨h1, _⟩ | ⟨h1, _⟩
    · exact hthrow h1
    · exact h1

/-! ### The accesses are those of the steps -/

/-- The value of a shared variable. -/
def AState.value (s : AState) : SharedVar → Option Nat
  | .dataBegin => some s.dataBegin
  | .dataEnd => some s.dataEnd
  | .eof => some s.eof.toNat
  | .term => some s.term.toNat
  | .exc => some s.exc.toNat
  | .byte i => (rd s.buffer i).map BitVec.toNat

theorem ringAppend_rd {B e k : Nat} {buf buf' : List Byte} {e' : Nat} (hB : 0 < B) (hlen : buf.length = 6 * B) (he : e < 5 * B) (hk : k ≤ B)
    (h : ringAppend (5 * B) B buf e k = some (buf', e')) (i : Nat) :
    rd buf' i = if i + 5 * B < e + k then rd buf (5 * B + i)
      else if e < B ∧ 5 * B + e ≤ i ∧ i < 5 * B + e + k ∧ i < 5 * B + B then rd buf (i - 5 * B) else rd buf i := by
  unfold ringAppend at h
  simp only [] at h
  by_cases hw : e + k ≥ 5 * B
  · obtain ⟨b1, m1, l1, r1⟩ := memcpy_spec (buf := buf) (dst := 0) (src := 5 * B) (len := e + k - 5 * B) (by omega) (by omega) (by omega)
    simp only [hw, if_true, m1, Option.map_some, show ¬ e < B by omega, if_false, Option.bind_eq_bind, Option.bind_some, Option.some.injEq, Prod.mk.injEq] at h
    obtain ⟨rfl, _⟩ := h
    rw [r1]
    by_cases h1 : i + 5 * B < e + k
    · rw [if_pos (by omega), if_pos h1, Nat.sub_zero]
    · rw [if_neg (by omega), if_neg h1, if_neg (by omega)]
  · simp only [hw, if_false, Option.bind_eq_bind, Option.bind_some] at h
    rw [if_neg (by omega)]
    by_cases hb : e < B
    · simp only [hb, if_true] at h
      obtain ⟨L, hL, hm⟩ : ∃ L, L = min k (B - e) ∧ memcpy buf (5 * B + e) e L = some buf' := by
        by_cases h2 : e + k < B
        · simp only [h2, if_true, Option.bind_eq_some_iff, Option.some.injEq, Prod.mk.injEq] at h
          obtain ⟨a, h3, rfl, _⟩ := h
          exact ⟨k, by omega, h3⟩
        · simp only [h2, if_false, Option.bind_eq_some_iff, Option.some.injEq, Prod.mk.injEq] at h
          obtain ⟨a, h3, rfl, _⟩ := h
          exact ⟨B - e, by omega, h3⟩
      obtain ⟨b1, m1, l1, r1⟩ := memcpy_spec (buf := buf) (dst := 5 * B + e) (src := e) (len := L) (by omega) (by omega) (by omega)
      rw [hm] at m1
      cases m1
      rw [r1]
      by_cases h1 : 5 * B + e ≤ i ∧ i < 5 * B + e + L
      · rw [if_pos h1, if_pos (by omega)]
        congr 1
        omega
      · rw [if_neg h1, if_neg (by omega)]
    · simp only [hb, if_false, Option.bind_some, Option.some.injEq, Prod.mk.injEq] at h
      obtain ⟨rfl, _⟩ := h
      rw [if_neg (by omega)]

theorem wakeClient_value (s : AState) (v : SharedVar) : s.wakeClient.value v = s.value v := by
  unfold AState.wakeClient
  split <;> cases v <;> rfl

theorem wakeWorker_value (s : AState) (v : SharedVar) : s.wakeWorker.value v = s.value v := by
  unfold AState.wakeWorker
  split <;> cases v <;> rfl

/-- **C38**, the accesses are complete: in every execution, a step of a thread changes only variables that it is said to write. -/
theorem C38_steps_change_only_what_they_write {B : Nat} {src : List SourceCall} (h : AsyncOk B src) (b : Byte)
    (es : List AEvent) {s : AState} (hs : (AState.init B src b).run es = .ok s) :
    (∀ s', s.step .worker = .ok s' → ∀ v, s'.value v ≠ s.value v → s.workerWrites v) ∧
    (∀ s', s.step .client = .ok s' → ∀ v, s'.value v ≠ s.value v → s.clientWrites v) := by
  obtain ⟨c, p, hi⟩ := h.run b es hs
  have hring : s.ring = 5 * B := ring_eq (show 6 * B < u32 from h.small) hi.bs
  have hde : s.dataEnd < 5 * B := by rw [hi.de]; exact Nat.mod_lt _ (by have := h.pos; omega)
  constructor
  · intro s' hs v hv
    simp only [AState.step, AState.workerStep] at hs
    split at hs
    · split at hs <;> cases hs; cases v <;> exact absurd rfl hv
    · split at hs
      · split at hs <;> cases hs <;> cases v <;> exact absurd rfl hv
      · cases hs; cases v <;> exact absurd rfl hv
    · cases hs; cases v <;> exact absurd rfl hv
    · cases hs
    · rename_i hpc
      have hwrite : ∀ (w : List Byte) (b' : List Byte) (x : SourceCall) (rest : List SourceCall) (pc : WPc), s.source = x :: rest → (∀ n, x = .returns w n → w.length ≤ B) →
          (x = .throws w → w.length ≤ B) → ((∃ n, x = .returns w n) ∨ x = .throws w) → writeAt s.buffer s.dataEnd w = some b' →
          ({ s with buffer := b', source := rest, wpc := pc } : AState).value v ≠ s.value v → s.workerWrites v := by
        intro w b' x rest pc _ h1 h2 h3 hb hv
        have hlen : w.length ≤ B := by
          rcases h3 with ⟨n, e⟩ | e
          · exact h1 n e
          · exact h2 e
        cases v with
        | byte i =>
          refine Or.inl ⟨hpc, ?_⟩
          rw [hi.bs]
          by_contra hcon
          apply hv
          show (rd b' i).map _ = (rd s.buffer i).map _
          rw [rd_writeAt hb, if_neg (by omega)]
        | dataBegin => exact absurd rfl hv
        | dataEnd => exact absurd rfl hv
        | eof => exact absurd rfl hv
        | term => exact absurd rfl hv
        | exc => exact absurd rfl hv
      unfold AState.callSource at hs
      split at hs
      · cases hs; cases v <;> exact absurd rfl hv
      · rename_i w n rest hsrc
        split at hs <;> cases hs
        rename_i b' hb
        have hok : n ≤ w.length ∧ w.length ≤ B := hi.ok (.returns w n) (by rw [hsrc]; exact List.mem_cons_self)
        exact hwrite w b' _ rest (.relock n) hsrc (fun _ _ => hok.2) (fun e => by cases e) (Or.inl ⟨n, rfl⟩) hb hv
      · rename_i w rest hsrc
        split at hs <;> cases hs
        rename_i b' hb
        have hok : w.length ≤ B := hi.ok (.throws w) (by rw [hsrc]; exact List.mem_cons_self)
        exact hwrite w b' _ rest .throw1 hsrc (fun _ e => by cases e) (fun _ => hok) (Or.inr rfl) hb hv
    · split at hs <;> cases hs; cases v <;> exact absurd rfl hv
    · rename_i n hpc
      have hn : n ≤ B := by
        have := hi.wf
        rw [hpc] at this
        exact this.2.2.2.1
      unfold AState.afterRead at hs
      split at hs
      · cases hs
      · split at hs
        · cases hs; cases v <;> exact absurd rfl hv
        · split at hs
          · cases hs
            cases v with
            | eof => exact ⟨n, hpc⟩
            | dataBegin => exact absurd (wakeClient_value s .dataBegin) hv
            | dataEnd => exact absurd (wakeClient_value s .dataEnd) hv
            | term => exact absurd (wakeClient_value s .term) hv
            | exc => exact absurd (wakeClient_value s .exc) hv
            | byte i => exact absurd (wakeClient_value s (.byte i)) hv
          · split at hs <;> cases hs
            rename_i b' e' hr
            cases v with
            | eof => exact ⟨n, hpc⟩
            | dataBegin => exact absurd (wakeClient_value s .dataBegin) hv
            | dataEnd => exact ⟨n, hpc⟩
            | term => exact absurd (wakeClient_value s .term) hv
            | exc => exact absurd (wakeClient_value s .exc) hv
            | byte i =>
              refine Or.inr ⟨n, hpc, ?_⟩
              rw [hring, hi.bs] at hr
              rw [hring, hi.bs]
              by_contra hcon
              rw [not_or] at hcon
              apply hv
              show (rd b' i).map _ = (rd s.buffer i).map _
              rw [ringAppend_rd h.pos hi.buf hde hn hr, if_neg hcon.1, if_neg (by omega)]
    · rename_i hpc
      cases hs
      cases v with
      | exc => exact hpc
      | dataBegin => exact absurd rfl hv
      | dataEnd => exact absurd rfl hv
      | term => exact absurd rfl hv
      | eof => exact absurd rfl hv
      | byte i => exact absurd rfl hv
    · cases hs
      refine absurd (Eq.trans ?_ (wakeClient_value s v)) hv
      cases v <;> rfl
    · cases hs
  · intro s' hs v hv
    simp only [AState.step, AState.clientStep] at hs
    split at hs
    · cases hs
    · split at hs <;> cases hs; cases v <;> exact absurd rfl hv
    · split at hs <;> cases hs <;> cases v <;> exact absurd rfl hv
    · cases hs; cases v <;> exact absurd rfl hv
    · cases hs
    · rename_i size hpc
      unfold AState.finishRead at hs
      split at hs
      · cases hs
        cases v with
        | eof => exact ⟨size, hpc⟩
        | dataBegin => exact absurd rfl hv
        | dataEnd => exact absurd rfl hv
        | term => exact absurd rfl hv
        | exc => exact absurd rfl hv
        | byte i => exact absurd rfl hv
      · split at hs
        · dsimp only at hs
          split at hs <;> cases hs
          cases v with
          | eof => exact ⟨size, hpc⟩
          | dataBegin => exact ⟨size, hpc⟩
          | dataEnd => exact absurd (wakeWorker_value s .dataEnd) hv
          | term => exact absurd (wakeWorker_value s .term) hv
          | exc => exact absurd (wakeWorker_value s .exc) hv
          | byte i => exact absurd (wakeWorker_value s (.byte i)) hv
        · split at hs
          · cases hs; cases v <;> exact absurd rfl hv
          · cases hs
    · rename_i hpc
      split at hs <;> cases hs
      cases v with
      | term => exact hpc
      | dataBegin => exact absurd rfl hv
      | dataEnd => exact absurd rfl hv
      | eof => exact absurd rfl hv
      | exc => exact absurd rfl hv
      | byte i => exact absurd rfl hv
    · cases hs
      refine absurd (Eq.trans ?_ (wakeWorker_value s v)) hv
      cases v <;> rfl
    · split at hs <;> cases hs; cases v <;> exact absurd rfl hv
    · cases hs

/-- If the source throws then there is a data race on `read_exception`. -/
theorem C38_throwing_source_data_race_violated :
    ∃ (src : List SourceCall) (es : List AEvent) (s : AState), AsyncOk 1 src ∧ (AState.init 1 src 0).run es = .ok s ∧ DataRace s :=
  ⟨[.throws []], [.worker, .worker, .worker, .call 1, .client], _,
    ⟨by decide, by decide, by intro x hx; simp at hx; subst hx; exact Nat.zero_le _⟩, rfl, ⟨_, rfl⟩, Or.inr ⟨_, rfl⟩, .exc, Or.inl ⟨rfl, Or.inl ⟨1, Or.inl rfl⟩⟩⟩

/-- The hypotheses are satisfiable: here the worker writes bytes 3 to 5 of the buffer while the client uses bytes 0 to 2. -/
example : ∃ s, (AState.init 3 sampleSource 0).run sampleSchedule = .ok s ∧ (∃ s', s.step .worker = .ok s') ∧ s.workerWrites (.byte 5) ∧ s.clientReads (.byte 2) ∧
    ¬ DataRace s :=
  ⟨_, rfl, ⟨_, rfl⟩, Or.inl ⟨rfl, by decide⟩, ⟨rfl, 0, 3, rfl, by decide⟩, C38_no_data_race_partial sampleSource_ok (by intro w hw; simp [sampleSource] at hw) 0 sampleSchedule rfl⟩

end RK
