import Verif.Proof.AsyncLive
/-!
# C38: reading a byte source asynchronously

The specification is `Verif.Spec.AsyncReader`. An execution is a list of events: steps of the worker, steps of the client,
new calls, spurious wakeups. Every list of events is an execution or ends in the outcome `error` because some event was not
possible; so a theorem about all lists is a theorem about all schedules.
-/
namespace RK
open Spec

/-- The assumptions: the block size is positive and the size of the buffer can be computed with 32 bit numbers, and the
source writes only to the memory it is given. -/
structure AsyncOk (B : Nat) (src : List SourceCall) : Prop where
  pos : 0 < B
  small : 6 * B < 2 ^ 32
  source : ∀ x ∈ src, x.Ok B

theorem AsyncOk.run {B : Nat} {src : List SourceCall} (h : AsyncOk B src) (b : Byte) (es : List AEvent) {s : AState}
    (hs : (AState.init B src b).run es = .ok s) : ∃ c p, AInv B src s c p := by
  have := run_inv h.pos (show 6 * B < u32 from h.small) es _ 0 0 (init_inv (b := b) (show 6 * B < u32 from h.small) h.source)
  rw [hs] at this
  exact this

/-- **C38**, schedules and contents: whatever the chunks of the source, the calls of the client and the schedule are, there
is no undefined behaviour, and the outcomes of all calls are those of a sequential reader on the stream. -/
theorem C38_reads_are_sequential {B : Nat} {src : List SourceCall} (h : AsyncOk B src) (b : Byte) (es : List AEvent) :
    (AState.init B src b).run es ≠ .ub ∧
    ∀ s, (AState.init B src b).run es = .ok s →
      ∃ rest, Delivers B (∃ w, SourceCall.throws w ∈ src) (stream src) s.log rest := by
  constructor
  · exact (run_inv h.pos (show 6 * B < u32 from h.small) es _ 0 0 (init_inv (show 6 * B < u32 from h.small) h.source)).ne_ub
  · intro s hs
    obtain ⟨c, p, hi⟩ := h.run b es hs
    exact ⟨_, hi.log⟩

/-- **C38**, buffers remain intact: until the next call (calls that are rejected because of their size do not matter) the
memory which the last successful call has returned contains the bytes it had then. -/
theorem C38_buffers_remain_intact {B : Nat} {src : List SourceCall} (h : AsyncOk B src) (b : Byte) (es : List AEvent) {s : AState}
    (hs : (AState.init B src b).run es = .ok s) {pos k : Nat} (hr : s.ret = some (pos, k)) :
    ∃ l1 l2 bytes, s.log = l1 ++ (k, .slice bytes) :: l2 ∧ (∀ e ∈ l2, e.2 = .rejected) ∧ bytes.length = k ∧
      pos + k ≤ s.buffer.length ∧ (s.buffer.drop pos).take k = bytes := by
  obtain ⟨c, p, hi⟩ := h.run b es hs
  obtain ⟨h1, h2, h3, l1, l2, h4, h5⟩ := hi.held pos k hr
  have hcp := hi.cp
  have hpl := hi.plen
  have hh : s.held = k := by unfold AState.held; rw [hr]
  obtain ⟨g1, g2⟩ := slice_spec (c := c - k) (k := k) (st := stream src) h.pos h1 hi.buf (by omega)
    (fun q hq1 hq2 => hi.live q (by omega) (by omega))
  refine ⟨l1, l2, _, h4, h5, ?_, by rw [h3]; exact g1, by rw [h3]; exact g2⟩
  rw [List.length_take, List.length_drop]; omega

/-- **C38**, no conflicting accesses: while the worker calls the source, and until the new bytes are in place, the memory it
writes (`B` bytes from `dataEnd` on, and the copies at positions that are the same modulo `5 * B`) is disjoint from the
slice which the client may read at the same time. -/
theorem C38_no_conflicting_accesses {B : Nat} {src : List SourceCall} (h : AsyncOk B src) (b : Byte) (es : List AEvent) {s : AState}
    (hs : (AState.init B src b).run es = .ok s) {pos k : Nat} (hr : s.ret = some (pos, k))
    (hw : s.wpc = .read ∨ ∃ n, s.wpc = .relock n ∨ s.wpc = .body n) {i j : Nat} (hi : i < B) (hj : j < k) :
    (s.dataEnd + i) % (5 * B) ≠ (pos + j) % (5 * B) := by
  obtain ⟨c, p, hv⟩ := h.run b es hs
  obtain ⟨h1, h2, h3, -⟩ := hv.held pos k hr
  have hcp := hv.cp
  have hp : p ≤ c + 3 * B := by
    have hwf := hv.wf
    rcases hw with e | ⟨n, e | e⟩
    · rw [e] at hwf; exact hwf.2.2.2
    · rw [e] at hwf; exact hwf.2.2.1
    · rw [e] at hwf; exact hwf.2.2.1
  rw [hv.de, h3, Nat.mod_add_mod, Nat.mod_add_mod]
  exact (mod_ne (by omega) (by omega)).symm

/-- **C38**, no deadlock: if the source does not throw, then as long as a call of `read` or of the destructor has not
returned, one of the threads can do a step. -/
theorem C38_no_deadlock {B : Nat} {src : List SourceCall} (h : AsyncOk B src) (hnt : ∀ w, SourceCall.throws w ∉ src) (b : Byte)
    (es : List AEvent) {s : AState} (hs : (AState.init B src b).run es = .ok s) (h1 : s.cpc ≠ .idle) (h2 : s.cpc ≠ .destroyed) :
    (∃ s', s.step .worker = .ok s') ∨ (∃ s', s.step .client = .ok s') := by
  obtain ⟨c, p, hv⟩ := h.run b es hs
  exact progress h.pos (show 6 * B < u32 from h.small) (fun ⟨w, hw⟩ => hnt w hw) hv h1 h2

/-- **C38**, no livelock: after any execution the threads together do a bounded number of steps, unless the client calls the
reader again or there are further spurious wakeups. -/
theorem C38_steps_bounded {B : Nat} {src : List SourceCall} (h : AsyncOk B src) (b : Byte) (es : List AEvent) {s s' : AState}
    (hs : (AState.init B src b).run es = .ok s) (es' : List AEvent) (hes : ∀ e ∈ es', (∀ size, e ≠ .call size) ∧ e ≠ .destroy)
    (hs' : s.run es' = .ok s') :
    es'.count .worker + es'.count .client ≤ 600 * B + 173 + 70 * (es'.count .spuriousWorker + es'.count .spuriousClient) := by
  obtain ⟨c, p, hv⟩ := h.run b es hs
  have := run_mu h.pos (show 6 * B < u32 from h.small) es' s s' c p hv (fun e he => by
    obtain ⟨k1, k2⟩ := hes e he
    cases e with
    | worker => simp
    | client => simp
    | call size => exact absurd rfl (k1 size)
    | destroy => exact absurd rfl k2
    | spuriousWorker => simp
    | spuriousClient => simp) hs'
  have hm := mu_le (s := s) hv.bs
  unfold stepsOf spuriousOf at this
  omega

/-- **C38**, calls return: if the source does not throw, then from every state that can be reached, every schedule of the
threads arrives (see `C38_steps_bounded`) at a state where no thread can do a step, and there the client is not within a
call: every `read` and the destructor have returned.
Partial: sources that do not throw, see `C38_throwing_source_deadlock_violated`. -/
theorem C38_calls_return_partial {B : Nat} {src : List SourceCall} (h : AsyncOk B src) (hnt : ∀ w, SourceCall.throws w ∉ src) (b : Byte)
    (es : List AEvent) {s s' : AState} (hs : (AState.init B src b).run es = .ok s) (es' : List AEvent)
    (hs' : s.run es' = .ok s') (hw : ∀ t, s'.step .worker ≠ .ok t) (hc : ∀ t, s'.step .client ≠ .ok t) :
    s'.cpc = .idle ∨ s'.cpc = .destroyed := by
  have hrun : (AState.init B src b).run (es ++ es') = .ok s' := by
    have : ∀ (l : List AEvent) (t : AState), t.run l = .ok s → t.run (l ++ es') = .ok s' := by
      intro l
      induction l with
      | nil => intro t e; injection e with e; rw [e]; exact hs'
      | cons x l ih =>
        intro t e
        obtain ⟨t1, e1, e2⟩ := Res.bind_eq_ok.1 e
        exact Res.bind_eq_ok.2 ⟨t1, e1, ih t1 e2⟩
    exact this es _ hs
  by_cases h1 : s'.cpc = .idle
  · exact Or.inl h1
  · by_cases h2 : s'.cpc = .destroyed
    · exact Or.inr h2
    · rcases C38_no_deadlock h hnt b _ hrun h1 h2 with ⟨t, e⟩ | ⟨t, e⟩
      · exact absurd e (hw t)
      · exact absurd e (hc t)

/-! ### Violations -/

/-- The worker sets `read_exception` without holding the mutex. If that, and the notification, happens after the client has
found the condition false and before it sleeps, then nobody wakes the client up: `read` never returns. -/
theorem C38_throwing_source_deadlock_violated :
    ∃ (src : List SourceCall) (es : List AEvent) (s : AState), AsyncOk 1 src ∧ (AState.init 1 src 0).run es = .ok s ∧
      s.cpc = .sleep 1 ∧ s.exc = true ∧ s.step .worker = .error ∧ s.step .client = .error := by
  refine ⟨[.throws []], [.worker, .worker, .worker, .call 1, .client, .client, .worker, .worker, .client], _,
    ⟨by decide, by decide, by intro x hx; simp at hx; subst hx; exact Nat.zero_le _⟩, rfl, rfl, rfl, rfl, rfl⟩

/-- While the client holds the mutex and reads `read_exception` the worker may be about to write it: a data race. -/
theorem C38_exception_data_race_violated :
    ∃ (src : List SourceCall) (es : List AEvent) (s : AState), AsyncOk 1 src ∧ (AState.init 1 src 0).run es = .ok s ∧
      s.wpc = .throw1 ∧ s.cpc = .check 1 ∧ s.mutex = some .client := by
  refine ⟨[.throws []], [.worker, .worker, .worker, .call 1, .client], _,
    ⟨by decide, by decide, by intro x hx; simp at hx; subst hx; exact Nat.zero_le _⟩, rfl, rfl, rfl, rfl⟩

/-- With blocks of 2^32/6 bytes or more the size of the buffer wraps around: here the buffer has 2 bytes although a block has
715827883, and a source that writes three bytes writes behind the buffer. -/
theorem C38_large_blocks_undefined :
    ∃ (src : List SourceCall) (es : List AEvent), (∀ x ∈ src, x.Ok 715827883) ∧ (AState.init 715827883 src 0).run es = .ub := by
  refine ⟨[.returns [1, 2, 3] 3], [.worker, .worker, .worker], ?_, by decide⟩
  intro x hx
  simp at hx
  subst hx
  exact ⟨by decide, by decide⟩

/-! ### Examples -/

def sampleSource : List SourceCall := [.returns [10, 11, 99] 2, .returns [12, 13, 14] 3, .returns [15] 1, .returns [] 0]

theorem sampleSource_ok : AsyncOk 3 sampleSource := ⟨by decide, by decide, by
  intro x hx
  simp [sampleSource] at hx
  rcases hx with rfl | rfl | rfl | rfl <;> exact ⟨by decide, by decide⟩⟩

example : stream sampleSource = [10, 11, 12, 13, 14, 15] := by decide

/-- The client waits for the second chunk; it holds a slice while the worker writes the next chunk. -/
def sampleSchedule : List AEvent :=
  [.call 3, .worker, .worker, .worker, .client, .client, .client, .worker, .worker, .worker, .worker, .worker, .worker, .worker,
   .client, .client, .client, .call 9]

/-- The stream ends and the reader is destroyed. -/
def sampleSchedule2 : List AEvent :=
  [.worker, .worker, .worker, .worker, .worker, .worker, .worker, .call 3, .client, .client, .client, .call 1, .client,
   .client, .client, .destroy, .client, .client, .client]

example : ∃ s, (AState.init 3 sampleSource 0).run sampleSchedule = .ok s ∧ s.ret = some (0, 3) ∧ s.wpc = .read ∧
    s.log = [(3, .slice [10, 11, 12]), (9, .rejected)] := ⟨_, rfl, rfl, rfl, rfl⟩

example : ∃ s, (AState.init 3 sampleSource 0).run (sampleSchedule ++ sampleSchedule2) = .ok s ∧ s.cpc = .destroyed ∧
    s.log = [(3, .slice [10, 11, 12]), (9, .rejected), (3, .slice [13, 14, 15]), (1, .null)] := ⟨_, rfl, rfl, rfl⟩

end RK
