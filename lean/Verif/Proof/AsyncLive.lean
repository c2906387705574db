import Verif.Proof.AsyncReader
/-! # The asynchronous reader: progress and termination -/
namespace RK
open Spec

variable {B c p : Nat} {src : List SourceCall} {s s' : AState}

theorem AKeeps.ne_ub {r : Res AState} (h : AKeeps B src r) : r ≠ .ub := by
  intro e; rw [e] at h; exact h

theorem ok_of {r : Res AState} (h1 : r ≠ .ub) (h2 : r ≠ .error) : ∃ s, r = .ok s := by
  cases r with
  | ok s => exact ⟨s, rfl⟩
  | error => exact absurd rfl h2
  | ub => exact absurd rfl h1

theorem callSource_ne_error (s : AState) : s.callSource ≠ .error := by
  unfold AState.callSource
  split
  · simp
  · split <;> simp
  · split <;> simp

theorem afterRead_ne_error (s : AState) (n : Nat) : s.afterRead n ≠ .error := by
  unfold AState.afterRead
  repeat' split
  all_goals simp

theorem finishRead_ne_error (s : AState) (n : Nat) : s.finishRead n ≠ .error := by
  unfold AState.finishRead
  repeat' split
  all_goals simp

/-- The worker is blocked only by the mutex, or when it sleeps or is done. -/
theorem worker_enabled (hB : 0 < B) (hu : 6 * B < u32) (h : AInv B src s c p) (hm : s.mutex ≠ some .client) (h1 : s.wpc ≠ .sleep) (h2 : s.wpc ≠ .done) :
    ∃ s', s.workerStep = .ok s' := by
  refine ok_of (workerStep_inv hB hu h).ne_ub ?_
  have hnone : s.wpc.holds = false → s.mutex = none := by
    intro hh
    cases e : s.mutex with
    | none => rfl
    | some t =>
      cases t with
      | worker => have := h.mw.1 e; rw [hh] at this; cases this
      | client => exact absurd e hm
  unfold AState.workerStep
  cases hw : s.wpc with
  | lock => simp only []; rw [if_pos (hnone (by rw [hw]; rfl))]; simp
  | check =>
    simp only []
    repeat' split
    all_goals simp
  | park => simp
  | sleep => exact absurd hw h1
  | read => exact callSource_ne_error s
  | relock n => simp only []; rw [if_pos (hnone (by rw [hw]; rfl))]; simp
  | body n => exact afterRead_ne_error s n
  | throw1 => simp
  | throw2 => simp
  | done => exact absurd hw h2

/-- As long as the client is within a call, one of the threads can do a step. -/
theorem progress (hB : 0 < B) (hu : 6 * B < u32) (hnt : ¬ Throws src) (h : AInv B src s c p) (h1 : s.cpc ≠ .idle) (h2 : s.cpc ≠ .destroyed) :
    (∃ s', s.workerStep = .ok s') ∨ (∃ s', s.clientStep = .ok s') := by
  have hcf := h.cf
  have hwf := h.wf
  have hub := (clientStep_inv hB hu h).ne_ub
  have hcp := h.cp
  -- waiting for the mutex
  have locked : s.cpc.holds = false → (s.mutex = none → ∃ s', s.clientStep = .ok s') →
      (∃ s', s.workerStep = .ok s') ∨ (∃ s', s.clientStep = .ok s') := by
    intro hh hc
    cases e : s.mutex with
    | none => exact Or.inr (hc e)
    | some t =>
      cases t with
      | client => have := h.mc.1 e; rw [hh] at this; cases this
      | worker =>
        have hw := h.mw.1 e
        refine Or.inl (worker_enabled hB hu h (by rw [e]; simp) ?_ ?_)
        · intro e; rw [e] at hw; cases hw
        · intro e; rw [e] at hw; cases hw
  have running : s.cpc.holds = false → s.mutex ≠ some .client := by
    intro hh e
    have := h.mc.1 e
    rw [hh] at this; cases this
  cases hc : s.cpc with
  | idle => exact absurd hc h1
  | lock size =>
    refine locked (by rw [hc]; rfl) (fun e => ok_of hub ?_)
    unfold AState.clientStep; rw [hc]; simp only []; rw [if_pos e]; simp
  | check size =>
    right
    refine ok_of hub ?_
    unfold AState.clientStep; rw [hc]; simp only []
    split <;> simp
  | park size =>
    right
    refine ok_of hub ?_
    unfold AState.clientStep; rw [hc]; simp
  | sleep size =>
    rw [hc] at hcf
    left
    refine worker_enabled hB hu h (running (by rw [hc]; rfl)) ?_ ?_
    · intro e
      rw [e] at hwf
      have h3 := hwf.2.2.2.1
      have h4 := hcf.2.2.2.2
      have h5 := hcf.1
      omega
    · intro e
      rw [e] at hwf
      rcases hwf with h3 | h3 | h3
      · exact absurd (hcf.2.2.2.1.symm.trans h3) (by simp)
      · exact absurd (hcf.2.1.symm.trans h3) (by simp)
      · exact hnt (h.excE h3).2
  | body size =>
    right
    refine ok_of hub ?_
    unfold AState.clientStep; rw [hc]; exact finishRead_ne_error s size
  | dlock =>
    refine locked (by rw [hc]; rfl) (fun e => ok_of hub ?_)
    unfold AState.clientStep; rw [hc]; simp only []; rw [if_pos e]; simp
  | dnotify =>
    right
    refine ok_of hub ?_
    unfold AState.clientStep; rw [hc]; simp
  | djoin =>
    rw [hc] at hcf
    by_cases hd : s.wpc = .done
    · right
      refine ok_of hub ?_
      unfold AState.clientStep; rw [hc]; simp only []; rw [if_pos hd]; simp
    · left
      refine worker_enabled hB hu h (running (by rw [hc]; rfl)) ?_ hd
      intro e
      rw [e] at hwf
      exact absurd ((hwf.2.2.2.2 hcf.1).symm.trans hc) (by simp)
  | destroyed => exact absurd hc h2

/-! ### Termination -/

def WPc.rank : WPc → Nat
  | .lock => 7
  | .check => 6
  | .park => 1
  | .sleep => 0
  | .read => 5
  | .relock _ => 4
  | .body _ => 3
  | .throw1 => 2
  | .throw2 => 1
  | .done => 0

def CPc.rank : CPc → Nat
  | .idle => 0
  | .lock _ => 3
  | .check _ => 2
  | .park _ => 1
  | .sleep _ => 0
  | .body _ => 1
  | .dlock => 3
  | .dnotify => 2
  | .djoin => 1
  | .destroyed => 0

def CPc.stage (B : Nat) : CPc → Nat
  | .idle | .djoin | .destroyed => 0
  | .dlock | .dnotify => 100
  | _ => 100 * B + 100

/-- An upper bound on the number of steps until both threads wait. -/
def AState.mu (s : AState) : Nat :=
  100 * (5 * s.blockSize - s.count) + 10 * s.wpc.rank + s.cpc.rank + s.cpc.stage s.blockSize

theorem wakeClient_mu (s : AState) : s.wakeClient.cpc.rank ≤ s.cpc.rank + 3 ∧ s.wakeClient.cpc.stage s.blockSize = s.cpc.stage s.blockSize ∧
    s.wakeClient = { s with cpc := s.wakeClient.cpc } := by
  obtain ⟨bs, bf, db, de, eof, term, exc, mutex, wpc, cpc, source, ret, log⟩ := s
  cases cpc <;> simp [AState.wakeClient, CPc.rank, CPc.stage]

theorem wakeWorker_mu (s : AState) : s.wakeWorker.wpc.rank ≤ s.wpc.rank + 7 := by
  rw [wakeWorker_wpc]
  split
  · rename_i h; rw [h]; decide
  · omega

theorem mu_eq {s s' : AState} (hb : s'.blockSize = s.blockSize) (hc : s'.count = s.count) :
    s'.mu = 100 * (5 * s.blockSize - s.count) + 10 * s'.wpc.rank + s'.cpc.rank + s'.cpc.stage s.blockSize := by
  unfold AState.mu; rw [hb, hc]

theorem workerStep_mu (hB : 0 < B) (hu : 6 * B < u32) (h : AInv B src s c p) (hs : s.workerStep = .ok s') : s'.mu < s.mu := by
  have hcount := h.count hB hu
  have hbs := h.bs
  have hmu := mu_eq (s := s) (s' := s) rfl rfl
  obtain ⟨k1, k2, k3⟩ := wakeClient_mu s
  unfold AState.workerStep at hs
  cases hw : s.wpc with
  | lock =>
    rw [hw] at hs hmu
    simp only [] at hs
    split at hs
    · injection hs with hs
      subst hs
      refine lt_of_eq_of_lt (by exact mu_eq (s := s) rfl rfl) ?_
      rw [hmu]
      simp only [WPc.rank]; omega
    · cases hs
  | check =>
    rw [hw] at hs hmu
    simp only [] at hs
    split at hs
    · split at hs
      · injection hs with hs
        subst hs
        refine lt_of_eq_of_lt (by exact mu_eq (s := s) rfl rfl) ?_
        rw [hmu]
        simp only [WPc.rank]; omega
      · injection hs with hs
        subst hs
        refine lt_of_eq_of_lt (by exact mu_eq (s := s) rfl rfl) ?_
        rw [hmu]
        simp only [WPc.rank]; omega
    · injection hs with hs
      subst hs
      refine lt_of_eq_of_lt (by exact mu_eq (s := s) rfl rfl) ?_
      rw [hmu]
      simp only [WPc.rank]; omega
  | park =>
    rw [hw] at hs hmu
    injection hs with hs
    subst hs
    refine lt_of_eq_of_lt (by exact mu_eq (s := s) rfl rfl) ?_
    rw [hmu]
    simp only [WPc.rank]; omega
  | sleep => rw [hw] at hs; cases hs
  | read =>
    rw [hw] at hs hmu
    simp only [AState.callSource] at hs
    split at hs
    · injection hs with hs
      subst hs
      refine lt_of_eq_of_lt (by exact mu_eq (s := s) rfl rfl) ?_
      rw [hmu]
      simp only [WPc.rank]; omega
    · split at hs
      · injection hs with hs
        subst hs
        refine lt_of_eq_of_lt (by exact mu_eq (s := s) rfl rfl) ?_
        rw [hmu]
        simp only [WPc.rank]; omega
      · cases hs
    · split at hs
      · injection hs with hs
        subst hs
        refine lt_of_eq_of_lt (by exact mu_eq (s := s) rfl rfl) ?_
        rw [hmu]
        simp only [WPc.rank]; omega
      · cases hs
  | relock n =>
    rw [hw] at hs hmu
    simp only [] at hs
    split at hs
    · injection hs with hs
      subst hs
      refine lt_of_eq_of_lt (by exact mu_eq (s := s) rfl rfl) ?_
      rw [hmu]
      simp only [WPc.rank]; omega
    · cases hs
  | body n =>
    have hwf := h.wf
    rw [hw] at hs hmu hwf
    obtain ⟨w1, w2, w3, w4, w5, w6⟩ := hwf
    simp only [AState.afterRead] at hs
    split at hs
    · cases hs
    · split at hs
      · injection hs with hs
        subst hs
        refine lt_of_eq_of_lt (by exact mu_eq (s := s) rfl rfl) ?_
        rw [hmu]
        simp only [WPc.rank]; omega
      · split at hs
        · injection hs with hs
          rw [k3] at hs
          subst hs
          refine lt_of_eq_of_lt (by exact mu_eq (s := s) rfl rfl) ?_
          rw [hmu]
          simp only [WPc.rank]; omega
        · rename_i hn0
          obtain ⟨q1, q2, q3⟩ := w6 (by omega)
          have hh := h.heldB
          have hcp := h.cp
          obtain ⟨b, eb, lb, hlive⟩ := ringAppend_spec (B := B) (p := p) (n := n) (lo := c - s.held) (st := stream src) (buf := s.buffer) hB h.buf w4 q3
            (by omega) (by omega) (fun q h1 h2 => h.live q (by omega) h2)
          have eb' : ringAppend s.ring s.blockSize s.buffer s.dataEnd n = some (b, (p + n) % (5 * B)) := by
            rw [ring_eq hu h.bs, h.de, h.bs]; exact eb
          rw [eb', k3] at hs
          injection hs with hs
          have hc' : s'.count = p + n - c := by
            rw [← hs]
            show howMany s.ring s.dataBegin ((p + n) % (5 * B)) = _
            rw [ring_eq hu h.bs, h.db, howMany_mod (by omega) (by omega)]
          have e1 : s'.wpc = .check := by rw [← hs]
          have e2 : s'.cpc = s.wakeClient.cpc := by rw [← hs]
          have e3 : s'.blockSize = B := by rw [← hs]; exact h.bs
          rw [hmu]
          unfold AState.mu
          rw [hc', e1, e2, e3, hcount, hbs]
          rw [hbs] at k2
          simp only [WPc.rank]
          omega
  | throw1 =>
    rw [hw] at hs hmu
    injection hs with hs
    subst hs
    refine lt_of_eq_of_lt (by exact mu_eq (s := s) rfl rfl) ?_
    rw [hmu]
    simp only [WPc.rank]; omega
  | throw2 =>
    rw [hw] at hs hmu
    injection hs with hs
    rw [k3] at hs
    subst hs
    refine lt_of_eq_of_lt (by exact mu_eq (s := s) rfl rfl) ?_
    rw [hmu]
    simp only [WPc.rank]; omega
  | done => rw [hw] at hs; cases hs

theorem clientStep_mu (hB : 0 < B) (hu : 6 * B < u32) (h : AInv B src s c p) (hs : s.clientStep = .ok s') : s'.mu < s.mu := by
  have hcount := h.count hB hu
  have hbs := h.bs
  have hmu := mu_eq (s := s) (s' := s) rfl rfl
  have k1 := wakeWorker_mu s
  unfold AState.clientStep at hs
  cases hc : s.cpc with
  | idle => rw [hc] at hs; cases hs
  | lock size =>
    rw [hc] at hs hmu
    simp only [] at hs
    split at hs
    · injection hs with hs
      subst hs
      refine lt_of_eq_of_lt (by exact mu_eq (s := s) rfl rfl) ?_
      rw [hmu]
      simp only [CPc.rank, CPc.stage]; omega
    · cases hs
  | check size =>
    rw [hc] at hs hmu
    simp only [] at hs
    split at hs
    · injection hs with hs
      subst hs
      refine lt_of_eq_of_lt (by exact mu_eq (s := s) rfl rfl) ?_
      rw [hmu]
      simp only [CPc.rank, CPc.stage]; omega
    · injection hs with hs
      subst hs
      refine lt_of_eq_of_lt (by exact mu_eq (s := s) rfl rfl) ?_
      rw [hmu]
      simp only [CPc.rank, CPc.stage]; omega
  | park size =>
    rw [hc] at hs hmu
    injection hs with hs
    subst hs
    refine lt_of_eq_of_lt (by exact mu_eq (s := s) rfl rfl) ?_
    rw [hmu]
    simp only [CPc.rank, CPc.stage]; omega
  | sleep size => rw [hc] at hs; cases hs
  | body size =>
    have hcf := h.cf
    rw [hc] at hs hmu hcf
    have f1 := hcf.1
    simp only [AState.finishRead] at hs
    split at hs
    · injection hs with hs
      subst hs
      refine lt_of_eq_of_lt (by exact mu_eq (s := s) rfl rfl) ?_
      rw [hmu]
      simp only [CPc.rank, CPc.stage]; omega
    · split at hs
      · rename_i hge
        rw [hcount] at hge
        have hcp := h.cp
        have hpc := h.pc
        have hdb : (if s.dataBegin + size ≥ s.ring then s.dataBegin + size - s.ring else s.dataBegin + size) = (c + size) % (5 * B) := by
          rw [ring_eq hu h.bs, h.db, mod_add_le (by omega) (by omega)]
          split <;> split <;> omega
        rw [hdb] at hs
        rw [wakeWorker_eq] at hs
        split at hs
        · injection hs with hs
          have hc' : s'.count = p - (c + size) := by
            rw [← hs]
            show howMany s.ring ((c + size) % (5 * B)) s.dataEnd = _
            rw [ring_eq hu h.bs, h.de, howMany_mod (by omega) (by omega)]
          have e1 : s'.wpc = s.wakeWorker.wpc := by rw [← hs]
          have e2 : s'.cpc = .idle := by rw [← hs]
          have e3 : s'.blockSize = B := by rw [← hs]; exact h.bs
          rw [hmu]
          unfold AState.mu
          rw [hc', e1, e2, e3, hcount, hbs]
          simp only [CPc.rank, CPc.stage]
          omega
        · cases hs
      · split at hs
        · injection hs with hs
          subst hs
          refine lt_of_eq_of_lt (by exact mu_eq (s := s) rfl rfl) ?_
          rw [hmu]
          simp only [CPc.rank, CPc.stage]; omega
        · cases hs
  | dlock =>
    rw [hc] at hs hmu
    simp only [] at hs
    split at hs
    · injection hs with hs
      subst hs
      refine lt_of_eq_of_lt (by exact mu_eq (s := s) rfl rfl) ?_
      rw [hmu]
      simp only [CPc.rank, CPc.stage]; omega
    · cases hs
  | dnotify =>
    rw [hc] at hs hmu
    injection hs with hs
    rw [wakeWorker_eq] at hs
    subst hs
    refine lt_of_eq_of_lt (by exact mu_eq (s := s) rfl rfl) ?_
    rw [hmu]
    simp only [CPc.rank, CPc.stage]; omega
  | djoin =>
    rw [hc] at hs hmu
    simp only [] at hs
    split at hs
    · injection hs with hs
      subst hs
      refine lt_of_eq_of_lt (by exact mu_eq (s := s) rfl rfl) ?_
      rw [hmu]
      simp only [CPc.rank, CPc.stage]; omega
    · cases hs
  | destroyed => rw [hc] at hs; cases hs

/-- Spurious wakeups cost at most 70 steps. -/
theorem spurious_mu {e : AEvent} (he : e = .spuriousWorker ∨ e = .spuriousClient) (hs : s.step e = .ok s') : s'.mu ≤ s.mu + 70 := by
  have hmu := mu_eq (s := s) (s' := s) rfl rfl
  rcases he with rfl | rfl
  · simp only [AState.step] at hs
    split at hs
    · rename_i hw
      injection hs with hs
      subst hs
      refine le_of_eq_of_le (by exact mu_eq (s := s) rfl rfl) ?_
      rw [hmu, hw]
      simp only [WPc.rank]; omega
    · cases hs
  · simp only [AState.step] at hs
    cases hc : s.cpc <;> rw [hc] at hs <;> try (cases hs; done)
    injection hs with hs
    subst hs
    refine le_of_eq_of_le (by exact mu_eq (s := s) rfl rfl) ?_
    rw [hmu, hc]
    simp only [CPc.rank, CPc.stage]; omega

theorem mu_le (h : s.blockSize = B) : s.mu ≤ 600 * B + 173 := by
  unfold AState.mu
  rw [h]
  have h1 : s.wpc.rank ≤ 7 := by cases s.wpc <;> simp [WPc.rank]
  have h2 : s.cpc.rank ≤ 3 := by cases s.cpc <;> simp [CPc.rank]
  have h3 : s.cpc.stage B ≤ 100 * B + 100 := by cases s.cpc <;> simp [CPc.stage]
  omega

/-- The number of steps of the threads in an execution without new calls. -/
def stepsOf (es : List AEvent) : Nat := es.count .worker + es.count .client

/-- The number of spurious wakeups. -/
def spuriousOf (es : List AEvent) : Nat := es.count .spuriousWorker + es.count .spuriousClient

theorem run_mu (hB : 0 < B) (hu : 6 * B < u32) : ∀ (es : List AEvent) (s s' : AState) (c p : Nat), AInv B src s c p →
    (∀ e ∈ es, e = .worker ∨ e = .client ∨ e = .spuriousWorker ∨ e = .spuriousClient) → s.run es = .ok s' →
    stepsOf es + s'.mu ≤ s.mu + 70 * spuriousOf es
  | [], s, s', c, p, h, _, hr => by
    injection hr with hr
    subst hr
    simp [stepsOf, spuriousOf]
  | e :: es, s, s', c, p, h, he, hr => by
    obtain ⟨s1, e1, hr⟩ := Res.bind_eq_ok.1 hr
    have hk := step_inv hB hu h e
    rw [e1] at hk
    obtain ⟨c1, p1, h1⟩ := hk
    have ih := run_mu hB hu es s1 s' c1 p1 h1 (fun x hx => he x (List.mem_cons_of_mem _ hx)) hr
    have hcase := he e List.mem_cons_self
    unfold stepsOf spuriousOf at ih ⊢
    rcases hcase with rfl | rfl | rfl | rfl
    · have := workerStep_mu hB hu h e1
      simp only [List.count_cons]; simp; omega
    · have := clientStep_mu hB hu h e1
      simp only [List.count_cons]; simp; omega
    · have := spurious_mu (Or.inl rfl) e1
      simp only [List.count_cons]; simp; omega
    · have := spurious_mu (Or.inr rfl) e1
      simp only [List.count_cons]; simp; omega

end RK
