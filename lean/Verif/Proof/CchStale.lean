import Verif.Model.CchRace
import Verif.Proof.CchParallelRun
/-! Helper lemmas: executions with outdated loads are simulated by executions without. -/
namespace RK
open Spec

theorem poolRun_reach : ∀ (is : List (Option Nat)) {s s' : Pool}, s.run is = some s' → ParReach s s'
  | [], s, s', h => by cases h; exact .refl
  | none :: is, ⟨m, ts, ph⟩, s', h => by
    cases ph with
    | nil => cases h
    | cons p ph =>
      unfold Pool.run at h
      simp only at h
      split at h
      · next hall =>
        refine (ParReach.step .refl (.barrier ?_)).trans (poolRun_reach is h)
        intro t ht
        simpa using List.all_eq_true.1 hall t ht
      · cases h
  | some i :: is, ⟨m, ts, ph⟩, s', h => by
    unfold Pool.run at h
    obtain ⟨t, h1, h⟩ := Option.bind_eq_some_iff.1 h
    obtain ⟨⟨m', t'⟩, h2, h⟩ := Option.bind_eq_some_iff.1 h
    exact (ParReach.step .refl (.task i h1 h2)).trans (poolRun_reach is h)

def Instr.isRelax : Instr → Prop
  | .relax _ _ => True
  | _ => False

/-- All iterations extract, or all iterations relax. -/
def PureProgs (ps : List (List Instr)) : Prop :=
  (∀ p ∈ ps, ∀ i ∈ p, ¬ i.isRelax) ∨ ∀ p ∈ ps, ∀ i ∈ p, i.isRelax

/-- The invariant of the tasks: nothing is out of date, or the weights have only become smaller since the barrier. -/
def StaleOk (s : StalePool) : Prop :=
  (∀ t ∈ s.pool.tasks, ∀ i ∈ t.prog, ¬ i.isRelax) ∨
  ((∀ t ∈ s.pool.tasks, (∀ i ∈ t.prog, i.isRelax) ∧ ∀ y z, t.reg = .cas y z → y < z) ∧
    ∀ d a z, z ∈ s.old d a → ∃ v, rd (s.pool.mem.side d) a = some v ∧ v ≤ z)

/-- How a task relates to the task of the execution without outdated loads. -/
def TaskSim (m : Metric) (t u : Task) : Prop :=
  t = u ∨ ∃ d T p y z v, t = ⟨.relax d T :: p, .cas y z⟩ ∧ u = ⟨.relax d T :: p, .sum y⟩ ∧
    rd (m.side d) T.top = some v ∧ v < z

structure StaleSim (w : StalePool) (s : Pool) : Prop where
  mem : s.mem = w.pool.mem
  phases : s.phases = w.pool.phases
  pure : ∀ ps ∈ w.pool.phases, PureProgs ps
  ok : StaleOk w
  len : s.tasks.length = w.pool.tasks.length
  tasks : ∀ i t, rd w.pool.tasks i = some t → ∃ u, rd s.tasks i = some u ∧ TaskSim w.pool.mem t u

theorem wrSide_rd {m m' : Metric} {d : Bool} {a v : Nat} (h : m.wrSide d a v = some m') (e : Bool) (b : Nat) :
    rd (m'.side e) b = if e = d ∧ b = a then some v else rd (m.side e) b := by
  unfold Metric.wrSide at h
  obtain ⟨s, h1, h⟩ := Option.bind_eq_some_iff.1 h
  cases h
  unfold wr at h1
  split at h1
  · next hlt =>
    cases h1
    cases d <;> cases e <;> simp [Metric.side] at hlt ⊢
    · rw [rd_set hlt]
    · rw [rd_set hlt]
  · cases h1

/-- Relaxations only make weights smaller. -/
theorem stepTask_relax_le {m m' : Metric} {t t' : Task} (h : stepTask m t = some (m', t')) (hr : ∀ i ∈ t.prog, i.isRelax)
    (hc : ∀ y z, t.reg = .cas y z → y < z) :
    (∀ d a v, rd (m.side d) a = some v → ∃ v', rd (m'.side d) a = some v' ∧ v' ≤ v) ∧
      (∀ i ∈ t'.prog, i.isRelax) ∧ ∀ y z, t'.reg = .cas y z → y < z := by
  have same : ∀ d a v, rd (m.side d) a = some v → ∃ v', rd (m.side d) a = some v' ∧ v' ≤ v := fun d a v h => ⟨v, h, Nat.le_refl _⟩
  match t, h with
  | ⟨.store d a v :: p, .start⟩, h => exact (hr _ List.mem_cons_self).elim
  | ⟨.minStore d a v :: p, .start⟩, h => exact (hr _ List.mem_cons_self).elim
  | ⟨.minStore d a v :: p, .seen⟩, h => exact (hr _ List.mem_cons_self).elim
  | ⟨.relax d T :: p, .start⟩, h =>
    obtain ⟨x, _, h⟩ := Option.bind_eq_some_iff.1 h
    cases h
    exact ⟨same, hr, by simp⟩
  | ⟨.relax d T :: p, .loaded u⟩, h =>
    obtain ⟨x, _, h⟩ := Option.bind_eq_some_iff.1 h
    cases h
    exact ⟨same, hr, by simp⟩
  | ⟨.relax d T :: p, .sum y⟩, h =>
    obtain ⟨x, hx, h⟩ := Option.bind_eq_some_iff.1 h
    cases h
    refine ⟨same, ?_, ?_⟩
    · split
      · exact hr
      · exact fun i hi => hr i (List.mem_cons_of_mem _ hi)
    · intro y' z'
      split
      · next hlt =>
        intro e
        cases e
        exact hlt
      · intro e
        cases e
  | ⟨.relax d T :: p, .cas y z⟩, h =>
    obtain ⟨x, hx, h⟩ := Option.bind_eq_some_iff.1 h
    by_cases hz : x = z
    · rw [if_pos hz] at h
      obtain ⟨m1, hw, h⟩ := Option.bind_eq_some_iff.1 h
      cases h
      subst hz
      refine ⟨?_, fun i hi => hr i (List.mem_cons_of_mem _ hi), fun _ _ e => (by cases e)⟩
      intro e a v hv
      rw [wrSide_rd hw]
      by_cases hea : e = d ∧ a = T.top
      · rw [if_pos hea]
        obtain ⟨rfl, rfl⟩ := hea
        cases (hv.symm.trans hx : some v = some x)
        exact ⟨y, rfl, Nat.le_of_lt (hc _ _ rfl)⟩
      · rw [if_neg hea]
        exact ⟨v, hv, Nat.le_refl _⟩
    · rw [if_neg hz] at h
      cases h
      exact ⟨same, hr, fun _ _ e => (by cases e)⟩

theorem stepTask_sub {m m' : Metric} {t t' : Task} (h : stepTask m t = some (m', t')) : ∀ i ∈ t'.prog, i ∈ t.prog := by
  match t, h with
  | ⟨.store d a v :: p, .start⟩, h =>
    obtain ⟨m1, _, h⟩ := Option.bind_eq_some_iff.1 h
    cases h
    exact fun i hi => List.mem_cons_of_mem _ hi
  | ⟨.minStore d a v :: p, .start⟩, h =>
    obtain ⟨x, _, h⟩ := Option.bind_eq_some_iff.1 h
    cases h
    split
    · exact fun i hi => hi
    · exact fun i hi => List.mem_cons_of_mem _ hi
  | ⟨.minStore d a v :: p, .seen⟩, h =>
    obtain ⟨m1, _, h⟩ := Option.bind_eq_some_iff.1 h
    cases h
    exact fun i hi => List.mem_cons_of_mem _ hi
  | ⟨.relax d T :: p, .start⟩, h =>
    obtain ⟨x, _, h⟩ := Option.bind_eq_some_iff.1 h
    cases h
    exact fun i hi => hi
  | ⟨.relax d T :: p, .loaded u⟩, h =>
    obtain ⟨x, _, h⟩ := Option.bind_eq_some_iff.1 h
    cases h
    exact fun i hi => hi
  | ⟨.relax d T :: p, .sum y⟩, h =>
    obtain ⟨x, hx, h⟩ := Option.bind_eq_some_iff.1 h
    cases h
    split
    · exact fun i hi => hi
    · exact fun i hi => List.mem_cons_of_mem _ hi
  | ⟨.relax d T :: p, .cas y z⟩, h =>
    obtain ⟨x, hx, h⟩ := Option.bind_eq_some_iff.1 h
    by_cases hz : x = z
    · rw [if_pos hz] at h
      obtain ⟨m1, _, h⟩ := Option.bind_eq_some_iff.1 h
      cases h
      exact fun i hi => List.mem_cons_of_mem _ hi
    · rw [if_neg hz] at h
      cases h
      exact fun i hi => hi

theorem TaskSim.mono {m m' : Metric} {t u : Task} (h : TaskSim m t u)
    (hm : ∀ d a v, rd (m.side d) a = some v → ∃ v', rd (m'.side d) a = some v' ∧ v' ≤ v) : TaskSim m' t u := by
  rcases h with h | ⟨d, T, p, y, z, v, h1, h2, h3, h4⟩
  · exact Or.inl h
  · obtain ⟨v', e, hle⟩ := hm _ _ _ h3
    exact Or.inr ⟨d, T, p, y, z, v', h1, h2, e, by omega⟩

theorem TaskSim.noRelax {m m' : Metric} {t u : Task} (h : TaskSim m t u) (hn : ∀ i ∈ t.prog, ¬ i.isRelax) : TaskSim m' t u := by
  rcases h with h | ⟨d, T, p, y, z, v, rfl, _⟩
  · exact Or.inl h
  · exact absurd (show (Instr.relax d T).isRelax from trivial) (hn _ (by simp))

theorem StaleSim.step {w w' : StalePool} {s : Pool} (h : StaleSim w s) (hs : StaleStep w w') :
    ∃ s', ParReach s s' ∧ StaleSim w' s' := by
  obtain ⟨sm, st, sp⟩ := s
  cases hs with
  | @task m m' ts ph old i t t' hi he =>
    have e1 := h.mem
    have e2 := h.phases
    simp only at e1 e2
    subst e1
    subst e2
    obtain ⟨u, hu, hsim⟩ := h.tasks i t hi
    simp only at hu hsim
    have hlt := rd_some_lt hi
    have hlt' := rd_some_lt hu
    have hlen : st.length = ts.length := h.len
    -- the state of the other tasks
    have rest : (∀ j v, j ≠ i → ∀ q, TaskSim sm q v → q ∈ ts → TaskSim m' q v) ∧
        StaleOk ⟨⟨m', ts.set i t', sp⟩, recordValues sm old⟩ := by
      rcases h.ok with hn | ⟨hr, hold⟩
      · refine ⟨fun j v _ q hq hmem => hq.noRelax (hn q hmem), Or.inl ?_⟩
        intro q hq
        rcases mem_set_cases hq with rfl | hq
        · exact fun k hk => hn t (mem_iff_rd.2 ⟨i, hi⟩) k (stepTask_sub he k hk)
        · exact hn q hq
      · obtain ⟨q1, q2, q3⟩ := stepTask_relax_le he (hr t (mem_iff_rd.2 ⟨i, hi⟩)).1 (hr t (mem_iff_rd.2 ⟨i, hi⟩)).2
        refine ⟨fun j v _ q hq _ => hq.mono q1, Or.inr ⟨?_, ?_⟩⟩
        · intro q hq
          rcases mem_set_cases hq with rfl | hq
          · exact ⟨q2, q3⟩
          · exact hr q hq
        · intro d a z hz
          have old_le : z ∈ old d a → ∃ v, rd (m'.side d) a = some v ∧ v ≤ z := by
            intro hz
            obtain ⟨v, r1, r2⟩ := hold d a z hz
            obtain ⟨v', r3, r4⟩ := q1 d a v r1
            exact ⟨v', r3, by omega⟩
          simp only [recordValues] at hz
          split at hz
          · next v hv =>
            rcases List.mem_cons.1 hz with rfl | hz
            · exact q1 d a _ hv
            · exact old_le hz
          · exact old_le hz
    rcases hsim with rfl | ⟨d, T, p, y, z, v, rfl, rfl, hv, hvz⟩
    · refine ⟨⟨m', st.set i t', sp⟩, .step .refl (.task i hu he), ⟨rfl, rfl, h.pure, rest.2, by simpa using hlen, ?_⟩⟩
      intro j q hq
      simp only at hq ⊢
      rw [rd_set hlt] at hq
      rw [rd_set hlt']
      by_cases hj : j = i
      · rw [if_pos hj] at hq
        cases hq
        rw [if_pos hj]
        exact ⟨_, rfl, Or.inl rfl⟩
      · rw [if_neg hj] at hq
        rw [if_neg hj]
        obtain ⟨u', hu', hs'⟩ := h.tasks j q hq
        exact ⟨u', hu', rest.1 j u' hj q hs' (mem_iff_rd.2 ⟨j, hq⟩)⟩
    · -- the compare-and-swap fails
      have : stepTask sm ⟨.relax d T :: p, .cas y z⟩ = some (sm, ⟨.relax d T :: p, .sum y⟩) := by
        show (rd (sm.side d) T.top).bind _ = _
        rw [hv]
        show (if v = z then _ else _) = _
        rw [if_neg (by omega)]
      rw [this] at he
      cases he
      refine ⟨⟨sm, st, sp⟩, .refl, ⟨rfl, rfl, h.pure, rest.2, by simpa using hlen, ?_⟩⟩
      intro j q hq
      simp only at hq ⊢
      rw [rd_set hlt] at hq
      by_cases hj : j = i
      · rw [if_pos hj] at hq
        cases hq
        subst hj
        exact ⟨_, hu, Or.inl rfl⟩
      · rw [if_neg hj] at hq
        exact h.tasks j q hq
  | @stale m ts ph old i d T p y z hi hz =>
    have e1 := h.mem
    have e2 := h.phases
    simp only at e1 e2
    subst e1
    subst e2
    have hlt := rd_some_lt hi
    have hlen : st.length = ts.length := h.len
    obtain ⟨u, hu, hsim⟩ := h.tasks i _ hi
    simp only at hu hsim
    have hlt' := rd_some_lt hu
    have hu' : rd st i = some ⟨.relax d T :: p, .sum y⟩ := by
      rcases hsim with rfl | ⟨_, _, _, _, _, _, e, _⟩
      · exact hu
      · cases e
    have hmem : (⟨.relax d T :: p, .sum y⟩ : Task) ∈ ts := mem_iff_rd.2 ⟨i, hi⟩
    rcases h.ok with hn | ⟨hr, hold⟩
    · exact absurd (show (Instr.relax d T).isRelax from trivial) (hn _ hmem _ (by simp))
    · obtain ⟨v, hv, hvz⟩ := hold d T.top z hz
      simp only at hv
      have hok : StaleOk ⟨⟨sm, ts.set i (if y < z then ⟨.relax d T :: p, .cas y z⟩ else ⟨p, .start⟩), sp⟩, old⟩ := by
        refine Or.inr ⟨?_, hold⟩
        intro q hq
        rcases mem_set_cases hq with rfl | hq
        · split
          · next hlt => exact ⟨(hr _ hmem).1, fun _ _ e => (by cases e; exact hlt)⟩
          · exact ⟨fun k hk => (hr _ hmem).1 k (List.mem_cons_of_mem _ hk), fun _ _ e => (by cases e)⟩
        · exact hr q hq
      have hstep : stepTask sm ⟨.relax d T :: p, .sum y⟩ =
          some (sm, if y < v then ⟨.relax d T :: p, .cas y v⟩ else ⟨p, .start⟩) := by
        show (rd (sm.side d) T.top).bind _ = _
        rw [hv]
        rfl
      have others : ∀ (t' u' : Task), TaskSim sm t' u' → ∀ j q, rd (ts.set i t') j = some q →
          ∃ u, rd (st.set i u') j = some u ∧ TaskSim sm q u := by
        intro t' u' hs j q hq
        rw [rd_set hlt] at hq
        rw [rd_set hlt']
        by_cases hj : j = i
        · rw [if_pos hj] at hq
          cases hq
          rw [if_pos hj]
          exact ⟨_, rfl, hs⟩
        · rw [if_neg hj] at hq
          rw [if_neg hj]
          exact h.tasks j q hq
      by_cases hyz : y < z
      · by_cases hvz' : v = z
        · subst hvz'
          refine ⟨_, .step .refl (.task i hu' hstep), ⟨rfl, rfl, h.pure, hok, by simpa using hlen, ?_⟩⟩
          exact others _ _ (Or.inl rfl)
        · refine ⟨_, .refl, ⟨rfl, rfl, h.pure, hok, by simpa using hlen, ?_⟩⟩
          rw [if_pos hyz]
          intro j q hq
          have := others ⟨.relax d T :: p, .cas y z⟩ ⟨.relax d T :: p, .sum y⟩
            (Or.inr ⟨d, T, p, y, z, v, rfl, rfl, hv, by omega⟩) j q hq
          rw [rd_set hlt'] at this
          by_cases hj : j = i
          · rw [if_pos hj] at this
            subst hj
            rwa [← hu'] at this
          · rwa [if_neg hj] at this
      · rw [if_neg (by omega : ¬ y < v)] at hstep
        refine ⟨_, .step .refl (.task i hu' hstep), ⟨rfl, rfl, h.pure, hok, by simpa using hlen, ?_⟩⟩
        rw [if_neg hyz]
        exact others _ _ (Or.inl rfl)
  | @barrier m ts p ph old hdone =>
    have e1 := h.mem
    have e2 := h.phases
    simp only at e1 e2
    subst e1
    subst e2
    have hd : ∀ t ∈ st, t.prog = [] := by
      intro u hu
      obtain ⟨i, hi⟩ := mem_iff_rd.1 hu
      have hlen : st.length = ts.length := h.len
      obtain ⟨t, ht⟩ := rd_isSome (v := ts) (i := i) (by have := rd_some_lt hi; omega)
      obtain ⟨u', hu', hs⟩ := h.tasks i t ht
      simp only at hu'
      cases (hi.symm.trans hu' : some u = some u')
      have ht0 := hdone t (mem_iff_rd.2 ⟨i, ht⟩)
      rcases hs with rfl | ⟨_, _, _, _, _, _, rfl, _⟩
      · exact ht0
      · cases ht0
    refine ⟨_, .step .refl (.barrier hd), ⟨rfl, rfl, fun ps hps => h.pure ps (List.mem_cons_of_mem _ hps), ?_, rfl, ?_⟩⟩
    · have hp := h.pure p (by simp)
      rcases hp with hp | hp
      · left
        intro t ht
        obtain ⟨q, hq, rfl⟩ := List.mem_map.1 ht
        exact hp q hq
      · right
        refine ⟨?_, fun _ _ _ hz => (by cases hz)⟩
        intro t ht
        obtain ⟨q, hq, rfl⟩ := List.mem_map.1 ht
        exact ⟨hp q hq, fun _ _ e => (by cases e)⟩
    · intro i t ht
      exact ⟨t, ht, Or.inl rfl⟩

theorem StaleSim.reach {w w' : StalePool} {s : Pool} (h : StaleSim w s) (hr : StaleReach w w') :
    ∃ s', ParReach s s' ∧ StaleSim w' s' := by
  induction hr with
  | refl => exact ⟨s, .refl, h⟩
  | step _ hs ih =>
    obtain ⟨s1, r1, h1⟩ := ih
    obtain ⟨s2, r2, h2⟩ := h1.step hs
    exact ⟨s2, r1.trans r2, h2⟩

theorem StaleSim.undefined {w : StalePool} {s : Pool} (h : StaleSim w s) (hu : w.pool.undefined) : s.undefined := by
  obtain ⟨t, ht, h1, h2⟩ := hu
  obtain ⟨i, hi⟩ := mem_iff_rd.1 ht
  obtain ⟨u, hu, hs⟩ := h.tasks i t hi
  rcases hs with rfl | ⟨d, T, p, y, z, v, rfl, rfl, hv, hvz⟩
  · exact ⟨t, mem_iff_rd.2 ⟨i, hu⟩, h1, by rw [h.mem]; exact h2⟩
  · exfalso
    have : stepTask w.pool.mem ⟨.relax d T :: p, .cas y z⟩ = some (w.pool.mem, ⟨.relax d T :: p, .sum y⟩) := by
      show (rd (w.pool.mem.side d) T.top).bind _ = _
      rw [hv]
      show (if v = z then _ else _) = _
      rw [if_neg (by omega)]
    rw [this] at h2
    cases h2

theorem StaleSim.finished {w : StalePool} {s : Pool} (h : StaleSim w s) (hf : w.pool.finished) : s.finished := by
  refine ⟨h.phases.trans hf.1, ?_⟩
  intro u hu
  obtain ⟨i, hi⟩ := mem_iff_rd.1 hu
  obtain ⟨t, ht⟩ := rd_isSome (v := w.pool.tasks) (i := i) (by have := rd_some_lt hi; have := h.len; omega)
  obtain ⟨u', hu', hs⟩ := h.tasks i t ht
  cases (hi.symm.trans hu' : some u = some u')
  have ht0 := hf.2 t (mem_iff_rd.2 ⟨i, ht⟩)
  rcases hs with rfl | ⟨_, _, _, _, _, _, rfl, _⟩
  · exact ht0
  · cases ht0

theorem StaleReach.trans {s t u : StalePool} (h1 : StaleReach s t) (h2 : StaleReach t u) : StaleReach s u := by
  induction h2 with
  | refl => exact h1
  | step _ h ih => exact .step ih h

/-- Every execution without outdated loads is one with. -/
theorem staleReach_of {s s' : Pool} (h : ParReach s s') (old : Bool → Nat → List Nat) : ∃ old', StaleReach ⟨s, old⟩ ⟨s', old'⟩ := by
  induction h with
  | refl => exact ⟨old, .refl⟩
  | step _ hs ih =>
    obtain ⟨o, hr⟩ := ih
    cases hs with
    | task i h1 h2 => exact ⟨_, .step hr (.task i h1 h2)⟩
    | barrier h1 => exact ⟨_, .step hr (.barrier h1)⟩

end RK
