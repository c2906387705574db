import Verif.Proof.CchParallelRun
import Verif.Spec.Vector
/-! # Property theorem C28 (customizable_contraction_hierarchy.cpp, parallel customization) -/
namespace RK.Props
open Spec RK

/-- C28. The parallel customization never accesses a vector out of bounds, never gets stuck, and whatever the
interleaving of the memory accesses of the iterations: when it is finished, the metric is the one computed by the
sequential customization. -/
theorem C28_every_interleaving (order tail head : List Nat) (callable filter : Bool) (junk : Nat → Nat → Word) (c : Cch)
    (h : CchInput order tail head callable filter) (hb : Cch.build order tail head callable filter junk = some c)
    (w : List Nat) (hwl : w.length = tail.length) (hw : ∀ v ∈ w, v ≤ infWeight)
    (m : Metric) (hf : m.forward.length = c.cchArcCount) (hbw : m.backward.length = c.cchArcCount) :
    ∃ par phases m', Parallelization.new c = some par ∧ parallelPhases c w par = some phases ∧ m.customize c w = some m' ∧
      ∀ s, ParReach ⟨m, [], phases⟩ s →
        ¬ s.undefined ∧ (s.finished ∨ ∃ s', ParStep s s') ∧ (s.finished → s.mem = m') := by
  obtain ⟨rt, rh, U, T, H, h1, h2, h3, h4, h5, h6, h7, _⟩ := cch_built h hb
  have hlen := h7.graph.up.sorted.1
  have hwl' : w.length = rt.length := by rw [hwl, h2.1]
  have hw' : WeightsOk w := fun _ _ hi => hw _ (List.mem_of_getElem? hi)
  have l1 : m.forward.length = c.upTail.length := hf.trans hlen.symm
  have l2 : m.backward.length = c.upTail.length := hbw.trans hlen.symm
  have hsmall : c.upTail.length < 2 ^ 32 := by have := h7.small; unfold invalidId at this; omega
  obtain ⟨par, level, cnt, e1, hpar⟩ := parallelization_spec h7.graph h7.nodes hsmall
  obtain ⟨init, levels, e2, hprog, V0, hV0, hx0⟩ := parallelPhases_spec h7 hwl' hw' hpar l1 l2
  obtain ⟨m', f, b, e3, hm', hc'⟩ := customize_inv h7 hwl' hw' l1 l2
  refine ⟨par, init :: levels, m', e1, e2, e3, ?_⟩
  intro s hs
  have hinv : PoolInv c rt rh w level m init levels s := by
    induction hs with
    | refl => exact .before
    | step _ hstep ih => exact ih.step h7 hpar.levels hprog hV0 hx0 hstep
  have hprogress : ∀ t ∈ s.tasks, t.prog ≠ [] → ∃ i r, rd s.tasks i = some t ∧ stepTask s.mem t = some r := by
    intro t ht hne
    obtain ⟨i, hi⟩ := mem_iff_rd.1 ht
    obtain ⟨m1, t1, e, _⟩ := hinv.task h7 hpar.levels hi hne
    exact ⟨i, _, hi, e⟩
  refine ⟨?_, ?_, ?_⟩
  · rintro ⟨t, ht, hne, hno⟩
    obtain ⟨i, r, _, e⟩ := hprogress t ht hne
    rw [e] at hno
    cases hno
  · by_cases hall : ∀ t ∈ s.tasks, t.prog = []
    · obtain ⟨mem, ts, ph⟩ := s
      cases ph with
      | nil => exact Or.inl ⟨rfl, hall⟩
      | cons p ph => exact Or.inr ⟨_, .barrier hall⟩
    · right
      have : ∃ t ∈ s.tasks, t.prog ≠ [] := by
        by_contra hno
        exact hall fun t ht => by
          by_contra hne
          exact hno ⟨t, ht, hne⟩
      obtain ⟨t, ht, hne⟩ := this
      obtain ⟨i, ⟨m1, t1⟩, hi, e⟩ := hprogress t ht hne
      obtain ⟨mem, ts, ph⟩ := s
      exact ⟨_, .task i hi e⟩
  · intro hfin
    obtain ⟨V, hV, hc⟩ := hinv.final h7 hpar.levels hprog hfin
    exact metricIs_eq hV hm' fun a ha => hc.unique h7 hwl' hc' ha

/-- C28. No interleaving goes on forever: there is no infinite sequence of steps. -/
theorem C28_terminates : ¬ ∃ f : Nat → Pool, ∀ i, ParStep (f i) (f (i + 1)) := by
  rintro ⟨f, hf⟩
  have key : ∀ s, ∀ i, f i = s → False := by
    intro s
    induction s using parStep_wf.induction with
    | _ s ih =>
      rintro i rfl
      exact ih _ (hf i) (i + 1) rfl
  exact key _ 0 rfl

/-- C28. For every number of threads, `customize(metric, thread_count)` has exactly one possible result: that of the
sequential `metric.customize()`. -/
theorem C28_parallel_equals_sequential (order tail head : List Nat) (callable filter : Bool) (junk : Nat → Nat → Word) (c : Cch)
    (h : CchInput order tail head callable filter) (hb : Cch.build order tail head callable filter junk = some c)
    (w : List Nat) (hwl : w.length = tail.length) (hw : ∀ v ∈ w, v ≤ infWeight)
    (m : Metric) (hf : m.forward.length = c.cchArcCount) (hbw : m.backward.length = c.cchArcCount)
    (threads : Nat) (ht : threads ≠ 0) :
    ∃ par, Parallelization.new c = some par ∧
      ∀ m', ParallelCustomize c par w threads m m' ↔ m.customize c w = some m' := by
  obtain ⟨par, phases, m0, e1, e2, e3, hall⟩ := C28_every_interleaving order tail head callable filter junk c h hb w hwl hw m hf hbw
  refine ⟨par, e1, ?_⟩
  intro m'
  constructor
  · intro hp
    cases hp with
    | sequential _ e => exact e
    | @parallel ph s _ _ e hr hfin _ =>
      cases (e.symm.trans e2 : some ph = some phases)
      rw [(hall s hr).2.2 hfin]
      exact e3
  · intro e
    cases (e.symm.trans e3 : some m' = some m0)
    by_cases h1 : threads = 1
    · exact .sequential h1 e3
    · obtain ⟨s, hr, hstuck⟩ := parReach_stuck ⟨m, [], phases⟩
      obtain ⟨_, hq, heq⟩ := hall s hr
      have hfin : s.finished := by
        rcases hq with hq | ⟨s', hs'⟩
        · exact hq
        · exact absurd hs' (hstuck s')
      have hmem := heq hfin
      rw [← hmem]
      refine .parallel ht h1 e2 hr hfin ?_
      rw [hmem]
      unfold Metric.customize at e3
      obtain ⟨m1, _, e3⟩ := Option.bind_eq_some_iff.1 e3
      obtain ⟨⟨_, m2⟩, _, e3⟩ := Option.bind_eq_some_iff.1 e3
      obtain ⟨u, e4, e3⟩ := Option.bind_eq_some_iff.1 e3
      cases e3
      exact e4

private def exTail : List Nat := [0, 1, 2, 3, 0, 1, 1]
private def exHead : List Nat := [1, 2, 3, 0, 1, 1, 0]
private def exOrder : List Nat := [3, 1, 0, 2]

set_option maxRecDepth 10000 in
example : CchInput exOrder exTail exHead true false ∧
    ((Cch.build exOrder exTail exHead true false (fun _ _ => 0)).bind fun c => Parallelization.new c) =
      some ⟨[0, 4, 5, 5], [0, 1, 2, 3, 4]⟩ ∧
    ((Cch.build exOrder exTail exHead true false (fun _ _ => 0)).bind fun c => (Parallelization.new c).bind fun par =>
      (parallelPhases c [5, 6, 7, 8, 4, 1, 9] par).map fun ph => ph.map fun p => p.map List.length) =
      some [[2, 2, 3, 2, 2], [2, 0, 2, 0], [0], []] := by
  refine ⟨⟨by unfold IsPermutation; decide, by decide, by decide, by decide, by decide, by decide, Or.inl rfl⟩, ?_, ?_⟩ <;>
    decide +kernel

end RK.Props
