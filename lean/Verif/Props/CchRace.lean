import Verif.Proof.CchStale
import Verif.Props.CchParallel
/-! # Property theorems C93 (customizable_contraction_hierarchy.cpp, the memory accesses of the parallel customization) -/
namespace RK.Props
open Spec RK

/-- Two different iterations of a parallel loop are about to access the same weight, one of them writes, and not both accesses are atomic. -/
def WeightRace (s : Pool) (t u : Task) : Prop :=
  ∃ i j a b, i ≠ j ∧ rd s.tasks i = some t ∧ rd s.tasks j = some u ∧ t.access = some a ∧ u.access = some b ∧
    a.forward = b.forward ∧ a.arc = b.arc ∧ (a.writes = true ∨ b.writes = true) ∧ ¬ (a.atomic = true ∧ b.atomic = true)

/-- One task is about to load the weight which it wants to make smaller (line 810 or 812), and the other one is about to replace the weight of the same
arc (line 811). -/
def RetryRace (t u : Task) : Prop :=
  ∃ d T T' p p' y y' z, t = ⟨.relax d T :: p, .sum y⟩ ∧ u = ⟨.relax d T' :: p', .cas y' z⟩ ∧ T.top = T'.top

theorem access_local {a : Nat} {t : Task} {x : WeightAccess} (h : ∀ i ∈ t.prog, isLocal a i) (hx : t.access = some x) : x.arc = a := by
  match t, h, hx with
  | ⟨.store d b v :: p, .start⟩, h, hx =>
    cases hx
    exact h _ List.mem_cons_self
  | ⟨.minStore d b v :: p, .start⟩, h, hx =>
    cases hx
    exact h _ List.mem_cons_self
  | ⟨.minStore d b v :: p, .seen⟩, h, hx =>
    cases hx
    exact h _ List.mem_cons_self
  | ⟨.relax d T :: p, _⟩, h, _ => exact (h _ List.mem_cons_self).elim

/-- What a task of a level accesses. -/
theorem access_level {tail head level : List Nat} {L : Nat} {V : Bool → Nat → Nat} {t : Task} {x : WeightAccess}
    (h : LevTask tail head level L V t) (hx : t.access = some x) :
    ∃ d T a b c p, t.prog = .relax d T :: p ∧ TriAt tail head T a b c ∧ fn level a = L ∧
      ((x.writes = false ∧ x.arc = T.bottom) ∨ (x.writes = false ∧ x.arc = T.mid) ∨
        (x = ⟨d, T.top, false, false⟩ ∧ ∃ y, t.reg = .sum y) ∨ (x = ⟨d, T.top, true, true⟩ ∧ ∃ y z, t.reg = .cas y z)) := by
  obtain ⟨prog, reg⟩ := t
  cases prog with
  | nil => cases reg <;> cases hx
  | cons i p =>
    obtain ⟨d, T, a, b, c, rfl, hT, hL⟩ := h.instr i List.mem_cons_self
    refine ⟨d, T, a, b, c, p, rfl, hT, hL, ?_⟩
    cases reg with
    | start => cases hx; exact Or.inl ⟨rfl, rfl⟩
    | seen => cases hx
    | loaded u => cases hx; exact Or.inr (Or.inl ⟨rfl, rfl⟩)
    | sum y => cases hx; exact Or.inr (Or.inr (Or.inl ⟨rfl, y, rfl⟩))
    | cas y z => cases hx; exact Or.inr (Or.inr (Or.inr ⟨rfl, y, z, rfl⟩))

/-- C93. In all executions of the parallel customization, the only accesses of two iterations that are in conflict without being atomic are the load of
the weight that is to be made smaller and the compare-and-swap of another iteration on that weight. In particular the extraction of the input weights has
no data race, and neither have the loads of the weights that are added. -/
theorem C93_races_partial (order tail head : List Nat) (callable filter : Bool) (junk : Nat → Nat → Word) (c : Cch)
    (h : CchInput order tail head callable filter) (hb : Cch.build order tail head callable filter junk = some c)
    (w : List Nat) (hwl : w.length = tail.length) (hw : ∀ v ∈ w, v ≤ infWeight)
    (m : Metric) (hf : m.forward.length = c.cchArcCount) (hbw : m.backward.length = c.cchArcCount) :
    ∃ par phases, Parallelization.new c = some par ∧ parallelPhases c w par = some phases ∧
      ∀ s, ParReach ⟨m, [], phases⟩ s → ∀ t u, WeightRace s t u → RetryRace t u ∨ RetryRace u t := by
  obtain ⟨rt, rh, U, T, H, h1, h2, h3, h4, h5, h6, h7, _⟩ := cch_built h hb
  have hlen := h7.graph.up.sorted.1
  have hwl' : w.length = rt.length := by rw [hwl, h2.1]
  have hw' : WeightsOk w := fun _ _ hi => hw _ (List.mem_of_getElem? hi)
  have l1 : m.forward.length = c.upTail.length := hf.trans hlen.symm
  have l2 : m.backward.length = c.upTail.length := hbw.trans hlen.symm
  have hsmall : c.upTail.length < 2 ^ 32 := by have := h7.small; unfold invalidId at this; omega
  obtain ⟨par, level, cnt, e1, hpar⟩ := parallelization_spec h7.graph h7.nodes hsmall
  obtain ⟨init, levels, e2, hprog, V0, hV0, hx0⟩ := parallelPhases_spec h7 hwl' hw' hpar l1 l2
  refine ⟨par, init :: levels, e1, e2, ?_⟩
  intro s hs
  have hinv : PoolInv c rt rh w level m init levels s := by
    induction hs with
    | refl => exact .before
    | step _ hstep ih => exact ih.step h7 hpar.levels hprog hV0 hx0 hstep
  rintro t u ⟨i, j, a, b, hij, hi, hj, ha, hb', hd, harc, hwr, hat⟩
  cases hinv with
  | before => simp [rd] at hi
  | @extract m1 V ts hV hx =>
    obtain ⟨r1, q1, _⟩ := hx.2 i t hi
    obtain ⟨r2, q2, _⟩ := hx.2 j u hj
    have z1 := access_local q1.loc ha
    have z2 := access_local q2.loc hb'
    omega
  | @level m1 V ts L hV hx =>
    obtain ⟨d, T, x, y, z, p, p1, p2, p3, p4⟩ := access_level (hx.tasks t (mem_iff_rd.2 ⟨i, hi⟩)) ha
    obtain ⟨d', T', x', y', z', p', p1', p2', p3', p4'⟩ := access_level (hx.tasks u (mem_iff_rd.2 ⟨j, hj⟩)) hb'
    have low : ∀ {T T' : Tri} {x y z x' y' z' : Nat}, TriAt c.upTail c.upHead T x y z → fn level x = L →
        TriAt c.upTail c.upHead T' x' y' z' → fn level x' = L → T.bottom ≠ T'.top ∧ T.mid ≠ T'.top := by
      intro T T' x y z x' y' z' hT hL hT' hL'
      have hm := hpar.levels.mono _ _ _ hT'.bt hT'.bh
      constructor
      · intro e
        have e' := hT.bt
        rw [e, hT'.tt] at e'
        cases e'
        omega
      · intro e
        have e' := hT.mt
        rw [e, hT'.tt] at e'
        cases e'
        omega
    obtain ⟨tp, tr⟩ := t
    obtain ⟨up, ur⟩ := u
    simp only at p1 p1' p4 p4'
    subst p1 p1'
    have n1 := low p2 p3 p2' p3'
    have n2 := low p2' p3' p2 p3
    rcases p4 with ⟨q, r⟩ | ⟨q, r⟩ | ⟨rfl, k, rfl⟩ | ⟨rfl, k, k', rfl⟩ <;>
      rcases p4' with ⟨q', r'⟩ | ⟨q', r'⟩ | ⟨rfl, g, rfl⟩ | ⟨rfl, g, g', rfl⟩ <;> simp only at *
    all_goals first
      | (exfalso; simp_all; done)
      | skip
    · subst hd
      exact Or.inl ⟨_, T, T', _, _, _, _, _, rfl, rfl, harc⟩
    · subst hd
      exact Or.inr ⟨_, T', T, _, _, _, _, _, rfl, rfl, harc.symm⟩

/-- C93. Even if the loads of the weights that are to be made smaller return outdated values, no execution of the parallel customization accesses a vector
out of bounds, all executions can still be finished, and when they are finished, the metric is the one computed by the sequential customization. -/
theorem C93_outdated_loads_partial (order tail head : List Nat) (callable filter : Bool) (junk : Nat → Nat → Word) (c : Cch)
    (h : CchInput order tail head callable filter) (hb : Cch.build order tail head callable filter junk = some c)
    (w : List Nat) (hwl : w.length = tail.length) (hw : ∀ v ∈ w, v ≤ infWeight)
    (m : Metric) (hf : m.forward.length = c.cchArcCount) (hbw : m.backward.length = c.cchArcCount) :
    ∃ par phases m', Parallelization.new c = some par ∧ parallelPhases c w par = some phases ∧ m.customize c w = some m' ∧
      ∀ s, StaleReach ⟨⟨m, [], phases⟩, fun _ _ => []⟩ s →
        ¬ s.pool.undefined ∧ (∃ s', StaleReach s s' ∧ s'.pool.finished) ∧ (s.pool.finished → s.pool.mem = m') := by
  obtain ⟨rt, rh, U, T, H, h1, h2, h3, h4, h5, h6, h7, _⟩ := cch_built h hb
  have hlen := h7.graph.up.sorted.1
  have hwl' : w.length = rt.length := by rw [hwl, h2.1]
  have hw' : WeightsOk w := fun _ _ hi => hw _ (List.mem_of_getElem? hi)
  have l1 : m.forward.length = c.upTail.length := hf.trans hlen.symm
  have l2 : m.backward.length = c.upTail.length := hbw.trans hlen.symm
  have hsmall : c.upTail.length < 2 ^ 32 := by have := h7.small; unfold invalidId at this; omega
  obtain ⟨par, level, cnt, e1, hpar⟩ := parallelization_spec h7.graph h7.nodes hsmall
  obtain ⟨init, levels, e2, hprog, V0, hV0, hx0⟩ := parallelPhases_spec h7 hwl' hw' hpar l1 l2
  obtain ⟨par', phases, m', f1, f2, f3, hall⟩ := C28_every_interleaving order tail head callable filter junk c h hb w hwl hw m hf hbw
  cases (e1.symm.trans f1 : some par = some par')
  cases (e2.symm.trans f2 : some (init :: levels) = some phases)
  refine ⟨par, init :: levels, m', e1, e2, f3, ?_⟩
  have hsim : StaleSim ⟨⟨m, [], init :: levels⟩, fun _ _ => []⟩ ⟨m, [], init :: levels⟩ := by
    refine ⟨rfl, rfl, ?_, Or.inl (by simp), rfl, fun i t ht => ⟨t, ht, Or.inl rfl⟩⟩
    intro ps hps
    rcases List.mem_cons.1 hps with rfl | hps
    · left
      intro p hp k hk
      obtain ⟨a, ha⟩ := mem_iff_rd.1 hp
      obtain ⟨res, q, _⟩ := hx0.2 a ⟨p, .start⟩ (by unfold rd at ha ⊢; rw [List.getElem?_map, ha]; rfl)
      have := q.loc k hk
      cases k <;> simp_all [isLocal, Instr.isRelax]
    · right
      intro p hp k hk
      obtain ⟨l, hl⟩ := mem_iff_rd.1 hps
      obtain ⟨d, T, _, _, _, rfl, _⟩ := hprog.instr l ps hl p hp k hk
      trivial
  have main : ∀ s, StaleReach ⟨⟨m, [], init :: levels⟩, fun _ _ => []⟩ s →
      ¬ s.pool.undefined ∧ (s.pool.finished → s.pool.mem = m') := by
    intro s hs
    obtain ⟨s', hr, hs'⟩ := hsim.reach hs
    obtain ⟨k1, k2, k3⟩ := hall s' hr
    exact ⟨fun hu => k1 (hs'.undefined hu), fun hfin => by rw [← hs'.mem]; exact k3 (hs'.finished hfin)⟩
  intro s hs
  refine ⟨(main s hs).1, ?_, (main s hs).2⟩
  obtain ⟨t, ht, hstuck⟩ := parReach_stuck s.pool
  obtain ⟨old', hr⟩ := staleReach_of ht s.old
  refine ⟨_, hr, ?_⟩
  have hno := (main _ (hs.trans hr)).1
  obtain ⟨mem, ts, ph⟩ := t
  by_cases hall : ∀ t ∈ ts, t.prog = []
  · cases ph with
    | nil => exact ⟨rfl, hall⟩
    | cons p ph => exact absurd (.barrier hall) (hstuck _)
  · exfalso
    apply hall
    intro t ht
    by_contra hne
    obtain ⟨i, hi⟩ := mem_iff_rd.1 ht
    cases e : stepTask mem t with
    | none => exact hno ⟨t, ht, hne, e⟩
    | some r => exact hstuck _ (.task i hi e)

/-- C93. The access of the next step is all that the step does to the weights: it changes no other weight, it changes nothing unless it writes, and what it
does depends on no other weight. -/
theorem C93_steps_access_only_one_weight (m m' : Metric) (t t' : Task) (h : stepTask m t = some (m', t')) :
    ∃ a, t.access = some a ∧
      (∀ d b, a.writes = false ∨ (d, b) ≠ (a.forward, a.arc) → rd (m'.side d) b = rd (m.side d) b) ∧
      ∀ m₂, rd (m₂.side a.forward) a.arc = rd (m.side a.forward) a.arc →
        ∃ m₂', stepTask m₂ t = some (m₂', t') ∧ rd (m₂'.side a.forward) a.arc = rd (m'.side a.forward) a.arc := by
  have write : ∀ {d : Bool} {a v : Nat} {m m' m₂ : Metric}, m.wrSide d a v = some m' → rd (m₂.side d) a = rd (m.side d) a →
      ∃ m₂', m₂.wrSide d a v = some m₂' ∧ rd (m₂'.side d) a = rd (m'.side d) a := by
    intro d a v m m' m₂ hw hr
    have hlt : a < (m.side d).length := by
      by_contra hge
      unfold Metric.wrSide wr at hw
      rw [if_neg hge] at hw
      cases hw
    obtain ⟨x, hx⟩ := rd_isSome hlt
    have hlt2 : a < (m₂.side d).length := rd_some_lt (hr.trans hx)
    have e : ∃ m₂', m₂.wrSide d a v = some m₂' := by
      unfold Metric.wrSide wr
      rw [if_pos hlt2]
      exact ⟨_, rfl⟩
    obtain ⟨m₂', e⟩ := e
    exact ⟨m₂', e, by rw [wrSide_rd e, wrSide_rd hw, if_pos ⟨rfl, rfl⟩, if_pos ⟨rfl, rfl⟩]⟩
  have keep : ∀ {d : Bool} {a v : Nat} {m m' : Metric}, m.wrSide d a v = some m' → ∀ e b, (true = false ∨ (e, b) ≠ (d, a)) →
      rd (m'.side e) b = rd (m.side e) b := by
    intro d a v m m' hw e b hne
    rw [wrSide_rd hw, if_neg]
    rintro ⟨rfl, rfl⟩
    simp at hne
  match t, h with
  | ⟨.store d a v :: p, .start⟩, h =>
    obtain ⟨m1, hw, h⟩ := Option.bind_eq_some_iff.1 h
    cases h
    refine ⟨_, rfl, keep hw, fun m₂ hm => ?_⟩
    obtain ⟨m₂', e, e'⟩ := write hw hm
    exact ⟨m₂', by unfold stepTask; simp only [e]; rfl, e'⟩
  | ⟨.minStore d a v :: p, .start⟩, h =>
    obtain ⟨x, hx, h⟩ := Option.bind_eq_some_iff.1 h
    cases h
    refine ⟨_, rfl, fun _ _ _ => rfl, fun m₂ hm => ⟨m₂, ?_, hm⟩⟩
    unfold stepTask
    simp only [show rd (m₂.side d) a = some x from hm.trans hx]
    rfl
  | ⟨.minStore d a v :: p, .seen⟩, h =>
    obtain ⟨m1, hw, h⟩ := Option.bind_eq_some_iff.1 h
    cases h
    refine ⟨_, rfl, keep hw, fun m₂ hm => ?_⟩
    obtain ⟨m₂', e, e'⟩ := write hw hm
    exact ⟨m₂', by unfold stepTask; simp only [e]; rfl, e'⟩
  | ⟨.relax d T :: p, .start⟩, h =>
    obtain ⟨x, hx, h⟩ := Option.bind_eq_some_iff.1 h
    cases h
    refine ⟨_, rfl, fun _ _ _ => rfl, fun m₂ hm => ⟨m₂, ?_, hm⟩⟩
    unfold stepTask
    simp only [show rd (m₂.side (!d)) T.bottom = some x from hm.trans hx]
    rfl
  | ⟨.relax d T :: p, .loaded u⟩, h =>
    obtain ⟨x, hx, h⟩ := Option.bind_eq_some_iff.1 h
    cases h
    refine ⟨_, rfl, fun _ _ _ => rfl, fun m₂ hm => ⟨m₂, ?_, hm⟩⟩
    unfold stepTask
    simp only [show rd (m₂.side d) T.mid = some x from hm.trans hx]
    rfl
  | ⟨.relax d T :: p, .sum y⟩, h =>
    obtain ⟨x, hx, h⟩ := Option.bind_eq_some_iff.1 h
    cases h
    refine ⟨_, rfl, fun _ _ _ => rfl, fun m₂ hm => ⟨m₂, ?_, hm⟩⟩
    unfold stepTask
    simp only [show rd (m₂.side d) T.top = some x from hm.trans hx]
    rfl
  | ⟨.relax d T :: p, .cas y z⟩, h =>
    obtain ⟨x, hx, h⟩ := Option.bind_eq_some_iff.1 h
    by_cases hz : x = z
    · rw [if_pos hz] at h
      obtain ⟨m1, hw, h⟩ := Option.bind_eq_some_iff.1 h
      cases h
      refine ⟨_, rfl, keep hw, fun m₂ hm => ?_⟩
      obtain ⟨m₂', e, e'⟩ := write hw hm
      refine ⟨m₂', ?_, e'⟩
      unfold stepTask
      simp only [show rd (m₂.side d) T.top = some x from hm.trans hx, Option.bind_eq_bind, Option.bind_some, if_pos hz, e]
    · rw [if_neg hz] at h
      cases h
      refine ⟨_, rfl, fun _ _ _ => rfl, fun m₂ hm => ⟨m₂, ?_, hm⟩⟩
      unfold stepTask
      simp only [show rd (m₂.side d) T.top = some x from hm.trans hx, Option.bind_eq_bind, Option.bind_some, if_neg hz]

private def exTail : List Nat := [2, 0, 2, 1]
private def exHead : List Nat := [0, 3, 1, 3]
private def exOrder : List Nat := [0, 1, 2, 3]
private def exWeight : List Nat := [5, 6, 7, 8]

/-- All accesses of the five extractions, and the first two of the first and the third iteration of the first level; then the first one loads the weight
of the arc between the nodes 2 and 3. -/
private def exSchedule : List (Option Nat) :=
  none :: ((List.range 5).flatMap fun i => [some i, some i]) ++ [none, some 0, some 0, some 2, some 2, some 0]

private def exMetric : Metric := ⟨[0, 0, 0, 0, 0], [0, 0, 0, 0, 0]⟩
private def exLoading : Task := ⟨[.relax true ⟨2, 3, 4⟩, .relax false ⟨2, 3, 4⟩], .sum 15⟩
private def exSwapping : Task := ⟨[.relax true ⟨0, 1, 4⟩, .relax false ⟨0, 1, 4⟩], .cas 11 infWeight⟩

set_option maxRecDepth 10000 in
private theorem exRun : ((Cch.build exOrder exTail exHead true false (fun _ _ => 0)).bind fun c => (Parallelization.new c).bind fun par =>
    (parallelPhases c exWeight par).bind fun ph => (Pool.run ⟨exMetric, [], ph⟩ exSchedule).map fun s =>
      (s.mem, rd s.tasks 0, rd s.tasks 2)) =
    some (⟨[infWeight, 6, infWeight, 8, infWeight], [5, infWeight, 7, infWeight, infWeight]⟩, some exSwapping, some exLoading) := by
  decide +kernel

/-- C93. The parallel customization has a data race in the sense of the C++ standard: two nodes of the first level both have arcs to two others, and while
one iteration replaces the weight between the two others, another one loads it with a plain load. (The code hands out the iterations of a level in blocks of
256, line 927, so that different threads run them only if there are enough arcs between them.) -/
theorem C93_data_race_violated : CchInput exOrder exTail exHead true false ∧
    ∃ c par phases s t u, Cch.build exOrder exTail exHead true false (fun _ _ => 0) = some c ∧
      Parallelization.new c = some par ∧ parallelPhases c exWeight par = some phases ∧
      ParReach ⟨exMetric, [], phases⟩ s ∧ WeightRace s t u ∧ ∃ m u', stepTask s.mem u = some (m, u') ∧ m ≠ s.mem := by
  refine ⟨⟨by unfold IsPermutation; decide, by decide, by decide, by decide, by decide, by decide, Or.inl rfl⟩, ?_⟩
  obtain ⟨c, e1, e⟩ := Option.bind_eq_some_iff.1 exRun
  obtain ⟨par, e2, e⟩ := Option.bind_eq_some_iff.1 e
  obtain ⟨ph, e3, e⟩ := Option.bind_eq_some_iff.1 e
  obtain ⟨s, e4, e⟩ := Option.map_eq_some_iff.1 e
  obtain ⟨k1, k2⟩ := Prod.mk.inj e
  obtain ⟨k2, k3⟩ := Prod.mk.inj k2
  refine ⟨c, par, ph, s, exLoading, exSwapping, e1, e2, e3, poolRun_reach _ e4,
    ⟨2, 0, _, _, by decide, k3, k2, rfl, rfl, rfl, rfl, Or.inr rfl, by decide⟩, ?_⟩
  rw [k1]
  exact ⟨⟨[infWeight, 6, infWeight, 8, 11], [5, infWeight, 7, infWeight, infWeight]⟩,
    ⟨[.relax false ⟨0, 1, 4⟩], .start⟩, by decide +kernel, by decide⟩

/-- The hypotheses of the theorems are met by this hierarchy, and a load really returns an outdated value: after the first iteration has replaced the
weight of the arc 4, the third one still loads `inf_weight`, and its compare-and-swap fails. -/
example : CchInput exOrder exTail exHead true false ∧ exWeight.length = exTail.length ∧ (∀ v ∈ exWeight, v ≤ infWeight) ∧
    ((Cch.build exOrder exTail exHead true false (fun _ _ => 0)).map fun c => c.cchArcCount) = some exMetric.forward.length ∧
    ∃ m m' old ph, stepTask m exSwapping = some (m', ⟨[.relax false ⟨0, 1, 4⟩], .start⟩) ∧
      StaleReach ⟨⟨m, [exSwapping, exLoading], ph⟩, old⟩
        ⟨⟨m', [⟨[.relax false ⟨0, 1, 4⟩], .start⟩, ⟨exLoading.prog, .cas 15 infWeight⟩], ph⟩, recordValues m old⟩ ∧
      rd (m'.side true) 4 = some 11 := by
  refine ⟨⟨by unfold IsPermutation; decide, by decide, by decide, by decide, by decide, by decide, Or.inl rfl⟩, by decide, by decide, by decide +kernel,
    ⟨[infWeight, 6, infWeight, 8, infWeight], [5, infWeight, 7, infWeight, infWeight]⟩,
    ⟨[infWeight, 6, infWeight, 8, 11], [5, infWeight, 7, infWeight, infWeight]⟩, fun _ _ => [], [], by decide +kernel, ?_, by decide +kernel⟩
  refine .step (.step .refl (.task 0 (m' := ⟨[infWeight, 6, infWeight, 8, 11], [5, infWeight, 7, infWeight, infWeight]⟩)
    (t := exSwapping) (t' := ⟨[.relax false ⟨0, 1, 4⟩], .start⟩) rfl
    (by decide +kernel))) ?_
  exact .stale 1 (d := true) (T := ⟨2, 3, 4⟩) (p := [.relax false ⟨2, 3, 4⟩]) (y := 15) (z := infWeight) rfl (by decide +kernel)

end RK.Props
