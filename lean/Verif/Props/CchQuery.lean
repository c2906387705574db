import Verif.Proof.CchQuery
import Verif.Proof.History
/-! # Property theorems C30, C31, C32 and C34 (customizable_contraction_hierarchy.cpp, queries) -/
namespace RK.Props
open Spec RK

/-- `on` is what a query object gets from a metric: the metric, its weights and its hierarchy, which was built for the
arcs of `G` with any node order, with or without filtering and with any content of uninitialised memory, and the metric
was customized with the weights of the arcs of `G`. All weights are at most `inf_weight`; arcs of weight `inf_weight`
count as missing. `heap` tells which hierarchy is stored at an address: a query object recognises
hierarchies by their address and relies on a hierarchy not being replaced by another one at the same address. -/
def CustomizedFor (heap : Nat → Cch) (on : CchHandle) (G : QGraph) : Prop :=
  ∃ (order tail head : List Nat) (callable filter : Bool) (junk : Nat → Nat → Word) (old : Metric),
    CchInput order tail head callable filter ∧ order.length < 2 ^ 32 ∧
    Cch.build order tail head callable filter junk = some on.cch ∧
    on.inputWeight.length = tail.length ∧ (∀ w ∈ on.inputWeight, w ≤ unreachable) ∧
    G.n = order.length ∧ G.arcs = listArcs tail head on.inputWeight ∧
    old.forward.length = on.cch.cchArcCount ∧ old.backward.length = on.cch.cchArcCount ∧
    old.customize on.cch on.inputWeight = some on.metric ∧ on.cch = heap on.addr

theorem CustomizedFor.handle {heap : Nat → Cch} {on : CchHandle} {G : QGraph} (h : CustomizedFor heap on G) :
    HandleFor heap on G := by
  obtain ⟨order, tail, head, callable, filter, junk, old, hi, hn, hb, hwl, hw, gn, ga, l1, l2, hc, ha⟩ := h
  obtain ⟨rt, rh, U, T, H, h1, h2, h3, h4, h5, h6, h7, _⟩ := cch_built hi hb
  have hlen := h7.graph.up.sorted.1
  have hwl' : on.inputWeight.length = rt.length := by rw [hwl, h2.1]
  obtain ⟨m', f, b, e, hm, hcu⟩ := customize_inv h7 hwl' (fun _ _ hi => hw _ (List.mem_of_getElem? hi)) (m := old)
    (l1.trans hlen.symm) (l2.trans hlen.symm)
  cases (hc.symm.trans e : some on.metric = some m')
  have hsz : rt.length ≤ invalidId := by have := hi.size; rw [h2.1, invalidId_val]; omega
  have hinv : AreInverse on.cch.order on.cch.rank := by rw [h6]; exact h1
  refine ⟨ha, rt, rh, U, f, b, ?_, hinv, ?_, ?_⟩
  · rw [gn]
    exact ⟨h7, by rw [invalidId_val]; omega, hwl', hsz, hm, hcu⟩
  · intro i x y w hxy
    rw [ga] at hxy
    have hx := hi.tail_lt x (List.mem_of_getElem? hxy.1)
    have hy := hi.head_lt y (List.mem_of_getElem? hxy.2.1)
    have r1 : rd on.cch.rank x = some (fn on.cch.rank x) := rd_fn (by rw [h7.nodes]; exact hx)
    have r2 : rd on.cch.rank y = some (fn on.cch.rank y) := rd_fn (by rw [h7.nodes]; exact hy)
    rw [gn]
    exact ⟨hx, hy, (h2.2 i x hxy.1).trans r1, (h3.2 i y hxy.2.1).trans r2, hxy.2.2⟩
  · rintro i x y w ⟨q1, q2, q3⟩
    rw [ga]
    obtain ⟨t, ht⟩ := rd_isSome (v := tail) (i := i) (by rw [← h2.1]; exact rd_some_lt (v := rt) q1)
    obtain ⟨h, hh⟩ := rd_isSome (v := head) (i := i) (by rw [← h3.1]; exact rd_some_lt (v := rh) q2)
    have r1 : rd on.cch.rank t = some x := (h2.2 i t ht).symm.trans q1
    have r2 : rd on.cch.rank h = some y := (h3.2 i h hh).symm.trans q2
    have o1 : fn on.cch.order x = t := fn_of_rd ((hinv.2 _ _).2 r1)
    have o2 : fn on.cch.order y = h := fn_of_rd ((hinv.2 _ _).2 r2)
    rw [o1, o2]
    exact ⟨ht, hh, q3⟩

/-- The preconditions for query objects on customizable contraction hierarchies. -/
abbrev CchQueryPre (heap : Nat → Cch) : QState → QOp CchHandle → Prop := CchPre (CustomizedFor heap)

theorem cchPre {heap : Nat → Cch} {s : QState} {op : QOp CchHandle} (h : CchQueryPre heap s op) : CchPre (HandleFor heap) s op := by
  cases op <;> first | exact h | exact CustomizedFor.handle h

/-- C30, C31, C32 and C34: histories. A query object constructed for a customized metric serves every legal history of
calls (queries with several sources and targets with offsets, path extraction, pinned targets and sources with repeated
runs, resets, also to other metrics of the same or another hierarchy, in any order) without undefined behaviour, and
every answer is correct for the graph with the weights of the current metric, independently of what happened before. -/
theorem C30_C31_C32_C34_query_histories (heap : Nat → Cch) (on : CchHandle) (G : QGraph) (h : CustomizedFor heap on G) :
    Implements cchCall CchStep (CchQueryPre heap) (CchQuery.new on) (QState.fresh G) :=
  implements_of_simulation (CchRep heap) (cchRep_new h.handle) (fun _ _ _ hc hp => cchCall_spec hc (cchPre hp))

/-- Performs `add_source` for all elements of a list. -/
def addSourcesCch (l : List (Nat × Nat)) (q : CchQuery) : Option CchQuery :=
  l.foldlM (fun q p => q.addSource p.1 p.2) q

/-- Performs `add_target` for all elements of a list. -/
def addTargetsCch (l : List (Nat × Nat)) (q : CchQuery) : Option CchQuery :=
  l.foldlM (fun q p => q.addTarget p.1 p.2) q

theorem addSourcesCch_spec {heap : Nat → Cch} : ∀ (l : List (Nat × Nat)) {q : CchQuery} {s : QState}, CchRep heap q s →
    (s.mode = .collecting ∨ ∃ ts, s.mode = .toTargets ts false) →
    (∀ p ∈ l, p.1 < s.graph.n ∧ p.2 < unreachable) →
    ∃ q', addSourcesCch l q = some q' ∧ CchRep heap q' { s with sources := s.sources ++ l }
  | [], q, s, h, _, _ => ⟨q, rfl, by simpa using h⟩
  | (x, d) :: l, q, s, h, hm, hl => by
    obtain ⟨hx, hd⟩ := hl (x, d) (by simp)
    obtain ⟨q', out, s', e, ⟨_, rfl⟩, h'⟩ := cchCall_spec (op := .addSource x d) h ⟨hx, hd, hm⟩
    obtain ⟨q'', e2, h''⟩ := addSourcesCch_spec l h' hm (fun p hp => hl p (by simp [hp]))
    refine ⟨q'', ?_, by simpa using h''⟩
    simp only [cchCall, Option.map_eq_some_iff] at e
    obtain ⟨q1, e1, e3⟩ := e
    cases e3
    unfold addSourcesCch at e2 ⊢
    rw [List.foldlM_cons]
    simp only [e1, Option.bind_eq_bind, Option.bind_some, e2]

theorem addTargetsCch_spec {heap : Nat → Cch} : ∀ (l : List (Nat × Nat)) {q : CchQuery} {s : QState}, CchRep heap q s →
    (s.mode = .collecting ∨ ∃ ts, s.mode = .toSources ts false) →
    (∀ p ∈ l, p.1 < s.graph.n ∧ p.2 < unreachable) →
    ∃ q', addTargetsCch l q = some q' ∧ CchRep heap q' { s with targets := s.targets ++ l }
  | [], q, s, h, _, _ => ⟨q, rfl, by simpa using h⟩
  | (x, d) :: l, q, s, h, hm, hl => by
    obtain ⟨hx, hd⟩ := hl (x, d) (by simp)
    obtain ⟨q', out, s', e, ⟨_, rfl⟩, h'⟩ := cchCall_spec (op := .addTarget x d) h ⟨hx, hd, hm⟩
    obtain ⟨q'', e2, h''⟩ := addTargetsCch_spec l h' hm (fun p hp => hl p (by simp [hp]))
    refine ⟨q'', ?_, by simpa using h''⟩
    simp only [cchCall, Option.map_eq_some_iff] at e
    obtain ⟨q1, e1, e3⟩ := e
    cases e3
    unfold addTargetsCch at e2 ⊢
    rw [List.foldlM_cons]
    simp only [e1, Option.bind_eq_bind, Option.bind_some, e2]

/-- C30 and C31 for one query with a fresh object, any number of sources and targets with offsets. -/
theorem C30_C31_query (heap : Nat → Cch) (on : CchHandle) (G : QGraph) (h : CustomizedFor heap on G)
    (sources targets : List (Nat × Nat)) (hs : ∀ p ∈ sources, p.1 < G.n ∧ p.2 < unreachable)
    (ht : ∀ p ∈ targets, p.1 < G.n ∧ p.2 < unreachable) :
    ∃ (q1 q2 q3 : CchQuery) (r : QResult), addSourcesCch sources (CchQuery.new on) = some q1 ∧
      addTargetsCch targets q1 = some q2 ∧ q2.run = some q3 ∧
      q3.getDistance = some r.distance ∧ q3.getUsedSource = some r.source ∧ q3.getUsedTarget = some r.target ∧
      q3.getArcPath = some r.arcs ∧ q3.getNodePath = some r.nodes ∧ r.Correct G.arcs sources targets ∧ r.nodes.Nodup := by
  obtain ⟨q1, e1, h1⟩ := addSourcesCch_spec sources (cchRep_new h.handle) (Or.inl rfl) hs
  obtain ⟨q2, e2, h2⟩ := addTargetsCch_spec targets h1 (Or.inl rfl) ht
  simp only [QState.fresh, List.nil_append] at h2
  obtain ⟨q3, out, s', e3, ⟨_, rfl⟩, h3⟩ := cchCall_spec (op := .run) h2 rfl
  simp only [cchCall, Option.map_eq_some_iff, Prod.mk.injEq] at e3
  obtain ⟨q3', e3, rfl, rfl⟩ := e3
  obtain ⟨on', rt, rh, U, f, b, c1, _, c2, c3⟩ := h3.ex
  obtain ⟨r, r1, r2, r3, r4, r5, r6, r7⟩ := cchResults_spec c2 c1 h3.srcLt h3.tgtLt c3
  exact ⟨q1, q2, q3', r, e1, e2, e3, r1, r2, r3, r4, r5, r6, r7⟩

/-- C30 and C31 in elementary terms: one source and one target without offsets. If a walk shorter than `inf_weight`
exists then the distance is that of a shortest walk and the path is such a walk; otherwise the answer is `inf_weight`
and the paths are empty. -/
theorem C30_C31_one_to_one (heap : Nat → Cch) (on : CchHandle) (G : QGraph) (h : CustomizedFor heap on G) (s t : Nat)
    (hs : s < G.n) (ht : t < G.n) :
    ∃ (q1 q2 q3 : CchQuery) (d : Nat) (arcs nodes : List Nat), (CchQuery.new on).addSource s 0 = some q1 ∧
      q1.addTarget t 0 = some q2 ∧ q2.run = some q3 ∧ q3.getDistance = some d ∧
      q3.getArcPath = some arcs ∧ q3.getNodePath = some nodes ∧
      ((d < 2147483647 ∧ IsDist G.arcs s t d ∧ Walk G.arcs s arcs t d ∧ NodesOf G.arcs s arcs nodes) ∨
       (d = 2147483647 ∧ (∀ p l, Walk G.arcs s p t l → 2147483647 ≤ l) ∧ arcs = [] ∧ nodes = [])) := by
  obtain ⟨q1, q2, q3, r, e1, e2, e3, r1, r2, r3, r4, r5, r6, _⟩ := C30_C31_query heap on G h [(s, 0)] [(t, 0)]
    (by simp [hs, unreachable]) (by simp [ht, unreachable])
  have a1 : (CchQuery.new on).addSource s 0 = some q1 := by simpa [addSourcesCch] using e1
  have a2 : q1.addTarget t 0 = some q2 := by simpa [addTargetsCch] using e2
  refine ⟨q1, q2, q3, r.distance, r.arcs, r.nodes, a1, a2, e3, r1, r4, r5, ?_⟩
  have low : ∀ k, NoRouteBelow G.arcs [(s, 0)] [(t, 0)] k → ∀ p l, Walk G.arcs s p t l → k ≤ l :=
    fun k hk p l hw => hk s t p l ⟨0, 0, l, by simp, by simp, hw, by omega⟩
  rcases r6 with ⟨h1, ⟨ds, dt, l, h2, h3, h4, h5⟩, h6, h7⟩ | ⟨h1, _, _, h4, h5, h6⟩
  · left
    simp only [List.mem_singleton, Prod.mk.injEq] at h2 h3
    obtain ⟨g1, rfl⟩ := h2
    obtain ⟨g2, rfl⟩ := h3
    rw [g1, g2] at h4
    rw [g1] at h6
    have : r.distance = l := by omega
    rw [← this] at h4
    exact ⟨h1, ⟨⟨_, h4⟩, low _ h7⟩, h4, h6⟩
  · exact Or.inr ⟨h1, low _ h6, h4, h5⟩

/-- The distances reported for pinned targets are correct. -/
def AllTo (A : ArcRel) (sources : List (Nat × Nat)) (ts ds : List Nat) : Prop :=
  ds.length = ts.length ∧ ∀ (i t d : Nat), ts[i]? = some t → ds[i]? = some d →
    (d < 2147483647 ∧ (∃ s p, Route A sources [(t, 0)] s t p d) ∧ NoRouteBelow A sources [(t, 0)] d) ∨
    (d = 2147483647 ∧ NoRouteBelow A sources [(t, 0)] 2147483647)

/-- The distances reported for pinned sources are correct. -/
def AllFrom (A : ArcRel) (targets : List (Nat × Nat)) (ss ds : List Nat) : Prop :=
  ds.length = ss.length ∧ ∀ (i s d : Nat), ss[i]? = some s → ds[i]? = some d →
    (d < 2147483647 ∧ (∃ t p, Route A [(s, 0)] targets s t p d) ∧ NoRouteBelow A [(s, 0)] targets d) ∨
    (d = 2147483647 ∧ NoRouteBelow A [(s, 0)] targets 2147483647)

/-- C32 with a fresh object: pin targets, add sources, run; then reset the sources, add others, run again. Both runs
answer correctly for all pinned targets. -/
theorem C32_pinned_targets (heap : Nat → Cch) (on : CchHandle) (G : QGraph) (h : CustomizedFor heap on G) (ts : List Nat)
    (hts : ts ≠ []) (hlen : ts.length < 2 ^ 32) (hlt : ∀ t ∈ ts, t < G.n) (s1 s2 : List (Nat × Nat))
    (h1 : ∀ p ∈ s1, p.1 < G.n ∧ p.2 < unreachable) (h2 : ∀ p ∈ s2, p.1 < G.n ∧ p.2 < unreachable) :
    ∃ q1 q2 q3 q4 q5 q6 d1 d2, (CchQuery.new on).pinTargets ts = some q1 ∧ addSourcesCch s1 q1 = some q2 ∧
      q2.runToPinnedTargets = some q3 ∧ q3.getDistancesToTargets = some d1 ∧ AllTo G.arcs s1 ts d1 ∧
      q3.resetSource = some q4 ∧ addSourcesCch s2 q4 = some q5 ∧ q5.runToPinnedTargets = some q6 ∧
      q6.getDistancesToTargets = some d2 ∧ AllTo G.arcs s2 ts d2 := by
  have key : ∀ {q : CchQuery} {s : List (Nat × Nat)}, (∀ p ∈ s, p.1 < G.n ∧ p.2 < unreachable) →
      CchRep heap q ⟨G, .toTargets ts false, [], []⟩ →
      ∃ q' q'' d, addSourcesCch s q = some q' ∧ q'.runToPinnedTargets = some q'' ∧
        q''.getDistancesToTargets = some d ∧ AllTo G.arcs s ts d ∧ CchRep heap q'' ⟨G, .toTargets ts true, s, []⟩ := by
    intro q s hs hr
    obtain ⟨q', e1, hr1⟩ := addSourcesCch_spec s hr (Or.inr ⟨ts, rfl⟩) hs
    obtain ⟨q'', out, s', e2, ⟨_, _, hm, _, rfl⟩, hr2⟩ := cchCall_spec (op := .runToPinnedTargets) hr1 ⟨ts, rfl⟩
    cases hm
    simp only [cchCall, Option.map_eq_some_iff, Prod.mk.injEq] at e2
    obtain ⟨q1, e2, rfl, rfl⟩ := e2
    obtain ⟨q3, out, s', e3, ⟨rfl, ts', b, d, hm, rfl, hl, hall⟩, hr3⟩ := cchCall_spec (op := .resultsToTargets) hr2
      ⟨ts, rfl, hts⟩
    cases hm
    simp only [cchCall, Option.map_eq_some_iff] at e3
    obtain ⟨d', g1, g3⟩ := e3
    cases g3
    refine ⟨q', q1, d, e1, e2, g1, ⟨hl, fun i t v ht hv => ?_⟩, by simpa using hr2⟩
    obtain ⟨u, hu⟩ := hall i t v ht hv
    simp only [List.nil_append] at hu
    rcases hu with ⟨a1, a2, a3⟩ | ⟨a1, _, a3⟩
    · exact Or.inl ⟨a1, ⟨u, a2⟩, a3⟩
    · exact Or.inr ⟨a1, a3⟩
  obtain ⟨q1, out, s', e1, ⟨_, rfl⟩, hr1⟩ := cchCall_spec (op := .pinTargets ts) (cchRep_new h.handle) ⟨rfl, rfl, hlen, hlt⟩
  simp only [cchCall, Option.map_eq_some_iff, Prod.mk.injEq] at e1
  obtain ⟨q1', e1, rfl, rfl⟩ := e1
  obtain ⟨q2, q3, d1, e2, e3, e4, e6, hr3⟩ := key h1 hr1
  obtain ⟨q4, out, s', e7, ⟨_, _, hm, _, rfl⟩, hr4⟩ := cchCall_spec (op := .resetSource) hr3 ⟨ts, true, rfl⟩
  cases hm
  simp only [cchCall, Option.map_eq_some_iff, Prod.mk.injEq] at e7
  obtain ⟨q4', e7, rfl, rfl⟩ := e7
  obtain ⟨q5, q6, d2, e8, e9, e10, e12, hr6⟩ := key h2 hr4
  exact ⟨q1', q2, q3, q4', q5, q6, d1, d2, e1, e2, e3, e4, e6, e7, e8, e9, e10, e12⟩

/-- C32 for pinned sources. -/
theorem C32_pinned_sources (heap : Nat → Cch) (on : CchHandle) (G : QGraph) (h : CustomizedFor heap on G) (ss : List Nat)
    (hss : ss ≠ []) (hlen : ss.length < 2 ^ 32) (hlt : ∀ s ∈ ss, s < G.n) (t1 t2 : List (Nat × Nat))
    (h1 : ∀ p ∈ t1, p.1 < G.n ∧ p.2 < unreachable) (h2 : ∀ p ∈ t2, p.1 < G.n ∧ p.2 < unreachable) :
    ∃ q1 q2 q3 q4 q5 q6 d1 d2, (CchQuery.new on).pinSources ss = some q1 ∧ addTargetsCch t1 q1 = some q2 ∧
      q2.runToPinnedSources = some q3 ∧ q3.getDistancesToSources = some d1 ∧ AllFrom G.arcs t1 ss d1 ∧
      q3.resetTarget = some q4 ∧ addTargetsCch t2 q4 = some q5 ∧ q5.runToPinnedSources = some q6 ∧
      q6.getDistancesToSources = some d2 ∧ AllFrom G.arcs t2 ss d2 := by
  have key : ∀ {q : CchQuery} {s : List (Nat × Nat)}, (∀ p ∈ s, p.1 < G.n ∧ p.2 < unreachable) →
      CchRep heap q ⟨G, .toSources ss false, [], []⟩ →
      ∃ q' q'' d, addTargetsCch s q = some q' ∧ q'.runToPinnedSources = some q'' ∧
        q''.getDistancesToSources = some d ∧ AllFrom G.arcs s ss d ∧ CchRep heap q'' ⟨G, .toSources ss true, [], s⟩ := by
    intro q s hs hr
    obtain ⟨q', e1, hr1⟩ := addTargetsCch_spec s hr (Or.inr ⟨ss, rfl⟩) hs
    obtain ⟨q'', out, s', e2, ⟨_, _, hm, _, rfl⟩, hr2⟩ := cchCall_spec (op := .runToPinnedSources) hr1 ⟨ss, rfl⟩
    cases hm
    simp only [cchCall, Option.map_eq_some_iff, Prod.mk.injEq] at e2
    obtain ⟨q1, e2, rfl, rfl⟩ := e2
    obtain ⟨q3, out, s', e3, ⟨rfl, ts', b, d, hm, rfl, hl, hall⟩, hr3⟩ := cchCall_spec (op := .resultsToSources) hr2
      ⟨ss, rfl, hss⟩
    cases hm
    simp only [cchCall, Option.map_eq_some_iff] at e3
    obtain ⟨d', g1, g3⟩ := e3
    cases g3
    refine ⟨q', q1, d, e1, e2, g1, ⟨hl, fun i t v ht hv => ?_⟩, by simpa using hr2⟩
    obtain ⟨u, hu⟩ := hall i t v ht hv
    simp only [List.nil_append] at hu
    rcases hu with ⟨a1, a2, a3⟩ | ⟨a1, _, a3⟩
    · exact Or.inl ⟨a1, ⟨u, a2⟩, a3⟩
    · exact Or.inr ⟨a1, a3⟩
  obtain ⟨q1, out, s', e1, ⟨_, rfl⟩, hr1⟩ := cchCall_spec (op := .pinSources ss) (cchRep_new h.handle) ⟨rfl, rfl, hlen, hlt⟩
  simp only [cchCall, Option.map_eq_some_iff, Prod.mk.injEq] at e1
  obtain ⟨q1', e1, rfl, rfl⟩ := e1
  obtain ⟨q2, q3, d1, e2, e3, e4, e6, hr3⟩ := key h1 hr1
  obtain ⟨q4, out, s', e7, ⟨_, _, hm, _, rfl⟩, hr4⟩ := cchCall_spec (op := .resetTarget) hr3 ⟨ss, true, rfl⟩
  cases hm
  simp only [cchCall, Option.map_eq_some_iff, Prod.mk.injEq] at e7
  obtain ⟨q4', e7, rfl, rfl⟩ := e7
  obtain ⟨q5, q6, d2, e8, e9, e10, e12, hr6⟩ := key h2 hr4
  exact ⟨q1', q2, q3, q4', q5, q6, d1, d2, e1, e2, e3, e4, e6, e7, e8, e9, e10, e12⟩

/-! ### A concrete case -/

/-- Eight arcs on five nodes, a metric and what a query object gets from it. -/
def sampleHandle (filter : Bool) (addr : Nat) (w : List Nat) : Option CchHandle := do
  let c ← Cch.build [2, 4, 1, 0, 3] [0, 0, 1, 1, 2, 3, 3, 4] [1, 2, 2, 3, 3, 4, 0, 3] true filter (fun _ _ => 0xAAAAAAAAAAAAAAAA)
  let m ← (Metric.new c).customize c w
  some ⟨addr, c, m, w⟩

def sampleCchGraph (w : List Nat) : QGraph := ⟨5, listArcs [0, 0, 1, 1, 2, 3, 3, 4] [1, 2, 2, 3, 3, 4, 0, 3] w⟩

set_option maxRecDepth 10000 in
/-- Non-vacuity: the hypotheses hold for the sample. -/
theorem sampleHandle_customized (filter : Bool) : ∃ on heap, sampleHandle filter 7 [4, 1, 1, 5, 7, 1, 2, 2] = some on ∧
    CustomizedFor heap on (sampleCchGraph [4, 1, 1, 5, 7, 1, 2, 2]) := by
  have h : (sampleHandle filter 7 [4, 1, 1, 5, 7, 1, 2, 2]).isSome = true := by
    cases filter <;> decide +kernel
  obtain ⟨on, ho⟩ := Option.isSome_iff_exists.1 h
  refine ⟨on, fun _ => on.cch, ho, ?_⟩
  simp only [sampleHandle, Option.bind_eq_bind, Option.bind_eq_some_iff] at ho
  obtain ⟨c, hc, m, hm, e⟩ := ho
  cases e
  refine ⟨[2, 4, 1, 0, 3], [0, 0, 1, 1, 2, 3, 3, 4], [1, 2, 2, 3, 3, 4, 0, 3], true, filter, _, _, ⟨?_, ?_, rfl, ?_, ?_, ?_, Or.inl rfl⟩, ?_, hc, rfl, ?_, rfl, rfl, ?_, ?_, hm, rfl⟩
  · unfold IsPermutation; decide
  · decide
  · decide
  · decide
  · decide
  · decide
  · show ∀ w ∈ [4, 1, 1, 5, 7, 1, 2, 2], w ≤ unreachable; decide
  · simp [Metric.new]
  · simp [Metric.new]

set_option maxRecDepth 10000 in
/-- One object, several queries: two sources with offsets; then, with another metric of the same hierarchy, two runs with
pinned targets; then a query without a route. -/
example : ((sampleHandle true 7 [4, 1, 1, 5, 7, 1, 2, 2]).bind fun a => (sampleHandle true 7 [4, 9, 1, 5, 2, 1, 2, 2147483647]).bind fun b =>
      (runCalls cchCall (CchQuery.new a) [.addSource 0 3, .addSource 2 9, .addTarget 4 1, .run, .results,
        .attach b (sampleCchGraph [4, 9, 1, 5, 2, 1, 2, 2147483647]), .pinTargets [4, 0, 4], .addSource 1 0,
        .runToPinnedTargets, .resultsToTargets, .resetSource, .addSource 2 0, .addSource 3 4, .runToPinnedTargets,
        .resultsToTargets, .reset, .addSource 4 0, .addTarget 0 0, .run, .results]).map (·.2.filterMap fun
        | .result r => some ([r.distance, r.source, r.target], r.arcs, r.nodes)
        | .lists d u => some ([], d, u)
        | _ => none)) =
    some [([13, 0, 4], [1, 4, 5], [0, 2, 3, 4]), ([], [4, 5, 4], []), ([], [3, 4, 3], []),
      ([2147483647, 4294967295, 4294967295], [], [])] := by decide +kernel

/-! ### Boundary conditions -/

/-- A default-constructed query object cannot be used: `reset(metric)` compares with an uninitialised pointer. -/
theorem C34_default_constructed_cch_query_undefined (on : CchHandle) : CchQuery.null.resetMetric on = none := by rfl

set_option maxRecDepth 10000 in
/-- With an empty list of pinned targets the run succeeds but reading the distances is undefined. -/
theorem C32_no_pinned_targets_undefined :
    ((sampleHandle true 7 [4, 1, 1, 5, 7, 1, 2, 2]).bind fun a =>
      (runCalls cchCall (CchQuery.new a) [.pinTargets [], .addSource 0 0, .runToPinnedTargets]).map fun r =>
      (r.2.length, r.1.getDistancesToTargets)) = some (3, none) := by decide +kernel

set_option maxRecDepth 10000 in
/-- Replacing a hierarchy by one with more nodes at the same address is not noticed by `reset(metric)`: the vectors of the
query object stay too short. -/
theorem C34_replaced_hierarchy_undefined :
    ((Cch.build [0, 1] [0] [1] true false (fun _ _ => 0)).bind fun c => ((Metric.new c).customize c [1]).bind fun m =>
      (sampleHandle true 7 [4, 1, 1, 5, 7, 1, 2, 2]).map fun b =>
        ((CchQuery.new ⟨7, c, m, [1]⟩).resetMetric b).isSome && (((CchQuery.new ⟨7, c, m, [1]⟩).resetMetric b).bind fun q =>
          q.addSource 3 0).isNone) = some true := by decide +kernel

end RK.Props
