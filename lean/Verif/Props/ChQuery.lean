import Verif.Proof.ChQuery
import Verif.Proof.ChBuilt
/-! # Property theorems C22, C23, C24 and C34 (contraction_hierarchy.cpp, construction and queries) -/
namespace RK.Props
open Spec

/-- Arcs of a hierarchy may weigh at most this much, `(2^32 - 1) / 12`, so that the 32-bit sums that
occur during its construction do not wrap. -/
def lightArc : Nat := 357913941

/-- The arguments of the construction functions describe the graph `G`: parallel vectors, node ids in
range, at most 2^30 nodes and fewer than 2^32 arcs, no arc heavier than `2 * lightArc`. Parallel arcs,
loops and arcs of weight 0 are allowed. -/
structure GraphInput (G : QGraph) (tail head weight : List Nat) : Prop where
  arcs : G.arcs = listArcs tail head weight
  head_len : head.length = tail.length
  weight_len : weight.length = tail.length
  tail_lt : ∀ x ∈ tail, x < G.n
  head_lt : ∀ x ∈ head, x < G.n
  weight_le : ∀ w ∈ weight, w ≤ 2 * lightArc
  nodes : G.n ≤ 2 ^ 30
  size : tail.length < 2 ^ 32

/-- `ch` is the result of one of the three construction functions for `G`, with any limit on the witness
searches, any node order, and any content of uninitialised memory; its arcs are light. -/
def BuiltFor (ch : Ch) (G : QGraph) : Prop :=
  ∃ tail head weight, GraphInput G tail head weight ∧ ∃ (asserts : Bool) (maxPop : Nat) (junkF junkB : Nat → Word),
    (Ch.build asserts G.n tail head weight maxPop junkF junkB = some ch ∨
     (∃ rank, IsPermutation rank ∧ rank.length = G.n ∧
        Ch.buildGivenRank asserts rank tail head weight maxPop junkF junkB = some ch) ∨
     (∃ order, IsPermutation order ∧ order.length = G.n ∧
        Ch.buildGivenOrder asserts order tail head weight maxPop junkF junkB = some ch)) ∧
    (∀ w ∈ ch.forward.weight, w ≤ lightArc) ∧ ∀ w ∈ ch.backward.weight, w ≤ lightArc

theorem BuiltFor.hierOk {ch : Ch} {G : QGraph} (h : BuiltFor ch G) : HierOk ch G := by
  obtain ⟨tail, head, weight, hi, asserts, maxPop, jf, jb, hb, l1, l2⟩ := h
  have hn : G.n ≤ MinIDQueue.maxIds := hi.nodes
  have hsz : tail.length ≤ invalidId := by
    have := hi.size
    rw [invalidId_val]; omega
  have hn' : G.n ≤ invalidId := by
    have := hi.nodes
    rw [invalidId_val]; omega
  have hL : ch.Light lightArc := ⟨l1, l2⟩
  have hok : ChOk G.n G.arcs ch := by
    rw [hi.arcs]
    rcases hb with hb | ⟨rank, hp, hl, hb⟩ | ⟨order, hp, hl, hb⟩
    · exact build_ok hn hi.head_len hi.weight_len hi.tail_lt hi.head_lt hsz hi.weight_le (by decide) hb hL
    · exact (buildGivenRank_ok hn (isPerm_iff_perm.2 hp) hl hi.head_len hi.weight_len hi.tail_lt hi.head_lt hsz hi.weight_le (by decide) hb hL).1
    · obtain ⟨rank, e, h1, h2, _⟩ := invertPermutation_spec (isPerm_iff_perm.2 hp)
      unfold Ch.buildGivenOrder at hb
      rw [e] at hb
      exact (buildGivenRank_ok hn h2 (h1.trans hl) hi.head_len hi.weight_len hi.tail_lt hi.head_lt hsz hi.weight_le (by decide) hb hL).1
  refine ⟨hok, ⟨⟨hok.fwd, ?_, ?_⟩, ⟨hok.bwd, ?_, ?_⟩, hn'⟩, hn⟩
  · rintro x y w ⟨a, ha⟩; exact hok.arcF ha
  · rintro x y w ⟨a, ha⟩
    have := l1 w (List.mem_of_getElem? ha.2.2)
    rw [infWeight_val]; unfold lightArc at this; omega
  · rintro x y w ⟨a, ha⟩; exact hok.arcB ha
  · rintro x y w ⟨a, ha⟩
    have := l2 w (List.mem_of_getElem? ha.2.2)
    rw [infWeight_val]; unfold lightArc at this; omega

/-- The preconditions for query objects on contraction hierarchies. -/
abbrev ChPre : QState → QOp Ch → Prop := QPre BuiltFor (fun n k => k ≤ n)

theorem chPre {s : QState} {op : QOp Ch} (h : ChPre s op) : QPre HierOk (fun n k => k ≤ n) s op := by
  cases op <;> first | exact h | exact BuiltFor.hierOk h

/-- C22, C23, C24 and C34: histories. A query object constructed for a hierarchy of `G` serves every legal
history of calls (queries with several sources and targets with offsets, path extraction, pinned targets
and sources with repeated runs, resets to the same or another hierarchy, in any order) without undefined
behaviour, and every answer is correct for the graph, independently of what happened before. -/
theorem C22_C23_C24_C34_query_histories (ch : Ch) (G : QGraph) (h : BuiltFor ch G) :
    Implements chCall QStep ChPre (ChQuery.new ch) (QState.fresh G) :=
  implements_of_simulation QRep (chQuery_rep_new h.hierOk) (fun _ _ _ hc hp => chCall_spec hc (chPre hp))

/-- C34, default constructor: the first call has to be `reset(ch)`; it works if the graph is not empty. -/
theorem C34_default_constructed_query (ch : Ch) (G : QGraph) (h : BuiltFor ch G) (hn : 0 < G.n) :
    ∃ q, ChQuery.null.resetCh ch = some q ∧ Implements chCall QStep ChPre q (QState.fresh G) := by
  refine ⟨ChQuery.new ch, ?_, C22_C23_C24_C34_query_histories ch G h⟩
  have : ¬ (0 = ch.rank.length) := by rw [h.hierOk.ok.rankLen]; omega
  simp [ChQuery.resetCh, ChQuery.null, ChHalf.new, this]

/-- Performs `add_source` for all elements of a list. -/
def addSourcesCh (l : List (Nat × Nat)) (q : ChQuery) : Option ChQuery :=
  l.foldlM (fun q p => q.addSource p.1 p.2) q

/-- Performs `add_target` for all elements of a list. -/
def addTargetsCh (l : List (Nat × Nat)) (q : ChQuery) : Option ChQuery :=
  l.foldlM (fun q p => q.addTarget p.1 p.2) q

theorem addSourcesCh_spec : ∀ (l : List (Nat × Nat)) {q : ChQuery} {s : QState}, QRep q s →
    (s.mode = .collecting ∨ ∃ ts, s.mode = .toTargets ts false) →
    (∀ p ∈ l, p.1 < s.graph.n ∧ p.2 < unreachable) →
    ∃ q', addSourcesCh l q = some q' ∧ QRep q' { s with sources := s.sources ++ l }
  | [], q, s, h, _, _ => ⟨q, rfl, by simpa using h⟩
  | (x, d) :: l, q, s, h, hm, hl => by
    obtain ⟨hx, hd⟩ := hl (x, d) (by simp)
    obtain ⟨q', out, s', e, ⟨_, rfl⟩, h'⟩ := chCall_spec (op := .addSource x d) h ⟨hx, hd, hm⟩
    obtain ⟨q'', e2, h''⟩ := addSourcesCh_spec l h' hm (fun p hp => hl p (by simp [hp]))
    refine ⟨q'', ?_, by simpa using h''⟩
    simp only [chCall, Option.map_eq_some_iff] at e
    obtain ⟨q1, e1, e3⟩ := e
    cases e3
    unfold addSourcesCh at e2 ⊢
    rw [List.foldlM_cons]
    simp only [e1, Option.bind_eq_bind, Option.bind_some, e2]

theorem addTargetsCh_spec : ∀ (l : List (Nat × Nat)) {q : ChQuery} {s : QState}, QRep q s →
    (s.mode = .collecting ∨ ∃ ts, s.mode = .toSources ts false) →
    (∀ p ∈ l, p.1 < s.graph.n ∧ p.2 < unreachable) →
    ∃ q', addTargetsCh l q = some q' ∧ QRep q' { s with targets := s.targets ++ l }
  | [], q, s, h, _, _ => ⟨q, rfl, by simpa using h⟩
  | (x, d) :: l, q, s, h, hm, hl => by
    obtain ⟨hx, hd⟩ := hl (x, d) (by simp)
    obtain ⟨q', out, s', e, ⟨_, rfl⟩, h'⟩ := chCall_spec (op := .addTarget x d) h ⟨hx, hd, hm⟩
    obtain ⟨q'', e2, h''⟩ := addTargetsCh_spec l h' hm (fun p hp => hl p (by simp [hp]))
    refine ⟨q'', ?_, by simpa using h''⟩
    simp only [chCall, Option.map_eq_some_iff] at e
    obtain ⟨q1, e1, e3⟩ := e
    cases e3
    unfold addTargetsCh at e2 ⊢
    rw [List.foldlM_cons]
    simp only [e1, Option.bind_eq_bind, Option.bind_some, e2]

/-- C22 and C23 for one query with a fresh object, several sources and targets with offsets. -/
theorem C22_C23_query (ch : Ch) (G : QGraph) (h : BuiltFor ch G) (sources targets : List (Nat × Nat))
    (hs0 : sources ≠ []) (ht0 : targets ≠ []) (hs : ∀ p ∈ sources, p.1 < G.n ∧ p.2 < unreachable)
    (ht : ∀ p ∈ targets, p.1 < G.n ∧ p.2 < unreachable) :
    ∃ (q1 q2 q3 : ChQuery) (r : QResult), addSourcesCh sources (ChQuery.new ch) = some q1 ∧
      addTargetsCh targets q1 = some q2 ∧ q2.run = some q3 ∧
      q3.getDistance = some r.distance ∧ q3.getUsedSource = some r.source ∧ q3.getUsedTarget = some r.target ∧
      q3.getArcPath = some r.arcs ∧ q3.getNodePath = some r.nodes ∧ r.Correct G.arcs sources targets := by
  obtain ⟨q1, e1, h1⟩ := addSourcesCh_spec sources (chQuery_rep_new h.hierOk) (Or.inl rfl) hs
  obtain ⟨q2, e2, h2⟩ := addTargetsCh_spec targets h1 (Or.inl rfl) ht
  simp only [QState.fresh, List.nil_append] at h2
  obtain ⟨q3, out, s', e3, ⟨_, rfl⟩, h3⟩ := chCall_spec (op := .run) h2 ⟨rfl, hs0, ht0⟩
  simp only [chCall, Option.map_eq_some_iff, Prod.mk.injEq] at e3
  obtain ⟨q3', e3, rfl, rfl⟩ := e3
  obtain ⟨ch', c1, c2, c3⟩ := h3.ex
  obtain ⟨r, r1, r2, r3, r4, r5, r6⟩ := results_spec c2 c1 h3.srcLt h3.tgtLt c3
  exact ⟨q1, q2, q3', r, e1, e2, e3, r1, r2, r3, r4, r5, r6⟩

/-- C22 and C23 in elementary terms: one source and one target without offsets. If a walk shorter than
`inf_weight` exists then the distance is that of a shortest walk and the path is such a walk; otherwise
the answer is `inf_weight` and the paths are empty. -/
theorem C22_C23_one_to_one (ch : Ch) (G : QGraph) (h : BuiltFor ch G) (s t : Nat) (hs : s < G.n) (ht : t < G.n) :
    ∃ (q1 q2 q3 : ChQuery) (d : Nat) (arcs nodes : List Nat), (ChQuery.new ch).addSource s 0 = some q1 ∧
      q1.addTarget t 0 = some q2 ∧ q2.run = some q3 ∧ q3.getDistance = some d ∧
      q3.getArcPath = some arcs ∧ q3.getNodePath = some nodes ∧
      ((d < 2147483647 ∧ IsDist G.arcs s t d ∧ Walk G.arcs s arcs t d ∧ NodesOf G.arcs s arcs nodes) ∨
       (d = 2147483647 ∧ (∀ p l, Walk G.arcs s p t l → 2147483647 ≤ l) ∧ arcs = [] ∧ nodes = [])) := by
  obtain ⟨q1, q2, q3, r, e1, e2, e3, r1, r2, r3, r4, r5, r6⟩ := C22_C23_query ch G h [(s, 0)] [(t, 0)]
    (by simp) (by simp) (by simp [hs, unreachable]) (by simp [ht, unreachable])
  have a1 : (ChQuery.new ch).addSource s 0 = some q1 := by simpa [addSourcesCh] using e1
  have a2 : q1.addTarget t 0 = some q2 := by simpa [addTargetsCh] using e2
  refine ⟨q1, q2, q3, r.distance, r.arcs, r.nodes, a1, a2, e3, r1, r4, r5, ?_⟩
  have low : ∀ k, NoRouteBelow G.arcs [(s, 0)] [(t, 0)] k → ∀ p l, Walk G.arcs s p t l → k ≤ l :=
    fun k hk p l hw => hk s t p l ⟨0, 0, l, by simp, by simp, hw, by omega⟩
  rcases r6 with ⟨h1, ⟨ds, dt, l, h2, h3, h4, h5⟩, h6, h7⟩ | ⟨h1, _, _, h4, h5, h6⟩
  · left
    simp only [List.mem_singleton, Prod.mk.injEq] at h2 h3
    obtain ⟨g1, rfl⟩ := h2
    obtain ⟨g2, rfl⟩ := h3
    rw [g1, g2] at h4
    rw [g1] at h6
    have : r.distance = l := by omega
    rw [← this] at h4
    exact ⟨h1, ⟨⟨_, h4⟩, low _ h7⟩, h4, h6⟩
  · exact Or.inr ⟨h1, low _ h6, h4, h5⟩

/-- C24 with a fresh object: pin targets, add sources, run; then reset the sources, add others, run
again. Both runs answer correctly for all pinned targets. -/
theorem C24_pinned_targets (ch : Ch) (G : QGraph) (h : BuiltFor ch G) (ts : List Nat) (hts : ts ≠ [])
    (hlen : ts.length ≤ G.n) (hlt : ∀ t ∈ ts, t < G.n) (s1 s2 : List (Nat × Nat)) (h10 : s1 ≠ []) (h20 : s2 ≠ [])
    (h1 : ∀ p ∈ s1, p.1 < G.n ∧ p.2 < unreachable) (h2 : ∀ p ∈ s2, p.1 < G.n ∧ p.2 < unreachable) :
    ∃ q1 q2 q3 q4 q5 q6 d1 u1 d2 u2, (ChQuery.new ch).pinTargets ts = some q1 ∧ addSourcesCh s1 q1 = some q2 ∧
      q2.runToPinnedTargets = some q3 ∧ q3.getDistancesToTargets = some d1 ∧ q3.getUsedSourcesToTargets = some u1 ∧
      ForAll3 (ToTarget G.arcs s1) ts d1 u1 ∧
      q3.resetSource = some q4 ∧ addSourcesCh s2 q4 = some q5 ∧ q5.runToPinnedTargets = some q6 ∧
      q6.getDistancesToTargets = some d2 ∧ q6.getUsedSourcesToTargets = some u2 ∧
      ForAll3 (ToTarget G.arcs s2) ts d2 u2 := by
  have key : ∀ {q : ChQuery} {s : List (Nat × Nat)}, s ≠ [] → (∀ p ∈ s, p.1 < G.n ∧ p.2 < unreachable) →
      QRep q ⟨G, .toTargets ts false, [], []⟩ →
      ∃ q' q'' d u, addSourcesCh s q = some q' ∧ q'.runToPinnedTargets = some q'' ∧
        q''.getDistancesToTargets = some d ∧ q''.getUsedSourcesToTargets = some u ∧
        ForAll3 (ToTarget G.arcs s) ts d u ∧ QRep q'' ⟨G, .toTargets ts true, s, []⟩ := by
    intro q s hs0 hs hr
    obtain ⟨q', e1, hr1⟩ := addSourcesCh_spec s hr (Or.inr ⟨ts, rfl⟩) hs
    obtain ⟨q'', out, s', e2, ⟨_, _, hm, _, rfl⟩, hr2⟩ := chCall_spec (op := .runToPinnedTargets) hr1
      ⟨⟨ts, rfl⟩, by simpa using hs0⟩
    cases hm
    simp only [chCall, Option.map_eq_some_iff, Prod.mk.injEq] at e2
    obtain ⟨q1, e2, rfl, rfl⟩ := e2
    obtain ⟨q3, out, s', e3, ⟨rfl, ts', b, d, u, hm, rfl, hall⟩, hr3⟩ := chCall_spec (op := .resultsToTargets) hr2
      ⟨ts, rfl, hts⟩
    cases hm
    simp only [chCall, Option.bind_eq_bind, Option.bind_eq_some_iff] at e3
    obtain ⟨d', g1, u', g2, g3⟩ := e3
    cases g3
    exact ⟨q', q1, d, u, e1, e2, g1, g2, by simpa using hall, by simpa using hr2⟩
  obtain ⟨q1, out, s', e1, ⟨_, rfl⟩, hr1⟩ := chCall_spec (op := .pinTargets ts) (chQuery_rep_new h.hierOk) ⟨rfl, rfl, hlen, hlt⟩
  simp only [chCall, Option.map_eq_some_iff, Prod.mk.injEq] at e1
  obtain ⟨q1', e1, rfl, rfl⟩ := e1
  obtain ⟨q2, q3, d1, u1, e2, e3, e4, e5, e6, hr3⟩ := key h10 h1 hr1
  obtain ⟨q4, out, s', e7, ⟨_, _, hm, _, rfl⟩, hr4⟩ := chCall_spec (op := .resetSource) hr3 ⟨ts, true, rfl⟩
  cases hm
  simp only [chCall, Option.map_eq_some_iff, Prod.mk.injEq] at e7
  obtain ⟨q4', e7, rfl, rfl⟩ := e7
  obtain ⟨q5, q6, d2, u2, e8, e9, e10, e11, e12, hr6⟩ := key h20 h2 hr4
  exact ⟨q1', q2, q3, q4', q5, q6, d1, u1, d2, u2, e1, e2, e3, e4, e5, e6, e7, e8, e9, e10, e11, e12⟩

/-! ### A concrete case -/

/-- Eight arcs on five nodes and the hierarchy that `build` computes. -/
def sampleCh : Option Ch :=
  Ch.build true 5 [0, 0, 1, 1, 2, 3, 3, 4] [1, 2, 2, 3, 3, 4, 0, 3] [4, 1, 1, 5, 7, 1, 2, 2] 500 (fun _ => 0) (fun _ => 0)

def sampleChGraph : QGraph :=
  ⟨5, listArcs [0, 0, 1, 1, 2, 3, 3, 4] [1, 2, 2, 3, 3, 4, 0, 3] [4, 1, 1, 5, 7, 1, 2, 2]⟩

set_option maxRecDepth 10000 in
/-- Non-vacuity: the hypotheses hold for the sample; it contains a shortcut. -/
theorem sampleCh_built : ∃ ch, sampleCh = some ch ∧ BuiltFor ch sampleChGraph ∧ ch.backward.isOriginal.isSet 3 = some false := by
  have h : (sampleCh.any fun ch => (ch.forward.weight.all fun w => decide (w ≤ lightArc)) &&
      (ch.backward.weight.all fun w => decide (w ≤ lightArc)) && decide (ch.backward.isOriginal.isSet 3 = some false)) = true := by
    decide +kernel
  cases hc : sampleCh with
  | none => rw [hc] at h; cases h
  | some ch =>
    rw [hc] at h
    simp only [Option.any_some, Bool.and_eq_true, List.all_eq_true, decide_eq_true_eq] at h
    refine ⟨ch, rfl, ⟨_, _, _, ⟨rfl, rfl, rfl, ?_, ?_, ?_, ?_, ?_⟩, true, 500, _, _, Or.inl hc, h.1.1, h.1.2⟩, h.2⟩
    · decide
    · decide
    · decide
    · decide
    · decide

set_option maxRecDepth 10000 in
/-- One object, several queries: two sources with offsets, then `reset` and two runs with
pinned targets. -/
example : (sampleCh.bind fun ch => (runCalls chCall (ChQuery.new ch) [.addSource 0 3, .addSource 2 9, .addTarget 4 1, .run,
      .results, .reset, .pinTargets [4, 0, 4], .addSource 1 0, .runToPinnedTargets, .resultsToTargets, .resetSource,
      .addSource 2 0, .addSource 3 4, .runToPinnedTargets, .resultsToTargets]).map (·.2.filterMap fun
        | .result r => some ([r.distance, r.source, r.target], r.arcs, r.nodes)
        | .lists d u => some ([], d, u)
        | _ => none)) =
    some [([13, 0, 4], [1, 4, 5], [0, 2, 3, 4]), ([], [6, 7, 6], [1, 1, 1]), ([], [5, 6, 5], [3, 3, 3])] := by decide +kernel

/-! ### Boundary conditions -/

set_option maxRecDepth 10000 in
/-- The length restriction on the list of pinned nodes is necessary: pinning more nodes than the graph has
(repetitions are allowed) writes past the end of a vector. -/
theorem C24_too_many_pinned_targets_undefined :
    (sampleCh.bind fun ch => (ChQuery.new ch).pinTargets [0, 0, 0, 0, 0]).isSome = true ∧
    (sampleCh.bind fun ch => (ChQuery.new ch).pinTargets [0, 0, 0, 0, 0, 0]) = none := by decide +kernel

set_option maxRecDepth 10000 in
/-- With an empty list of pinned targets the run succeeds but reading the distances is undefined. -/
theorem C24_no_pinned_targets_undefined :
    (sampleCh.bind fun ch => (runCalls chCall (ChQuery.new ch) [.pinTargets [], .addSource 0 0, .runToPinnedTargets]).map fun r =>
      (r.2.length, r.1.getDistancesToTargets)) = some (3, none) := by decide +kernel

/-- A default-constructed query object cannot be attached to a hierarchy without nodes. -/
theorem C34_default_constructed_empty : ∃ ch, Ch.build false 0 [] [] [] 500 (fun _ => 0) (fun _ => 0) = some ch ∧
    ChQuery.null.resetCh ch = none := by
  refine ⟨((Ch.build false 0 [] [] [] 500 (fun _ => 0) (fun _ => 0)).getD ⟨[], [], ⟨[], [], [], [], [], ⟨none, 0⟩⟩, ⟨[], [], [], [], [], ⟨none, 0⟩⟩⟩), ?_, ?_⟩
  · decide +kernel
  · decide +kernel

/-- With assertions enabled the construction aborts for a graph without arcs. -/
theorem C22_build_without_arcs_aborts : Ch.build true 2 [] [] [] 500 (fun _ => 0) (fun _ => 0) = none := by decide +kernel

/-- With assertions enabled, hierarchies are built only for arguments that fit together: one tail, head and weight per arc, at least
one arc, and all end points are nodes. Anything else aborts. -/
theorem C22_arguments_checked (n : Nat) (tail head weight : List Nat) (maxPop : Nat) (junkF junkB : Nat → Word)
    (h : tail.length ≠ head.length ∨ tail.length ≠ weight.length ∨ tail = [] ∨ ∃ x, (x ∈ tail ∨ x ∈ head) ∧ n ≤ x) :
    Ch.build true n tail head weight maxPop junkF junkB = none ∧
    ∀ rank : List Nat, rank.length = n → Ch.buildGivenRank true rank tail head weight maxPop junkF junkB = none := by
  have e : checkChInput true n tail head weight = none := by
    cases hc : checkChInput true n tail head weight with
    | none => rfl
    | some u =>
      exfalso
      simp only [checkChInput, if_true, Option.bind_eq_bind, Option.bind_eq_some_iff, check_eq_some, decide_eq_true_eq, Bool.and_eq_true,
        List.all_eq_true] at hc
      obtain ⟨_, h1, _, h2, _, ⟨h3, h4⟩, h5, h6⟩ := hc
      rcases h with h | h | h | ⟨x, hx | hx, hn⟩
      · exact h h1
      · exact h h2
      · exact h3 h
      · exact absurd (h4 x hx) (by omega)
      · exact absurd (h6 x hx) (by omega)
  refine ⟨?_, fun rank hr => ?_⟩
  · unfold Ch.build
    rw [e]
    rfl
  · unfold Ch.buildGivenRank
    simp only [hr]
    rw [e]
    rfl

example : [0, 1].length ≠ [0, 1].length ∨ [0, 1].length ≠ [3, 3].length ∨ [0, 1] = ([] : List Nat) ∨ ∃ x, (x ∈ [0, 1] ∨ x ∈ [1, 2]) ∧ 2 ≤ x :=
  Or.inr (Or.inr (Or.inr ⟨2, Or.inr (by simp), by omega⟩))

end RK.Props
