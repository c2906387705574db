import Verif.Proof.Dijkstra
import Verif.Proof.History
import Verif.Proof.ShortWalk
/-! # Property theorems C16, C17, C18 (dijkstra.h) -/
namespace RK.Props
open Spec

/-- A search object together with the weight callback its user passes to `settle`. -/
structure DijClient where
  dij : Dijkstra
  time : WeightFn

/-- Performs one call on the model; `none` stands for undefined behaviour or a failed assertion. -/
def dijCall (c : DijClient) : DijOp → Option (DijClient × DijOut)
  | .reset => c.dij.reset.map fun d => ({ c with dij := d }, .unit)
  | .resetGraph G => (c.dij.resetGraph ⟨G.firstOut, G.tail, G.head⟩).map fun d => (⟨d, G.time⟩, .unit)
  | .addSource id time => (c.dij.addSource id time).map fun d => ({ c with dij := d }, .unit)
  | .settle => (c.dij.settle c.time).map fun r => ({ c with dij := r.1 }, .node r.2.1 r.2.2)
  | .isFinished => some (c, .flag c.dij.isFinished)
  | .wasNodeReached x => (c.dij.wasNodeReached x).map fun b => (c, .flag b)
  | .getDistanceTo x => (c.dij.getDistanceTo x).map fun k => (c, .num k)
  | .getPathsTo x => (c.dij.getArcPathTo x).bind fun arcs =>
      (c.dij.getNodePathTo x).map fun nodes => (c, .paths arcs nodes)

/-- the client represents the search -/
def DijClient.Rep (c : DijClient) (s : Search) : Prop := DRep c.dij s ∧ c.time = s.graph.time

theorem dijCall_spec {c : DijClient} {s : Search} {op : DijOp} (hc : c.Rep s) (hp : DijPre s op) :
    ∃ c' out s', dijCall c op = some (c', out) ∧ DijStep s op out s' ∧ c'.Rep s' := by
  obtain ⟨h, ht⟩ := hc
  cases op with
  | reset =>
    obtain ⟨d', e, h'⟩ := h.reset
    exact ⟨{ c with dij := d' }, _, _, by simp only [dijCall, e, Option.map_some], ⟨rfl, rfl⟩, h', ht⟩
  | resetGraph G =>
    obtain ⟨d', e, h'⟩ := h.resetGraph hp
    unfold toGraph at e
    exact ⟨⟨d', G.time⟩, _, _, by simp only [dijCall, e, Option.map_some], ⟨rfl, rfl⟩, h', rfl⟩
  | addSource id time =>
    obtain ⟨d', e, h'⟩ := h.addSource (time := time) hp.1 hp.2.2.1 hp.2.2.2
    exact ⟨{ c with dij := d' }, _, _, by simp only [dijCall, e, Option.map_some], ⟨rfl, rfl⟩, h', ht⟩
  | settle =>
    obtain ⟨d', x, k, e, h1, h2, h3, h4, h'⟩ := h.settle hp.1 hp.2
    exact ⟨{ c with dij := d' }, _, _, by simp only [dijCall, ht, e, Option.map_some],
      ⟨x, k, rfl, h1, h2, h3, h4, rfl⟩, h', ht⟩
  | isFinished => exact ⟨c, _, _, rfl, ⟨rfl, _, rfl, h.finished_iff⟩, h, ht⟩
  | wasNodeReached x =>
    exact ⟨c, .flag (decide (x ∈ s.settled.map Prod.fst)), _,
      by simp only [dijCall, h.wasNodeReached hp, Option.map_some],
      ⟨rfl, _, rfl, by rw [isSettled_iff, decide_eq_true_iff]⟩, h, ht⟩
  | getDistanceTo x =>
    obtain ⟨k, e, h1⟩ := h.getDistanceTo hp
    exact ⟨c, _, _, by simp only [dijCall, e, Option.map_some], ⟨rfl, _, rfl, h1⟩, h, ht⟩
  | getPathsTo x =>
    obtain ⟨arcs, nodes, e1, e2, h1⟩ := h.getPathsTo hp
    exact ⟨c, _, _, by simp only [dijCall, e1, e2, Option.bind_some, Option.map_some],
      ⟨rfl, _, _, rfl, h1⟩, h, ht⟩

/-- C18 (with C16 and C17 for each single call). A search object constructed for a graph serves every
legal history of calls as specified by `DijStep`, in particular with any number of `reset`s to the same
or to another graph in between: after a reset it answers like a freshly constructed object. -/
theorem C18_dijkstra_histories (G : TGraph) (hG : G.WF) :
    ∃ d, Dijkstra.new ⟨G.firstOut, G.tail, G.head⟩ = some d ∧
      Implements dijCall DijStep DijPre ⟨d, G.time⟩ (Search.fresh G) := by
  obtain ⟨d, e, h⟩ := rep_new hG
  exact ⟨d, e, implements_of_simulation DijClient.Rep ⟨h, rfl⟩ (fun _ _ _ hc hp => dijCall_spec hc hp)⟩

/-- C18, default constructor: the first call has to be `reset(first_out, tail, head)`. -/
theorem C18_dijkstra_default_constructed (G : TGraph) (hG : G.WF) :
    ∃ d, Dijkstra.null.resetGraph ⟨G.firstOut, G.tail, G.head⟩ = some d ∧
      Implements dijCall DijStep DijPre ⟨d, G.time⟩ (Search.fresh G) := by
  obtain ⟨d, e, h⟩ := resetGraph_null (d := Dijkstra.null) hG rfl
  exact ⟨d, e, implements_of_simulation DijClient.Rep ⟨h, rfl⟩ (fun _ _ _ hc hp => dijCall_spec hc hp)⟩

/-- Performs `add_source` for all elements of a list of (node, departure time). -/
def addSources (srcs : List (Nat × Nat)) (d : Dijkstra) : Option Dijkstra :=
  srcs.foldlM (fun d p => d.addSource p.1 p.2) d

theorem addSources_spec : ∀ (srcs : List (Nat × Nat)) {d : Dijkstra} {s : Search}, DRep d s →
    s.settled = [] → (∀ p ∈ srcs, p.1 < s.graph.n) →
    ((s.sources ++ srcs).map Prod.fst).Nodup →
    ∃ d', addSources srcs d = some d' ∧ DRep d' { s with sources := s.sources ++ srcs }
  | [], d, s, h, _, _, _ => ⟨d, rfl, by simpa using h⟩
  | (id, t) :: srcs, d, s, h, h0, hlt, hnd => by
    have hnew : ∀ t, (id, t) ∉ s.sources := by
      intro t' ht'
      rw [List.map_append, List.nodup_append] at hnd
      exact hnd.2.2 id (List.mem_map.2 ⟨_, ht', rfl⟩) id (by simp) rfl
    obtain ⟨d', e, h'⟩ := h.addSource (time := t) (hlt (id, t) (by simp)) h0 hnew
    obtain ⟨d'', e2, h''⟩ := addSources_spec srcs h' h0 (fun p hp => hlt p (by simp [hp]))
      (by simpa using hnd)
    refine ⟨d'', ?_, by simpa using h''⟩
    unfold addSources at e2 ⊢
    rw [List.foldlM_cons]
    simp only [e, Option.bind_eq_bind, Option.bind_some, e2]

/-- C16/C17 for a search that runs to completion. Sources are distinct; arrival times fit into 32
bits. Then `while(!is_finished()) settle(...)` terminates (within `n + 1` tests of the loop condition)
and afterwards every node can be asked: reachable nodes report their exact distance and a path that
realises it, all other nodes report `inf_weight` and empty paths. -/
theorem C16_C17_run_to_completion (G : TGraph) (hG : G.WF) (srcs : List (Nat × Nat))
    (hlt : ∀ p ∈ srcs, p.1 < G.n) (hnd : (srcs.map Prod.fst).Nodup)
    (hno : (⟨G, srcs, []⟩ : Search).NoOverflow) :
    ∃ d0 d1 d2, Dijkstra.new ⟨G.firstOut, G.tail, G.head⟩ = some d0 ∧ addSources srcs d0 = some d1 ∧
      Dijkstra.runLoop G.time (G.n + 1) d1 = some d2 ∧ d2.isFinished = true ∧
      ∀ x < G.n, ∃ k arcs nodes, d2.getDistanceTo x = some k ∧ d2.getArcPathTo x = some arcs ∧
        d2.getNodePathTo x = some nodes ∧
        (((⟨G, srcs, []⟩ : Search).Distance x k ∧ d2.wasNodeReached x = some true ∧
            ∃ src ∈ srcs, Journey G src.1 src.2 arcs x k ∧ NodesAlong G src.1 arcs nodes ∧ nodes.Nodup) ∨
         ((∀ k', ¬ (⟨G, srcs, []⟩ : Search).Arrives x k') ∧ d2.wasNodeReached x = some false ∧
            k = closed ∧ arcs = [] ∧ nodes = [])) := by
  obtain ⟨d0, e0, h0⟩ := rep_new hG
  obtain ⟨d1, e1, h1⟩ := addSources_spec srcs h0 rfl hlt (by simpa [Search.fresh] using hnd)
  have hs : ({ Search.fresh G with sources := (Search.fresh G).sources ++ srcs } : Search) =
      ⟨G, srcs, []⟩ := by simp [Search.fresh]
  rw [hs] at h1
  obtain ⟨d2, ⟨G', srcs', settled⟩, e2, h2, hg, hsrc, hall⟩ := runLoop_spec (fuel := G.n + 1) h1 hno (by simp)
  simp only at hg hsrc
  subst hg; subst hsrc
  refine ⟨d0, d1, d2, e0, e1, e2, h2.finished_iff.2 hall, fun x hx => ?_⟩
  obtain ⟨k, ek, hk⟩ := h2.getDistanceTo (x := x) hx
  obtain ⟨arcs, nodes, ea, en, hp⟩ := h2.getPathsTo (x := x) hx
  refine ⟨k, arcs, nodes, ek, ea, en, ?_⟩
  have hr := h2.wasNodeReached (x := x) hx
  rcases hk with ⟨hk1, hk2⟩ | ⟨hk1, hk2⟩
  · left
    refine ⟨hk2, by rw [hr, decide_eq_true (isSettled_iff.1 hk1)], ?_⟩
    rcases hp with ⟨hp1, _⟩ | ⟨src, hs1, k', hj, hd, _, hn⟩
    · exact absurd hk1 hp1
    · have : k' = k := Nat.le_antisymm (hd.2 k hk2.1) (hk2.2 k' hd.1)
      subst this
      exact ⟨src, hs1, hj, hn⟩
  · right
    rcases hp with ⟨_, hp2, hp3⟩ | ⟨_, _, _, _, _, hp1, _⟩
    · exact ⟨fun k' ha => hk1 (hall x k' ha),
        by rw [hr, decide_eq_false (fun h => hk1 (isSettled_iff.2 h))], hk2, hp2, hp3⟩
    · exact absurd hp1 hk1

/-- C16, the everyday case in elementary terms: one source, departure time 0, constant 32 bit weights
in an adjacency array, arcs with weight `inf_weight` closed. If all distances plus one more arc stay
below 2^32 then after the search every node reports its shortest walk length, or `inf_weight` if there
is no walk. -/
theorem C16_scalar_one_to_all (n : Nat) (firstOut tail head weight : List Nat)
    (csr : IsCSR n firstOut head) (hn : n ≤ 2 ^ 30) (hm : head.length < 2 ^ 32)
    (htl : tail.length = head.length)
    (htail : ∀ (x a : Nat), OutArc firstOut x a → tail[a]? = some x)
    (hwl : weight.length = head.length)
    (s : Nat) (hs : s < n)
    (hno : ∀ x d a y w, IsDist (openArcs firstOut head weight) s x d →
      openArcs firstOut head weight a x y w → d + w < 2 ^ 32) :
    ∃ d0 d1 d2, Dijkstra.new ⟨firstOut, tail, head⟩ = some d0 ∧ d0.addSource s 0 = some d1 ∧
      Dijkstra.runLoop (scalarGetWeight weight) (n + 1) d1 = some d2 ∧
      ∀ x < n, ∃ k, d2.getDistanceTo x = some k ∧
        (IsDist (openArcs firstOut head weight) s x k ∨
         (¬ Reachable (openArcs firstOut head weight) s x ∧ k = 2147483647)) := by
  have hG : (scalarGraph n firstOut tail head weight).WF := by
    refine ⟨csr, htl, htail, hn, hm, ?_, ?_⟩
    · intro a t ha
      exact rd_isSome (v := weight) (i := a) (by
        have : a < head.length := ha
        omega)
    · intro a t t' w' h1 h2 h3
      exact ⟨w', h2, h3, by omega⟩
  have arr : ∀ y k, (⟨scalarGraph n firstOut tail head weight, [(s, 0)], []⟩ : Search).Arrives y k ↔
      ∃ p, Walk (openArcs firstOut head weight) s p y k := by
    intro y k
    constructor
    · rintro ⟨src, h1, p, hj⟩
      simp only [List.mem_singleton] at h1
      subst h1
      obtain ⟨l, hl, hw⟩ := journey_walk hj
      simp only at hl
      exact ⟨p, by rw [hl]; simpa using hw⟩
    · rintro ⟨p, hw⟩
      exact ⟨(s, 0), by simp, p, by simpa using walk_journey (n := n) (tail := tail) (t := 0) hw⟩
  have dist : ∀ y k, (⟨scalarGraph n firstOut tail head weight, [(s, 0)], []⟩ : Search).Distance y k ↔
      IsDist (openArcs firstOut head weight) s y k := by
    intro y k
    unfold Search.Distance IsDist
    rw [arr]
    constructor
    · rintro ⟨h1, h2⟩; exact ⟨h1, fun p l hw => h2 l ((arr y l).2 ⟨p, hw⟩)⟩
    · rintro ⟨h1, h2⟩
      exact ⟨h1, fun l hl => by obtain ⟨p, hw⟩ := (arr y l).1 hl; exact h2 p l hw⟩
  obtain ⟨d0, d1, d2, e0, e1, e2, _, h⟩ := C16_C17_run_to_completion _ hG [(s, 0)]
    (by simpa using (show s < (scalarGraph n firstOut tail head weight).n from hs)) (by simp)
    (by
      intro x d a y w hd ha
      exact hno x d a y w ((dist x d).1 hd) (arc_scalar.1 ha))
  refine ⟨d0, d1, d2, e0, by simpa [addSources] using e1, e2, fun x hx => ?_⟩
  obtain ⟨k, _, _, ek, _, _, h'⟩ := h x hx
  refine ⟨k, ek, ?_⟩
  rcases h' with ⟨h1, _⟩ | ⟨h1, _, h2, _⟩
  · exact Or.inl ((dist x k).1 h1)
  · exact Or.inr ⟨fun ⟨p, l, hw⟩ => h1 l ((arr x l).2 ⟨p, hw⟩), h2⟩

/-- C16 with a condition that can be read off the input: the number of nodes times the largest weight of an open arc fits into
32 bits. -/
theorem C16_scalar_one_to_all_small (n : Nat) (firstOut tail head weight : List Nat)
    (csr : IsCSR n firstOut head) (hn : n ≤ 2 ^ 30) (hm : head.length < 2 ^ 32)
    (htl : tail.length = head.length)
    (htail : ∀ (x a : Nat), OutArc firstOut x a → tail[a]? = some x)
    (hwl : weight.length = head.length)
    (W : Nat) (hW : ∀ w ∈ weight, w < closed → w ≤ W) (hfit : n * W < 2 ^ 32) (s : Nat) (hs : s < n) :
    ∃ d0 d1 d2, Dijkstra.new ⟨firstOut, tail, head⟩ = some d0 ∧ d0.addSource s 0 = some d1 ∧
      Dijkstra.runLoop (scalarGetWeight weight) (n + 1) d1 = some d2 ∧
      ∀ x < n, ∃ k, d2.getDistanceTo x = some k ∧
        (IsDist (openArcs firstOut head weight) s x k ∨
         (¬ Reachable (openArcs firstOut head weight) s x ∧ k = 2147483647)) :=
  C16_scalar_one_to_all n firstOut tail head weight csr hn hm htl htail hwl s hs fun _ _ _ _ _ hk ha => sums_fit csr hW hfit hs hk ha

/-- A five node graph with a detour, a zero weight arc, a parallel arc, a loop, a closed arc and an
unreachable node. -/
def sampleGraph : TGraph where
  n := 5
  firstOut := [0, 4, 5, 6, 6, 6]
  tail := [0, 0, 0, 0, 1, 2]
  head := [1, 1, 2, 0, 2, 3]
  time := scalarGetWeight [9, 4, 7, 0, 2, 0]

/-- Non-vacuity: the sample meets the hypotheses of the theorems. -/
theorem sampleGraph_wf : sampleGraph.WF := by
  have out : ∀ x a, OutArc sampleGraph.firstOut x a →
      (x = 0 ∧ a < 4) ∨ (x = 1 ∧ a = 4) ∨ (x = 2 ∧ a = 5) := by
    rintro x a ⟨b, e, h1, h2, h3, h4⟩
    match x with
    | 0 => simp [sampleGraph] at h1 h2; omega
    | 1 => simp [sampleGraph] at h1 h2; omega
    | 2 => simp [sampleGraph] at h1 h2; omega
    | 3 => simp [sampleGraph] at h1 h2; omega
    | 4 => simp [sampleGraph] at h1 h2; omega
    | x + 5 => simp [sampleGraph] at h1 h2
  refine ⟨⟨rfl, ?_, rfl, rfl, ?_⟩, rfl, ?_, by decide, by decide, ?_, ?_⟩
  · intro x b e h1 h2
    match x with
    | 0 => simp [sampleGraph] at h1 h2; omega
    | 1 => simp [sampleGraph] at h1 h2; omega
    | 2 => simp [sampleGraph] at h1 h2; omega
    | 3 => simp [sampleGraph] at h1 h2; omega
    | 4 => simp [sampleGraph] at h1 h2; omega
    | x + 5 => simp [sampleGraph] at h1 h2
  · intro a y h
    have : y ∈ sampleGraph.head := List.mem_of_getElem? h
    simp [sampleGraph] at this ⊢; omega
  · intro x a h
    rcases out x a h with ⟨rfl, h⟩ | ⟨rfl, rfl⟩ | ⟨rfl, rfl⟩
    · match a, h with
      | 0, _ => rfl
      | 1, _ => rfl
      | 2, _ => rfl
      | 3, _ => rfl
    · rfl
    · rfl
  · intro a t ha
    exact rd_isSome (v := [9, 4, 7, 0, 2, 0]) (i := a) ha
  · intro a t t' w' h1 h2 h3
    exact ⟨w', h2, h3, by omega⟩

example : (Dijkstra.new ⟨sampleGraph.firstOut, sampleGraph.tail, sampleGraph.head⟩).bind (fun d =>
    (runCalls dijCall ⟨d, sampleGraph.time⟩ [.addSource 0 0, .settle, .settle, .settle, .isFinished,
      .settle, .isFinished, .getDistanceTo 3, .getDistanceTo 4, .getPathsTo 3, .reset, .addSource 1 5,
      .settle, .settle, .wasNodeReached 0, .getPathsTo 2]).map (·.2)) =
    some [.unit, .node 0 0, .node 1 4, .node 2 6, .flag false, .node 3 6, .flag true, .num 6,
      .num 2147483647, .paths [1, 4, 5] [0, 1, 2, 3], .unit, .unit, .node 1 5, .node 2 7, .flag false,
      .paths [4] [1, 2]] := by decide

/-- The overflow hypothesis is necessary: with a departure time near 2^32 the sum wraps around and the
head is settled *before* its tail's time. -/
theorem C16_overflow_witness :
    ((Dijkstra.new ⟨[0, 1, 1], [0], [1]⟩).bind fun d =>
      (runCalls dijCall ⟨d, scalarGetWeight [10]⟩ [.addSource 0 4294967290, .settle, .settle]).map (·.2)) =
    some [.unit, .node 0 4294967290, .node 1 4] := by decide

/-- Adding the same source twice violates the assertion of the queue. -/
theorem C16_duplicate_source_undefined :
    ((Dijkstra.new ⟨[0, 1, 1], [0], [1]⟩).bind fun d =>
      (runCalls dijCall ⟨d, scalarGetWeight [10]⟩ [.addSource 0 0, .addSource 0 0])).isNone = true := by decide

end RK.Props
