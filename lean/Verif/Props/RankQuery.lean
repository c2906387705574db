import Verif.Proof.RankQuery
import Verif.Props.Tools
import Verif.Proof.ShortWalk
/-! # Property theorems C70 (generate_dijkstra_rank_test_queries) -/
namespace RK.Props
open RK _root_.Spec

/-- A graph that the tool can work with. -/
structure RankGraph (n : Nat) (firstOut head weight : List Nat) : Prop where
  csr : IsCSR n firstOut head
  nodes : n ≤ 2 ^ 30
  size : head.length < 2 ^ 32
  weights : weight.length = head.length

/-- C70: for every graph, whatever nodes are drawn, the tool saves for each drawn source node, in the order of the draws,
one row for each of the ranks 6, 7, ... for which enough nodes can be reached. The distance of each row is exact, and the
target is one of the `2 ^ rank` nodes closest to the source. No search runs into the undefined shift. The sums of a distance
and an arc have to fit into 32 bits. -/
theorem C70_rank_queries (n : Nat) (firstOut head weight drawn : List Nat) (hn : n ≠ 0) (hG : RankGraph n firstOut head weight)
    (hs : ∀ s ∈ drawn, s < n)
    (hno : ∀ s ∈ drawn, ∀ x k a y w, IsDist (openArcs firstOut head weight) s x k →
      openArcs firstOut head weight a x y w → k + w < 2 ^ 32) :
    ∃ rows, toolRankQueries firstOut head weight drawn = .ok rows ∧ RankRows (openArcs firstOut head weight) drawn rows := by
  obtain ⟨tail, e1, ht⟩ := invert_tail hG.csr
  obtain ⟨d, e2, h2⟩ := rep_new (scalar_wf hG.csr hG.nodes hG.size ht hG.weights)
  have e2' : Dijkstra.new ⟨firstOut, tail, head⟩ = some d := e2
  have hl : firstOut.length - 1 = n := by have := hG.csr.length; omega
  obtain ⟨d', new, e3, h3⟩ := rankQueriesFrom_spec (rows := []) h2 rfl hs hno
  refine ⟨new, ?_, h3⟩
  unfold toolRankQueries
  simp only [(C66_graph_accepted_iff_partial firstOut head).2 ⟨n, hG.csr⟩, e1, hl, decide_eq_true hn, check_true, e2', e3,
    Res.ofOption_some, Res.ok_bind, List.nil_append]

/-- C70 with a condition that can be read off the input: the number of nodes times the largest weight of an open arc fits into 32 bits. -/
theorem C70_rank_queries_small (n : Nat) (firstOut head weight drawn : List Nat) (hn : n ≠ 0) (hG : RankGraph n firstOut head weight)
    (hs : ∀ s ∈ drawn, s < n) (W : Nat) (hW : ∀ w ∈ weight, w < closed → w ≤ W) (hfit : n * W < 2 ^ 32) :
    ∃ rows, toolRankQueries firstOut head weight drawn = .ok rows ∧ RankRows (openArcs firstOut head weight) drawn rows :=
  C70_rank_queries n firstOut head weight drawn hn hG hs fun s h _ _ _ _ _ hk ha => sums_fit hG.csr hW hfit (hs s h) hk ha

/-- What a row of rank `r` says about the number of nodes: at most `2 ^ r - 1` nodes are strictly closer than the target. -/
theorem C70_few_are_closer (A : ArcRel) (q : RankQuery) (h : HasRank A q) (closer : List Nat) (hnd : closer.Nodup)
    (hc : ∀ x ∈ closer, ∃ d, IsDist A q.source x d ∧ d < q.distance) : closer.length + 1 ≤ 2 ^ q.rank := by
  obtain ⟨h1, near, n1, n2, n3, n4, n5⟩ := h
  have hsub : closer ⊆ near.erase q.target := by
    intro x hx
    obtain ⟨d, hd, hlt⟩ := hc x hx
    refine (n1.mem_erase_iff).2 ⟨?_, n5 x d hd hlt⟩
    rintro rfl
    obtain ⟨p, hp⟩ := hd.1
    have := h1.2 p d hp
    omega
  have := (hnd.subperm hsub).length_le
  rw [List.length_erase_of_mem n3, n2] at this
  have := Nat.two_pow_pos q.rank
  omega

/-- The ranks are exactly those for which enough nodes can be reached. -/
theorem C70_rank_present_iff (A : ArcRel) (s : Nat) (block : List RankQuery) (h : RankBlock A s block) (r : Nat) (h6 : 6 ≤ r) :
    (∃ q ∈ block, q.rank = r) ↔ ReachesMany A s (2 ^ r) := by
  constructor
  · rintro ⟨q, hq, rfl⟩
    obtain ⟨hs, _, near, n1, n2, _, n4, _⟩ := h.right q hq
    refine ⟨near, n1, n2, fun x hx => ?_⟩
    obtain ⟨d, hd, _⟩ := n4 x hx
    obtain ⟨p, hp⟩ := hd.1
    rw [hs] at hp
    exact ⟨p, d, hp⟩
  · intro hm
    have := h.complete r h6 hm
    have : r ∈ block.map RankQuery.rank := by
      rw [h.ranks, List.mem_range'_1]
      omega
    obtain ⟨q, hq, e⟩ := List.mem_map.1 this
    exact ⟨q, hq, e⟩

/-- C70, wrong input: vectors that are no adjacency array are reported with an exception and nothing is saved. -/
theorem C70_rejects (firstOut head weight drawn : List Nat) (h0 : firstOut ≠ []) (h : ¬ ∃ n, IsCSR n firstOut head) :
    toolRankQueries firstOut head weight drawn = .error := by
  unfold toolRankQueries
  rcases checkIfGraphIsValid_spec (hd := head) h0 with ⟨e, hc⟩ | ⟨e, _⟩
  · exact absurd ⟨_, hc⟩ h
  · rw [e]; rfl

/-- C70, finding: the graph without nodes passes the checks, and the distribution gets the range from 0 to -1. -/
theorem C70_no_nodes_undefined (weight drawn : List Nat) : toolRankQueries [0] [] weight drawn = .ub := by
  rfl

/-- C70, finding: other than the query tools this one does not check the length of the weight vector; it is read behind
its end. -/
theorem C70_short_weight_undefined : toolRankQueries [0, 1, 1] [1] [] [0] = .ub := by
  decide +kernel

/-- Non-vacuity: a cycle of 70 nodes. -/
def cycleFirstOut : List Nat := List.range 71
def cycleHead : List Nat := (List.range 70).map fun x => (x + 1) % 70
def cycleWeight : List Nat := (List.range 70).map fun x => x % 3

theorem cycle_graph : RankGraph 70 cycleFirstOut cycleHead cycleWeight := by
  obtain ⟨n, h⟩ := (C66_graph_accepted_iff_partial cycleFirstOut cycleHead).1 (by decide +kernel)
  have : n = 70 := by have := h.length; simp [cycleFirstOut] at this; omega
  subst this
  exact ⟨h, by decide, by decide +kernel, by decide +kernel⟩

example : ∃ rows, toolRankQueries cycleFirstOut cycleHead cycleWeight [5, 0] = .ok rows ∧
    RankRows (openArcs cycleFirstOut cycleHead cycleWeight) [5, 0] rows :=
  C70_rank_queries_small 70 _ _ _ _ (by decide) cycle_graph (by decide) 2 (fun w hw _ => (by decide +kernel : ∀ w ∈ cycleWeight, w ≤ 2) w hw) (by decide)

/-- From node 5 the 64th node is node 68, from node 0 it is node 63 (arcs of weight 0 tie nodes). -/
example : toolRankQueries cycleFirstOut cycleHead cycleWeight [5, 0] = .ok [⟨5, 68, 6, 63⟩, ⟨0, 63, 6, 63⟩] := by decide +kernel

end RK.Props
