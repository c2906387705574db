import Verif.Proof.Tools
import Verif.Proof.ShortWalk
/-! # Property theorems C68 (run_dijkstra, compute_contraction_hierarchy, run_contraction_hierarchy_query) -/
namespace RK.Props
open RK _root_.Spec

/-- A graph that the tools accept: an adjacency array with at least one arc, at most 2^30 nodes and fewer than 2^32 arcs,
one weight per arc. -/
structure ToolGraph (n : Nat) (firstOut head weight : List Nat) : Prop where
  csr : IsCSR n firstOut head
  nodes : n ≤ 2 ^ 30
  size : head.length < 2 ^ 32
  nonempty : head ≠ []
  weights : weight.length = head.length

/-- The hierarchy `ch` that the construction builds for the graph: its arcs are light (see C20, C22), and it fits into a
file with 32 bit sizes on the given disk. With a hardened standard library it has arcs in both directions. -/
structure ToolHierarchy (asserts hardened : Bool) (junkF junkB : Nat → Word) (disk : Disk) (n : Nat) (firstOut head weight : List Nat)
    (ch : Ch) : Prop where
  built : ∃ tail : List Nat, tail.length = head.length ∧ (∀ x a : Nat, OutArc firstOut x a → tail[a]? = some x) ∧
    Ch.build asserts n tail head weight 500 junkF junkB = some ch
  light_forward : ∀ w ∈ ch.forward.weight, w ≤ lightArc
  light_backward : ∀ w ∈ ch.backward.weight, w ≤ lightArc
  nonempty : hardened = false ∨ NoEmptyVectors ch
  size : 3 * ch.rank.length + 2 + 4 * ch.forward.head.length + 4 * ch.backward.head.length < 2 ^ 32
  open_ : disk.canOpen = true
  room : 24 + 4 * (3 * ch.rank.length + 2 + 4 * ch.forward.head.length + 4 * ch.backward.head.length) +
      64 * ((ch.forward.head.length + 511) / 512) + 64 * ((ch.backward.head.length + 511) / 512) ≤ disk.room

/-- C68, Dijkstra: for every graph and every pair of query files the tool saves the exact distances, query by query,
although it stops each search at its target and reuses the search object. The sums of a distance and an arc have to fit
into 32 bits. -/
theorem C68_run_dijkstra (n : Nat) (firstOut head weight source target : List Nat) (hG : ToolGraph n firstOut head weight)
    (hq : QueryFiles n source target)
    (hno : ∀ s ∈ source, ∀ x k a y w, IsDist (openArcs firstOut head weight) s x k →
      openArcs firstOut head weight a x y w → k + w < 2 ^ 32) :
    ∃ distance, toolRunDijkstra firstOut head weight source target = .ok distance ∧
      Answers (ExactDistance (openArcs firstOut head weight)) source target distance :=
  toolRunDijkstra_spec hG.csr hG.nodes hG.size hG.nonempty hG.weights hq hno

/-- C68, Dijkstra, with a condition that can be read off the input: the number of nodes times the largest weight of an open arc fits into
32 bits. -/
theorem C68_run_dijkstra_small (n : Nat) (firstOut head weight source target : List Nat) (hG : ToolGraph n firstOut head weight)
    (hq : QueryFiles n source target) (W : Nat) (hW : ∀ w ∈ weight, w < closed → w ≤ W) (hfit : n * W < 2 ^ 32) :
    ∃ distance, toolRunDijkstra firstOut head weight source target = .ok distance ∧
      Answers (ExactDistance (openArcs firstOut head weight)) source target distance :=
  C68_run_dijkstra n firstOut head weight source target hG hq
    fun s h _ _ _ _ _ hk ha => sums_fit hG.csr hW hfit (hq.source_lt s h) hk ha

/-- C68, Contraction Hierarchy: the construction tool accepts its own hierarchy and saves it; on that file the query tool
saves the exact distances of the original graph for every pair of query files. -/
theorem C68_compute_and_query_partial (asserts hardened : Bool) (junkF junkB : Nat → Word) (pad : List Byte) (hpad : pad.length = 4)
    (disk : Disk) (n : Nat) (firstOut head weight : List Nat) (hG : ToolGraph n firstOut head weight)
    (hw : ∀ w ∈ weight, w ≤ 2 * lightArc) (ch : Ch)
    (hch : ToolHierarchy asserts hardened junkF junkB disk n firstOut head weight ch) :
    ∃ file, toolComputeCh asserts hardened junkF junkB pad disk firstOut head weight = .ok file ∧
      ∀ source target, QueryFiles n source target →
        ∃ distance, toolRunChQuery hardened (some file) source target = .ok distance ∧
          Answers (CappedDistance (csrArcs firstOut head weight)) source target distance := by
  obtain ⟨tail, htl, hown, hb⟩ := hch.built
  have ht : IsTail firstOut head tail := ⟨htl, hown⟩
  have hin : GraphInput ⟨n, csrArcs firstOut head weight⟩ tail head weight :=
    ⟨(isTail_arcs hG.csr ht).symm, htl.symm, by rw [htl, hG.weights], isTail_lt hG.csr ht,
      fun x hx => by
        obtain ⟨a, ha⟩ := List.getElem?_of_mem hx
        exact hG.csr.head_lt a x ha,
      hw, hG.nodes, by rw [htl]; exact hG.size⟩
  have hbf : BuiltFor ch ⟨n, csrArcs firstOut head weight⟩ :=
    ⟨tail, head, weight, hin, asserts, 500, junkF, junkB, Or.inl hb, hch.light_forward, hch.light_backward⟩
  obtain ⟨tail', head', weight', OF, OB, hi', hf, l1, l2⟩ := builtFor_full hbf
  obtain ⟨file, ch', e1, e2, e3⟩ := C35_file_round_trip_partial hardened pad hpad ch OF OB (hf.storable hG.nodes hi'.size l1 l2)
    hch.nonempty hch.size disk hch.open_ hch.room
  have hok := hierOk_loaded hbf hf.forward hf.backward e3
  refine ⟨file, ?_, fun source target hq => ?_⟩
  · obtain ⟨tail2, e4, ht2⟩ := invert_tail hG.csr
    obtain rfl := isTail_unique hG.csr ht ht2
    have hl : firstOut.length - 1 = n := by have := hG.csr.length; omega
    unfold toolComputeCh
    simp only [(C66_graph_accepted_iff_partial firstOut head).2 ⟨n, hG.csr⟩, hG.nonempty, ne_eq, not_false_eq_true, decide_true, Res.require_true,
      checkToolInput_ok hG.csr hG.nonempty hG.weights, e4, hl, hb, builtFor_check hbf, Res.ofOption_some, Res.ok_bind, e1]
  · obtain ⟨q, distance, e4, h4⟩ := chQueries_spec hok hq
    refine ⟨distance, ?_, h4⟩
    have hne0 : decide (source.length ≠ 0) = true := by
      have := List.length_pos_iff.2 hq.nonempty
      simp only [decide_eq_true_eq]; omega
    unfold toolRunChQuery
    simp only [e2, e4, hne0, check_true, Res.ofOption_some, Res.ok_bind]

/-- C68, both ways lead to the same file: if all distances are below `inf_weight` then Dijkstra's algorithm and the
hierarchy save identical vectors. -/
theorem C68_tools_agree_partial (asserts hardened : Bool) (junkF junkB : Nat → Word) (pad : List Byte) (hpad : pad.length = 4)
    (disk : Disk) (n : Nat) (firstOut head weight : List Nat) (hG : ToolGraph n firstOut head weight)
    (hw : ∀ w ∈ weight, w ≤ 2 * lightArc) (ch : Ch)
    (hch : ToolHierarchy asserts hardened junkF junkB disk n firstOut head weight ch)
    (source target : List Nat) (hq : QueryFiles n source target)
    (hshort : ∀ s ∈ source, ∀ x d, IsDist (csrArcs firstOut head weight) s x d → d < 2147483647) :
    ∃ file distance, toolComputeCh asserts hardened junkF junkB pad disk firstOut head weight = .ok file ∧
      toolRunChQuery hardened (some file) source target = .ok distance ∧
      toolRunDijkstra firstOut head weight source target = .ok distance := by
  have hopen : openArcs firstOut head weight = csrArcs firstOut head weight := by
    funext a x y w
    apply propext
    constructor
    · rintro ⟨h, _⟩; exact h
    · rintro h
      have := hw w (List.mem_of_getElem? h.2.2)
      unfold lightArc at this
      exact ⟨h, by unfold closed; omega⟩
  obtain ⟨file, e1, h1⟩ := C68_compute_and_query_partial asserts hardened junkF junkB pad hpad disk n firstOut head weight hG hw ch hch
  obtain ⟨d1, e2, l1, h2⟩ := h1 source target hq
  obtain ⟨d2, e3, l2, h3⟩ := C68_run_dijkstra n firstOut head weight source target hG hq (by
    rw [hopen]
    intro s hs x k a y w hk ha
    have g1 := hshort s hs x k hk
    have g2 := hw w (List.mem_of_getElem? ha.2.2)
    unfold lightArc at g2
    omega)
  rw [hopen] at h3
  refine ⟨file, d1, e1, e2, ?_⟩
  rw [e3]
  congr 1
  apply List.ext_getElem?
  intro i
  by_cases hi : i < source.length
  · obtain ⟨s, hs⟩ := rd_isSome hi
    obtain ⟨t, ht⟩ := rd_isSome (v := target) (i := i) (by rw [← hq.length]; exact hi)
    obtain ⟨k1, g1, r1⟩ := h2 i s t hs ht
    obtain ⟨k2, g2, r2⟩ := h3 i s t hs ht
    rw [g1, g2]
    congr 1
    rcases r1 with ⟨_, r1⟩ | ⟨rfl, r1⟩
    · rcases r2 with r2 | ⟨r2, _⟩
      · obtain ⟨p1, w1⟩ := r1.1
        obtain ⟨p2, w2⟩ := r2.1
        exact Nat.le_antisymm (r2.2 _ _ w1) (r1.2 _ _ w2)
      · obtain ⟨p1, w1⟩ := r1.1
        exact absurd ⟨p1, _, w1⟩ r2
    · rcases r2 with r2 | ⟨_, r2⟩
      · obtain ⟨p2, w2⟩ := r2.1
        have := r1 _ _ w2
        have := hshort s (List.mem_of_getElem? hs) t k2 r2
        unfold closed at *
        omega
      · exact r2
  · rw [List.getElem?_eq_none (by omega), List.getElem?_eq_none (by omega)]

/-- C68, wrong input of the construction tool is reported with an exception and nothing is saved: vectors that are no
adjacency array, no arcs, or a weight vector of another length. -/
theorem C68_compute_rejects (asserts hardened : Bool) (junkF junkB : Nat → Word) (pad : List Byte) (disk : Disk)
    (firstOut head weight : List Nat) (h0 : firstOut ≠ [])
    (h : (¬ ∃ n, IsCSR n firstOut head) ∨ head = [] ∨ weight.length ≠ head.length) :
    toolComputeCh asserts hardened junkF junkB pad disk firstOut head weight = .error := by
  unfold toolComputeCh
  rcases checkIfGraphIsValid_spec (hd := head) h0 with ⟨e, hc⟩ | ⟨e, _⟩
  · rw [e, Res.ok_bind]
    rcases h with h | h | h
    · exact absurd ⟨_, hc⟩ h
    · subst h
      rfl
    · by_cases hne : head = []
      · subst hne; rfl
      · rw [decide_eq_true hne, Res.require_true, Res.ok_bind, checkToolInput_length hc hne h]
        rfl
  · rw [e]; rfl

/-- C68, wrong input of the Dijkstra tool. -/
theorem C68_dijkstra_rejects (n : Nat) (firstOut head weight source target : List Nat) (h0 : firstOut ≠ [])
    (h : (¬ ∃ n, IsCSR n firstOut head) ∨ (head ≠ [] ∧ weight.length ≠ head.length) ∨
      (ToolGraph n firstOut head weight ∧ source.length ≠ target.length)) :
    toolRunDijkstra firstOut head weight source target = .error := by
  unfold toolRunDijkstra
  rcases checkIfGraphIsValid_spec (hd := head) h0 with ⟨e, hc⟩ | ⟨e, _⟩
  · obtain ⟨tail, e1, ht⟩ := invert_tail hc
    rw [e, Res.ok_bind, e1, Res.ofOption_some, Res.ok_bind]
    rcases h with h | ⟨hne, h⟩ | ⟨hG, h⟩
    · exact absurd ⟨_, hc⟩ h
    · rw [checkToolInput_length hc hne h]
      rfl
    · obtain ⟨d, e2, _⟩ := rep_new (scalar_wf hG.csr hG.nodes hG.size ht hG.weights)
      have e2' : Dijkstra.new ⟨firstOut, tail, head⟩ = some d := e2
      rw [checkToolInput_ok hG.csr hG.nonempty hG.weights, Res.ok_bind, e2', Res.ofOption_some, Res.ok_bind, decide_eq_false h]
      rfl
  · rw [e]; rfl

/-- C68, finding: without queries both query tools divide by zero after all work is done. -/
theorem C68_no_queries_undefined (hardened : Bool) (file : Option (List Byte)) (ch : Ch) (hl : loadCh hardened file = .ok ch)
    (target : List Nat) (n : Nat) (firstOut head weight : List Nat) (hG : ToolGraph n firstOut head weight) :
    toolRunChQuery hardened file [] target = .ub ∧ toolRunDijkstra firstOut head weight [] [] = .ub := by
  constructor
  · unfold toolRunChQuery
    rw [hl]
    rfl
  · obtain ⟨tail, e1, ht⟩ := invert_tail hG.csr
    obtain ⟨d, e2, _⟩ := rep_new (scalar_wf hG.csr hG.nodes hG.size ht hG.weights)
    have e2' : Dijkstra.new ⟨firstOut, tail, head⟩ = some d := e2
    unfold toolRunDijkstra
    rw [(C66_graph_accepted_iff_partial firstOut head).2 ⟨n, hG.csr⟩, Res.ok_bind, e1, Res.ofOption_some, Res.ok_bind,
      checkToolInput_ok hG.csr hG.nonempty hG.weights, Res.ok_bind, e2']
    rfl

/-- C68, finding: the query tool for hierarchies does not compare the lengths of the query files; with fewer targets than
sources it reads behind the end of the vector. -/
theorem C68_missing_targets_undefined (hardened : Bool) (file : Option (List Byte)) (ch : Ch) (hl : loadCh hardened file = .ok ch)
    (source target : List Nat) (h : target.length < source.length) : toolRunChQuery hardened file source target = .ub := by
  unfold toolRunChQuery
  rw [hl, Res.ok_bind]
  cases e : forRange 0 source.length (ChQuery.new ch, List.replicate source.length 0) (chToolQuery source target) with
  | none => rfl
  | some r =>
    exfalso
    have := forRange_inv' (fun i _ => i ≤ target.length) (Nat.zero_le _) (Nat.zero_le _) e (by
      intro i s s' _ hi hp hs
      have := chToolQuery_target hs
      omega)
    omega

/-- C68, finding: the Dijkstra tool takes the maximum of an empty vector for a graph without arcs. -/
theorem C68_no_arcs_undefined (n : Nat) (firstOut weight source target : List Nat) (h : IsCSR n firstOut []) :
    toolRunDijkstra firstOut [] weight source target = .ub := by
  obtain ⟨tail, e1, ht⟩ := invert_tail h
  have a1 : firstOut.head? = some 0 := by rw [List.head?_eq_getElem?]; exact h.first
  have a2 : firstOut.getLast? = some 0 := by
    rw [List.getLast?_eq_getElem?, show firstOut.length - 1 = n by have := h.length; omega]; exact h.last
  unfold toolRunDijkstra
  rw [(C66_graph_accepted_iff_partial firstOut []).2 ⟨n, h⟩, Res.ok_bind, e1, Res.ofOption_some, Res.ok_bind]
  unfold checkToolInput
  rw [a1, a2]
  rfl

/-- A graph with five nodes: a detour, a cheap parallel arc, an arc of weight 0, and a node without arcs. -/
def sampleFirstOut : List Nat := [0, 3, 4, 5, 6, 6]
def sampleHead : List Nat := [1, 1, 2, 2, 3, 0]
def sampleWeight : List Nat := [9, 4, 7, 2, 0, 5]
def sampleDisk : Disk := ⟨true, 10000, [100, 3]⟩

/-- Non-vacuity: the sample meets the hypotheses. -/
theorem sampleTool_graph : ToolGraph 5 sampleFirstOut sampleHead sampleWeight := by
  obtain ⟨n, h⟩ := (C66_graph_accepted_iff_partial sampleFirstOut sampleHead).1 (by decide)
  have : n = 5 := by have := h.length; simp [sampleFirstOut] at this; omega
  subst this
  exact ⟨h, by decide, by decide, by decide, by decide⟩

theorem sampleTool_hierarchy : ∃ ch, ToolHierarchy true false (fun _ => 0) (fun _ => 0) sampleDisk 5 sampleFirstOut sampleHead sampleWeight ch := by
  have h : ((Ch.build true 5 [0, 0, 0, 1, 2, 3] sampleHead sampleWeight 500 (fun _ => 0) (fun _ => 0)).any fun ch =>
      (ch.forward.weight.all fun w => decide (w ≤ lightArc)) && (ch.backward.weight.all fun w => decide (w ≤ lightArc)) &&
      decide (ch.rank.length = 5) && decide (ch.forward.head.length ≤ 10) && decide (ch.backward.head.length ≤ 10)) = true := by decide +kernel
  cases hc : Ch.build true 5 [0, 0, 0, 1, 2, 3] sampleHead sampleWeight 500 (fun _ => 0) (fun _ => 0) with
  | none => rw [hc] at h; cases h
  | some ch =>
    rw [hc] at h
    simp only [Option.any_some, Bool.and_eq_true, List.all_eq_true, decide_eq_true_eq] at h
    obtain ⟨⟨⟨⟨h1, h2⟩, h3⟩, h4⟩, h5⟩ := h
    obtain ⟨tail, e, ht⟩ := invert_tail sampleTool_graph.csr
    have : tail = [0, 0, 0, 1, 2, 3] := by
      have e' : invertInverseVector sampleFirstOut = some [0, 0, 0, 1, 2, 3] := by decide
      rw [e] at e'; injection e'
    subst this
    refine ⟨ch, ⟨_, ht.length, ht.own, hc⟩, h1, h2, Or.inl rfl, by omega, rfl, ?_⟩
    simp only [sampleDisk]
    omega

theorem sampleTool_queries : QueryFiles 5 [0, 0, 3, 4, 2, 0] [3, 1, 2, 4, 4, 0] :=
  ⟨by decide, by decide, by decide, by decide⟩

/-- What the tools compute for the sample. -/
example : toolRunDijkstra sampleFirstOut sampleHead sampleWeight [0, 0, 3, 4, 2, 0] [3, 1, 2, 4, 4, 0] = .ok [6, 4, 11, 0, 2147483647, 0] := by
  decide +kernel

example : (toolComputeCh true false (fun _ => 0) (fun _ => 0) [0, 0, 0, 0] sampleDisk sampleFirstOut sampleHead sampleWeight >>= fun file =>
    toolRunChQuery false (some file) [0, 0, 3, 4, 2, 0] [3, 1, 2, 4, 4, 0]) = .ok [6, 4, 11, 0, 2147483647, 0] := by
  decide +kernel

example : toolRunDijkstra sampleFirstOut sampleHead sampleWeight [0, 0] [3] = .error := by decide +kernel

end RK.Props
