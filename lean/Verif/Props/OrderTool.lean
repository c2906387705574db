import Verif.Proof.OrderTool
import Verif.Spec.OrderTool
/-! # Property theorems C74 (compute_nested_dissection_order.cpp and the hierarchies built from its result) -/
namespace RK.Props
open RK _root_.Spec

/-- The input of the tool: a valid graph with at least one node and coordinates for all nodes, comparable coordinates, and a
`std::nth_element` that does what the standard says; `depth` bounds the nesting of calls. -/
structure OrderInput {K : Type} (lt : K → K → Bool) (nth : Nd.Nth) (depth n : Nat) (firstOut head : List Nat) (lat lon : List K) : Prop where
  comparable : StrictWeak lt fun _ => True
  nth : NthOk nth
  graph : IsCSR n firstOut head
  nodes : 0 < n ∧ n < 2 ^ 32
  arcs : head.length < 2 ^ 31
  latitude : n ≤ lat.length
  longitude : n ≤ lon.length
  depth : 2 * head.length < depth

/-- C74. The tool saves a permutation of the nodes. -/
theorem C74_order {K : Type} (lt : K → K → Bool) (add sub : K → K → K) (nth : Nd.Nth) (junk : Nat → Bool) (junk' : Nat → Word)
    (depth n : Nat) (firstOut head : List Nat) (lat lon : List K) (h : OrderInput lt nth depth n firstOut head lat lon) :
    ∃ order, toolComputeOrder lt add sub nth junk junk' depth firstOut head lat lon = .ok order ∧
      order.Perm (List.range n) :=
  toolComputeOrder_ok h.comparable h.nth h.graph h.nodes.1 h.nodes.2 h.arcs h.latitude h.longitude h.depth

theorem orderTool_input {K : Type} {lt : K → K → Bool} {add sub : K → K → K} {nth : Nd.Nth} {junk : Nat → Bool} {junk' : Nat → Word}
    {depth n : Nat} {firstOut head : List Nat} {lat lon : List K} (h : OrderInput lt nth depth n firstOut head lat lon)
    {order : List Nat} (ho : toolComputeOrder lt add sub nth junk junk' depth firstOut head lat lon = .ok order)
    {tail : List Nat} (ht : TailsOf firstOut head tail) {callable filter : Bool} (hl : callable = true ∨ filter = true) :
    order.length = n ∧ CchInput order tail head callable filter := by
  obtain ⟨order', e, hp⟩ := C74_order lt add sub nth junk junk' depth n firstOut head lat lon h
  rw [ho] at e
  cases e
  have hlen : order.length = n := by rw [hp.length_eq, List.length_range]
  have h0 := h.nodes.1
  refine ⟨hlen, ⟨?_, ?_, ht.length, ?_, ?_, by rw [ht.length]; exact h.arcs, hl⟩⟩
  · unfold IsPermutation
    rw [hlen]
    exact hp
  · intro e
    rw [e] at hlen
    simp at hlen
    omega
  · rw [hlen]
    exact isTail_lt h.graph ⟨ht.length, ht.own⟩
  · rw [hlen]
    intro x hx
    obtain ⟨a, ha⟩ := List.getElem?_of_mem hx
    exact h.graph.head_lt a x ha

/-- C74. Whatever order the tool saves: a customizable hierarchy built with it accepts all weights up to `inf_weight`, and every query
returns a shortest route of the graph in the files. -/
theorem C74_exact {K : Type} (lt : K → K → Bool) (add sub : K → K → K) (nth : Nd.Nth) (junk : Nat → Bool) (junk' : Nat → Word)
    (depth n : Nat) (firstOut head : List Nat) (lat lon : List K) (h : OrderInput lt nth depth n firstOut head lat lon)
    (order : List Nat) (ho : toolComputeOrder lt add sub nth junk junk' depth firstOut head lat lon = .ok order)
    (tail : List Nat) (ht : TailsOf firstOut head tail) (callable filter : Bool) (hl : callable = true ∨ filter = true)
    (memory : Nat → Nat → Word) (c : Cch) (hc : Cch.build order tail head callable filter memory = some c)
    (weight : List Nat) (hwl : weight.length = head.length) (hw : ∀ w ∈ weight, w ≤ 2147483647) :
    ∃ m, (Metric.new c).customize c weight = some m ∧
      ∀ s t, s < n → t < n → ∃ (q1 q2 q3 : CchQuery) (d : Nat) (arcs nodes : List Nat),
        (CchQuery.new ⟨0, c, m, weight⟩).addSource s 0 = some q1 ∧ q1.addTarget t 0 = some q2 ∧ q2.run = some q3 ∧
        q3.getDistance = some d ∧ q3.getArcPath = some arcs ∧ q3.getNodePath = some nodes ∧
        ShortestRoute (csrArcs firstOut head weight) s t d arcs nodes := by
  obtain ⟨hlen, hi⟩ := orderTool_input h ho ht hl
  obtain ⟨m, e, l1, l2, _⟩ := C27_customized_weights order tail head callable filter memory c hi hc weight (by rw [hwl, ht.length]) hw
    (Metric.new c) (by simp [Metric.new]) (by simp [Metric.new])
  refine ⟨m, e, fun s t hs ht' => ?_⟩
  have hfor : CustomizedFor (fun _ => c) ⟨0, c, m, weight⟩ ⟨n, csrArcs firstOut head weight⟩ :=
    ⟨order, tail, head, callable, filter, memory, Metric.new c, hi, by rw [hlen]; exact h.nodes.2, hc, by rw [hwl, ht.length], hw,
      hlen.symm, (isTail_arcs h.graph ⟨ht.length, ht.own⟩).symm, by simp [Metric.new], by simp [Metric.new], e, rfl⟩
  exact C30_C31_one_to_one (fun _ => c) _ _ hfor s t hs ht'

/-- C74. With at most 92682 nodes nothing can fail: order, hierarchy and metric exist for every such graph.
Partial: valid input, see `C74_no_nodes_undefined` and `C74_unchecked_files_undefined`. -/
theorem C74_succeeds_partial {K : Type} (lt : K → K → Bool) (add sub : K → K → K) (nth : Nd.Nth) (junk : Nat → Bool) (junk' : Nat → Word)
    (depth n : Nat) (firstOut head : List Nat) (lat lon : List K) (h : OrderInput lt nth depth n firstOut head lat lon) (hn : n ≤ 92682)
    (callable filter : Bool) (hl : callable = true ∨ filter = true) (memory : Nat → Nat → Word)
    (weight : List Nat) (hwl : weight.length = head.length) (hw : ∀ w ∈ weight, w ≤ 2147483647) :
    ∃ order tail c m, toolComputeOrder lt add sub nth junk junk' depth firstOut head lat lon = .ok order ∧
      invertInverseVector firstOut = some tail ∧ TailsOf firstOut head tail ∧
      Cch.build order tail head callable filter memory = some c ∧ (Metric.new c).customize c weight = some m := by
  obtain ⟨order, e, _⟩ := C74_order lt add sub nth junk junk' depth n firstOut head lat lon h
  obtain ⟨tail, e2, ht⟩ := invert_tail h.graph
  have ht : TailsOf firstOut head tail := ⟨ht.length, ht.own⟩
  obtain ⟨hlen, hi⟩ := orderTool_input h e ht hl
  obtain ⟨c, hc⟩ := build_small memory hi (by rw [hlen]; exact hn)
  obtain ⟨m, em, _⟩ := C74_exact lt add sub nth junk junk' depth n firstOut head lat lon h order e tail ht callable filter hl memory c hc
    weight hwl hw
  exact ⟨order, tail, c, m, e, e2, ht, hc, em⟩

/-- C74, finding: the tool checks none of its files. An empty `first_out` and a graph without nodes are undefined behaviour. -/
theorem C74_no_nodes_undefined {K : Type} (lt : K → K → Bool) (add sub : K → K → K) (nth : Nd.Nth) (junk : Nat → Bool)
    (junk' : Nat → Word) (depth : Nat) (head : List Nat) (lat lon : List K) :
    toolComputeOrder lt add sub nth junk junk' depth [] head lat lon = .ub ∧
      toolComputeOrder lt add sub nth junk junk' depth [0] [] lat lon = .ub := by
  constructor
  · rfl
  · cases depth <;> rfl

/-- C74, finding: a file with coordinates that is too short, and one with heads that belongs to another graph, are undefined behaviour
as well and not an error message. -/
theorem C74_unchecked_files_undefined :
    toolComputeOrder intLess (· + ·) (· - ·) sortNthElement (fun _ => false) (fun _ => 0) 20 [0, 1, 2] [1, 0] [5] [5, 6] = .ub ∧
    toolComputeOrder intLess (· + ·) (· - ·) sortNthElement (fun _ => false) (fun _ => 0) 20 [0, 1, 2] [1, 0, 1] [5, 6] [5, 6] = .ub ∧
    toolComputeOrder intLess (· + ·) (· - ·) sortNthElement (fun _ => false) (fun _ => 0) 20 [0, 1, 2] [1, 2] [5, 6] [5, 6] = .ub := by
  decide +kernel

/-! ### Examples -/

/-- Four nodes at the corners of a square, five arcs. -/
theorem orderInput_example : OrderInput intLess sortNthElement 20 4 [0, 2, 4, 5, 5] [1, 2, 2, 3, 3] squareLat squareLon :=
  ⟨intLess_weak, sortNthElement_ok, (csr_iff rfl).2 (by decide), by decide, by decide, by decide, by decide, by decide⟩

example : toolComputeOrder intLess (· + ·) (· - ·) sortNthElement (fun _ => false) (fun _ => 0) 20 [0, 2, 4, 5, 5] [1, 2, 2, 3, 3]
    squareLat squareLon = .ok [1, 3, 2, 0] := by decide +kernel

example : ∃ order, toolComputeOrder intLess (· + ·) (· - ·) sortNthElement (fun _ => false) (fun _ => 0) 20 [0, 2, 4, 5, 5]
    [1, 2, 2, 3, 3] squareLat squareLon = .ok order ∧ order.Perm (List.range 4) :=
  C74_order _ _ _ _ _ _ _ _ _ _ _ _ orderInput_example

example : ∃ order tail c m, toolComputeOrder intLess (· + ·) (· - ·) sortNthElement (fun _ => false) (fun _ => 0) 20 [0, 2, 4, 5, 5]
      [1, 2, 2, 3, 3] squareLat squareLon = .ok order ∧ invertInverseVector [0, 2, 4, 5, 5] = some tail ∧
      TailsOf [0, 2, 4, 5, 5] [1, 2, 2, 3, 3] tail ∧ Cch.build order tail [1, 2, 2, 3, 3] true true (fun _ _ => 0) = some c ∧
      (Metric.new c).customize c [7, 2147483647, 1, 20, 3] = some m :=
  C74_succeeds_partial _ _ _ _ _ _ _ _ _ _ _ _ orderInput_example (by decide) true true (Or.inl rfl) _ _ rfl (by decide)

/-- The shortest route from 0 to 3 has the nodes 0, 1, 2, 3: the direct arc from 0 to 2 is closed. -/
example : ((Cch.build [1, 3, 2, 0] [0, 0, 1, 1, 2] [1, 2, 2, 3, 3] true true (fun _ _ => 0)).bind fun c =>
    ((Metric.new c).customize c [7, 2147483647, 1, 20, 3]).bind fun m =>
      ((CchQuery.new ⟨0, c, m, [7, 2147483647, 1, 20, 3]⟩).addSource 0 0).bind fun q1 => (q1.addTarget 3 0).bind fun q2 =>
        q2.run.bind fun q3 => q3.getNodePath.bind fun p => q3.getDistance.map fun d => (d, p)) =
    some (11, [0, 1, 2, 3]) := by decide +kernel

end RK.Props
