import Verif.Proof.Dissection
import Verif.Props.Fragment
/-! # Property theorems C41, C52, C53 (nested_dissection.cpp: components and nested dissection) -/
namespace RK.Props
open Spec

/-- C52. `decompose_graph_fragment_into_connected_components` of a valid fragment with at least one node
returns valid, connected, non-empty fragments; together they have exactly the nodes (global ids) and
exactly the arcs (pairs of global ids) of the given fragment. -/
theorem C52_components (f : GraphFragment) (hf : FragmentOk f) (hfit : FragmentFits f)
    (hn : 0 < f.globalNodeId.length) :
    ∃ parts, Nd.decompose f = some parts ∧
      (∀ p ∈ parts, FragmentOk p ∧ ConnectedFragment p ∧ 0 < p.globalNodeId.length) ∧
      (parts.flatMap (·.globalNodeId)).Perm f.globalNodeId ∧
      (parts.flatMap globalArcs).Perm (globalArcs f) :=
  decompose_spec hf hfit.1 hfit.2 hn

/-- The nodes 0 – 2 and 1. -/
def twoPartsFragment : GraphFragment := ⟨[0, 1, 2], [0, 1, 1, 2], [0, 2], [2, 0], [1, 0]⟩

theorem pathFragment_ok : FragmentOk pathFragment := by
  obtain ⟨f, e, h, _⟩ := C44_make_graph_fragment 3 [0, 1] [1, 2] rfl (by decide) (by decide) (by decide)
  have : Nd.makeGraphFragment 3 [0, 1] [1, 2] = some pathFragment := by decide
  rw [this] at e; cases e
  exact h

theorem twoPartsFragment_ok : FragmentOk twoPartsFragment := by
  obtain ⟨f, e, h, _⟩ := C44_make_graph_fragment 3 [0] [2] rfl (by decide) (by decide) (by decide)
  have : Nd.makeGraphFragment 3 [0] [2] = some twoPartsFragment := by decide
  rw [this] at e; cases e
  exact h

example : FragmentOk twoPartsFragment ∧ FragmentFits twoPartsFragment ∧ 0 < twoPartsFragment.globalNodeId.length ∧
    Nd.decompose twoPartsFragment =
      some [⟨[0, 2], [0, 1, 2], [0, 1], [1, 0], [1, 0]⟩, ⟨[1], [0, 0], [], [], []⟩] :=
  ⟨twoPartsFragment_ok, by unfold FragmentFits; decide, by decide, by decide⟩

/-- C52. Without nodes the function reads out of bounds. -/
theorem C52_no_nodes_undefined : Nd.decompose ⟨[], [0], [], [], []⟩ = none := by decide

/-- C41. `compute_nested_node_dissection_order` returns every node exactly once, for every separator
function that marks at least one node of every connected fragment with at least two nodes; the
recursion is never deeper than one more than the number of arcs. -/
theorem C41_every_node_once (f : GraphFragment) (hf : FragmentOk f) (hfit : FragmentFits f)
    (hnd : f.globalNodeId.Nodup) (hn : 0 < f.globalNodeId.length) (sep : GraphFragment → Option (List Bool))
    (hsep : SeparatorOk sep f) (junk : Nat → Word) (depth : Nat) (hd : f.tail.length < depth) :
    ∃ order, Nd.nestedDissectionOrder sep junk depth f = some order ∧ order.Perm f.globalNodeId := by
  obtain ⟨t, e, h⟩ := separatorDecomposition_spec hsep junk depth f hf hn hfit.1 hfit.2 hnd
    ⟨fun _ h => h, fun _ h => h⟩ hd
  refine ⟨t.order, ?_, dissects_perm h⟩
  unfold Nd.nestedDissectionOrder
  rw [e]
  rfl

/-- C41. For the fragment of a graph with `n` nodes the order is a permutation of `0, …, n-1`. -/
theorem C41_order_of_graph (n : Nat) (tail head : List Nat) (hl : tail.length = head.length)
    (ht : ∀ x ∈ tail, x < n) (hh : ∀ x ∈ head, x < n) (hm : 2 * (inputArcs tail head).length < 2 ^ 32)
    (h0 : 0 < n) (hn : n < 2 ^ 32) (f : GraphFragment) (hf : Nd.makeGraphFragment n tail head = some f)
    (sep : GraphFragment → Option (List Bool)) (hsep : SeparatorOk sep f) (junk : Nat → Word) (depth : Nat)
    (hd : f.tail.length < depth) :
    ∃ order, Nd.nestedDissectionOrder sep junk depth f = some order ∧ order.Perm (List.range n) := by
  obtain ⟨f', e, h1, h2, h3, _⟩ := C44_make_graph_fragment n tail head hl ht hh hm
  rw [hf] at e; cases e
  rw [← h2]
  have hla := localArcs_length h1
  rw [h3.length_eq, List.length_append, List.length_map] at hla
  apply C41_every_node_once f h1 ⟨by rw [h2, List.length_range]; exact hn, ?_⟩ (by rw [h2]; exact List.nodup_range)
    (by rw [h2, List.length_range]; exact h0) sep hsep junk depth hd
  show f.arcCount < u32
  have hu : u32 = 4294967296 := rfl
  omega

/-- Marks the first node. -/
def markFirst (p : GraphFragment) : Option (List Bool) :=
  some (List.replicate p.globalNodeId.length false |>.set 0 true)

theorem markFirst_ok (f : GraphFragment) : SeparatorOk markFirst f := by
  intro p _ _ _ _ h2 _
  refine ⟨_, rfl, by simp, ?_⟩
  exact List.mem_iff_getElem?.2 ⟨0, List.getElem?_set_self (by simp; omega)⟩

example : SeparatorOk markFirst pathFragment ∧ FragmentOk pathFragment ∧
    Nd.nestedDissectionOrder markFirst (fun _ => 0) 5 pathFragment = some [2, 1, 0] :=
  ⟨markFirst_ok _, pathFragment_ok, by decide +kernel⟩

/-- C41. A graph without nodes makes the function read out of bounds. -/
theorem C41_no_nodes_undefined (sep : GraphFragment → Option (List Bool)) (junk : Nat → Word) (depth : Nat) :
    ∃ f, Nd.makeGraphFragment 0 [] [] = some f ∧ Nd.nestedDissectionOrder sep junk depth f = none := by
  refine ⟨⟨[], [0], [], [], []⟩, by decide, ?_⟩
  unfold Nd.nestedDissectionOrder
  cases depth with
  | zero => rfl
  | succ d =>
    have h : Nd.decompose ⟨[], [0], [], [], []⟩ = none := C52_no_nodes_undefined
    simp [Nd.separatorDecomposition, h, GraphFragment.nodeCount]

/-- Two nodes joined by an edge. -/
def edgeFragment : GraphFragment := ⟨[0, 1], [0, 1, 2], [0, 1], [1, 0], [1, 0]⟩

/-- A valid fragment is determined by its nodes and the ends of its arcs if there are no parallel arcs. -/
theorem edge_unique {q : GraphFragment} (o : FragmentOk q) (h1 : q.globalNodeId = [0, 1]) (h2 : q.tail = [0, 1])
    (h3 : q.head = [1, 0]) : q = edgeFragment := by
  obtain ⟨ids, fo, t, h, b⟩ := q
  subst h1; subst h2; subst h3
  have hbl := o.back_len
  have hfl := o.first_len
  have f0 := o.first_out 0 (by simp)
  have f1 := o.first_out 1 (by simp)
  have hb := o.back
  match b, hbl with
  | [b0, b1], _ =>
    match fo, hfl with
    | [x, y, z], _ =>
      have e0 : b0 = 1 := by
        obtain ⟨_, hA, _⟩ := hb 0 b0 0 1 rfl ⟨rfl, rfl⟩
        match b0, hA with
        | 1, _ => rfl
      have e1 : b1 = 0 := by
        obtain ⟨_, hA, _⟩ := hb 1 b1 1 0 rfl ⟨rfl, rfl⟩
        have hA : ([0, 1] : List Nat)[b1]? = some 0 := hA
        match b1, hA with
        | 0, _ => rfl
        | 1, h => simp at h
        | n + 2, h => simp at h
      obtain ⟨u, w, hu, hw, _, hi⟩ := f0
      obtain ⟨u', w', hu', hw', _, hi'⟩ := f1
      cases hu; cases hw; cases hu'; cases hw'
      have i0 := (hi 0).1 rfl
      have i1 := mt (hi 1).2 (by show ¬ ([0, 1] : List Nat)[1]? = some 0; decide)
      have i2 := (hi' 1).1 rfl
      have i3 := mt (hi' 2).2 (by show ¬ ([0, 1] : List Nat)[2]? = some 1; decide)
      have : x = 0 := by omega
      have : y = 1 := by omega
      have : z = 2 := by omega
      subst_vars
      rfl

/-- C41. A separator function that returns an empty separator for two adjacent nodes makes the recursion
endless: no recursion depth suffices. -/
theorem C41_empty_separator_never_returns (sep : GraphFragment → Option (List Bool)) (junk : Nat → Word)
    (hs : sep edgeFragment = some [false, false]) (depth : Nat) :
    Nd.nestedDissectionOrder sep junk depth edgeFragment = none := by
  have key : ∀ depth, Nd.separatorDecomposition sep junk depth edgeFragment = none := by
    intro depth
    induction depth with
    | zero => rfl
    | succ d ih =>
      have h1 : Nd.decompose edgeFragment = some [edgeFragment] := by decide
      have h2 : Nd.removeSeparator edgeFragment [false, false] junk = some edgeFragment := by
        obtain ⟨q, e, _, h3, h4⟩ := removeSeparator_spec (p := edgeFragment) (by
          obtain ⟨f, e, h, _⟩ := C44_make_graph_fragment 2 [0] [1] rfl (by decide) (by decide) (by decide)
          have : Nd.makeGraphFragment 2 [0] [1] = some edgeFragment := by decide
          rw [this] at e; cases e
          exact h) (by decide) (sep := [false, false]) rfl junk
        have hq : q.tail = [0, 1] ∧ q.head = [1, 0] := by
          have h5 : q.tail.zip q.head = [(0, 1), (1, 0)] := h4
          have h6 := ‹FragmentOk q›.head_len
          constructor
          · rw [← List.map_fst_zip (l₁ := q.tail) (l₂ := q.head) (by omega), h5]; rfl
          · rw [← List.map_snd_zip (l₁ := q.tail) (l₂ := q.head) (by omega), h5]; rfl
        rw [e, edge_unique ‹FragmentOk q› h3 hq.1 hq.2]
      have h3 : ¬ edgeFragment.nodeCount = 1 := by decide
      have h4 : (edgeFragment.nodeCount != 0) = true := by decide
      rw [Nd.separatorDecomposition]
      simp [h1, forEach, Nd.decompPart, h3, h4, hs, h2, ih]
  unfold Nd.nestedDissectionOrder
  rw [key]
  rfl

/-- C53. `compute_separator_decomposition` returns a nested dissection (`Dissects`): the nodes of each
connected component with at least two nodes are consecutive in `order`; within them the separator that
`compute_separator` returned for the component comes last, and the components that remain after removing
the separator are arranged in the same way.  `tree` describes this nesting: entry 0 is the whole graph,
`left_child` and `right_sibling` enumerate the groups inside a group, and the positions from
`first_separator_vertex` to `last_separator_vertex` are those of the nodes that come last. -/
theorem C53_decomposition (f : GraphFragment) (hf : FragmentOk f) (hfit : FragmentFits f)
    (hnd : f.globalNodeId.Nodup) (hn : 0 < f.globalNodeId.length) (sep : GraphFragment → Option (List Bool))
    (hsep : SeparatorOk sep f) (junk : Nat → Word) (depth : Nat) (hd : f.tail.length < depth) :
    ∃ d t, Nd.separatorDecomposition sep junk depth f = some d ∧ Dissects sep f t ∧ d.order = t.order ∧
      TreeIs d.tree 0 0 t ∧ d.tree.length = t.size := by
  obtain ⟨t, e, h⟩ := separatorDecomposition_spec hsep junk depth f hf hn hfit.1 hfit.2 hnd
    ⟨fun _ h => h, fun _ h => h⟩ hd
  exact ⟨_, t, e, h, rfl, encT_treeIs t 0 0 0 [] [] (by simp) rfl, encT_length t 0 0 0⟩

example : Nd.separatorDecomposition markFirst (fun _ => 0) 5 pathFragment =
    some ⟨[⟨1, 0, 3, 3⟩, ⟨2, 0, 2, 3⟩, ⟨0, 0, 0, 2⟩], [2, 1, 0]⟩ := by decide +kernel

end RK.Props
