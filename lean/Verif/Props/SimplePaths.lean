import Verif.Props.ChQuery
import Verif.Props.CchQuery
import Verif.Props.Dijkstra
/-! # Property theorems C83: paths visit no node twice -/
namespace RK.Props
open RK _root_.Spec

/-- There is no way back to a node for free. -/
def NoFreeCycles (A : ArcRel) : Prop := ∀ x p, Walk A x p x 0 → p = []

theorem noFreeCycles_of_positive {A : ArcRel} (h : ∀ a x y w, A a x y w → 1 ≤ w) : NoFreeCycles A := by
  intro x p hw
  generalize hl : (0 : Nat) = l at hw
  cases hw with
  | nil => rfl
  | cons ha _ => have := h _ _ _ _ ha; omega

/-- A walk can be cut at each of its nodes. -/
theorem walk_cut {A : ArcRel} {s t l : Nat} {p ns : List Nat} (hw : Walk A s p t l) : NodesOf A s p ns →
    (hdet : ∀ a x y w x' y' w', A a x y w → A a x' y' w' → y = y') → ∀ x ∈ ns, ∃ p1 p2 l1 l2, p = p1 ++ p2 ∧ l = l1 + l2 ∧ Walk A s p1 x l1 ∧ Walk A x p2 t l2 := by
  induction hw generalizing ns with
  | nil s =>
    intro hn _ x hx
    cases hn
    rw [List.mem_singleton] at hx
    subst hx
    exact ⟨[], [], 0, 0, rfl, rfl, .nil _, .nil _⟩
  | @cons a s m t w l p ha hw ih =>
    intro hn hdet x hx
    cases hn with
    | cons ha' hn =>
      rcases List.mem_cons.1 hx with rfl | hx
      · exact ⟨[], a :: p, 0, w + l, rfl, by omega, .nil _, .cons ha hw⟩
      · have := hdet _ _ _ _ _ _ _ ha ha'
        subst this
        obtain ⟨p1, p2, l1, l2, e1, e2, h1, h2⟩ := ih hn hdet x hx
        exact ⟨a :: p1, p2, w + l1, l2, by rw [e1]; rfl, by omega, .cons ha h1, h2⟩

/-- If no walk with the same ends is shorter, a walk visits no node twice. -/
theorem shortest_simple {A : ArcRel} (hA : NoFreeCycles A) (hdet : ∀ a x y w x' y' w', A a x y w → A a x' y' w' → y = y')
    {s t l : Nat} {p ns : List Nat} (hw : Walk A s p t l) : (∀ p' l', Walk A s p' t l' → l ≤ l') → NodesOf A s p ns → ns.Nodup := by
  induction hw generalizing ns with
  | nil s => intro _ hn; cases hn; simp
  | @cons a s m t w l p ha hw ih =>
    intro hmin hn
    cases hn with
    | @cons _ _ m' w' _ ns' ha' hn =>
      have := hdet _ _ _ _ _ _ _ ha ha'
      subst this
      rw [List.nodup_cons]
      refine ⟨fun hs => ?_, ih (fun p' l' hw' => by have := hmin _ _ (.cons ha hw'); omega) hn⟩
      obtain ⟨p1, p2, l1, l2, e1, e2, h1, h2⟩ := walk_cut hw hn hdet s hs
      have := hmin _ _ h2
      have e : w + l1 = 0 := by omega
      have hc := Walk.cons ha h1
      rw [e] at hc
      exact absurd (hA s _ hc) (by simp)

/-- Correct answers of a query contain a path that visits no node twice. -/
theorem correct_simple {A : ArcRel} (hA : NoFreeCycles A) (hdet : ∀ a x y w x' y' w', A a x y w → A a x' y' w' → y = y')
    {r : QResult} {sources targets : List (Nat × Nat)} (h : r.Correct A sources targets) : r.nodes.Nodup := by
  rcases h with ⟨_, ⟨ds, dt, l, h1, h2, h3, h4⟩, hn, hmin⟩ | ⟨_, _, _, _, h, _⟩
  · refine shortest_simple hA hdet h3 (fun p' l' hw' => ?_) hn
    have := hmin _ _ p' _ ⟨ds, dt, l', h1, h2, hw', rfl⟩
    omega
  · rw [h]; simp

/-- A list of different nodes of a graph is no longer than the number of nodes. -/
theorem length_le_of_nodup {n : Nat} {ns : List Nat} (h : ns.Nodup) (hlt : ∀ x ∈ ns, x < n) : ns.length ≤ n := by
  have hs : ns ⊆ List.range n := fun x hx => List.mem_range.2 (hlt x hx)
  simpa using (List.subperm_of_subset h hs).length_le

theorem nodesOf_lt {A : ArcRel} {n : Nat} (hA : ∀ a x y w, A a x y w → x < n ∧ y < n) {s : Nat} {p ns : List Nat} (h : NodesOf A s p ns) :
    s < n → ∀ x ∈ ns, x < n := by
  induction h with
  | nil s => intro hs x hx; rw [List.mem_singleton] at hx; subst hx; exact hs
  | cons ha _ ih =>
    intro hs x hx
    rcases List.mem_cons.1 hx with rfl | hx
    · exact hs
    · exact ih (hA _ _ _ _ ha).2 x hx

theorem correct_lt {A : ArcRel} {n : Nat} (hA : ∀ a x y w, A a x y w → x < n ∧ y < n) {r : QResult} {sources targets : List (Nat × Nat)}
    (hs : ∀ p ∈ sources, p.1 < n) (h : r.Correct A sources targets) : ∀ x ∈ r.nodes, x < n := by
  rcases h with ⟨_, ⟨ds, dt, l, h1, _, _, _⟩, hn, _⟩ | ⟨_, _, _, _, h, _⟩
  · exact nodesOf_lt hA hn (hs _ h1)
  · rw [h]; simp

theorem listArcs_lt {n : Nat} {tail head weight : List Nat} (h1 : ∀ x ∈ tail, x < n) (h2 : ∀ x ∈ head, x < n) (a x y w : Nat)
    (h : listArcs tail head weight a x y w) : x < n ∧ y < n :=
  ⟨h1 x (List.mem_of_getElem? h.1), h2 y (List.mem_of_getElem? h.2.1)⟩

theorem nodesAlong_lt {G : TGraph} (hG : G.WF) {s : Nat} {p ns : List Nat} (h : NodesAlong G s p ns) : s < G.n → ∀ x ∈ ns, x < G.n := by
  intro hs x hx
  rw [show ns = _ from h] at hx
  rcases List.mem_cons.1 hx with rfl | hx
  · exact hs
  · obtain ⟨a, _, ha⟩ := List.mem_filterMap.1 hx
    exact hG.csr.head_lt a x ha

theorem listArcs_det {tail head weight : List Nat} (a x y w x' y' w' : Nat) (h : listArcs tail head weight a x y w)
    (h' : listArcs tail head weight a x' y' w') : y = y' := by
  have h1 := h.2.1
  rw [h'.2.1] at h1
  cases h1; rfl

/-- C83, contraction hierarchies: if no cycle has length 0, the path of a query visits no node twice. -/
theorem C83_ch_partial (ch : Ch) (G : QGraph) (h : BuiltFor ch G) (hz : NoFreeCycles G.arcs) (sources targets : List (Nat × Nat))
    (hs0 : sources ≠ []) (ht0 : targets ≠ []) (hs : ∀ p ∈ sources, p.1 < G.n ∧ p.2 < unreachable)
    (ht : ∀ p ∈ targets, p.1 < G.n ∧ p.2 < unreachable) :
    ∃ (q1 q2 q3 : ChQuery) (nodes : List Nat), addSourcesCh sources (ChQuery.new ch) = some q1 ∧
      addTargetsCh targets q1 = some q2 ∧ q2.run = some q3 ∧ q3.getNodePath = some nodes ∧ nodes.Nodup ∧ nodes.length ≤ G.n := by
  obtain ⟨q1, q2, q3, r, e1, e2, e3, _, _, _, _, e4, hr⟩ := C22_C23_query ch G h sources targets hs0 ht0 hs ht
  obtain ⟨tail, head, weight, hi, _⟩ := h
  have hn := correct_simple hz (by rw [hi.arcs]; exact listArcs_det) hr
  refine ⟨q1, q2, q3, r.nodes, e1, e2, e3, e4, hn, length_le_of_nodup hn (correct_lt ?_ (fun p hp => (hs p hp).1) hr)⟩
  rw [hi.arcs]
  exact listArcs_lt hi.tail_lt hi.head_lt

/-- C83, customizable contraction hierarchies: here cycles of length 0 do no harm. -/
theorem C83_cch (heap : Nat → Cch) (on : CchHandle) (G : QGraph) (h : CustomizedFor heap on G)
    (sources targets : List (Nat × Nat)) (hs : ∀ p ∈ sources, p.1 < G.n ∧ p.2 < unreachable)
    (ht : ∀ p ∈ targets, p.1 < G.n ∧ p.2 < unreachable) :
    ∃ (q1 q2 q3 : CchQuery) (nodes : List Nat), addSourcesCch sources (CchQuery.new on) = some q1 ∧
      addTargetsCch targets q1 = some q2 ∧ q2.run = some q3 ∧ q3.getNodePath = some nodes ∧ nodes.Nodup ∧ nodes.length ≤ G.n := by
  obtain ⟨q1, q2, q3, r, e1, e2, e3, _, _, _, _, e4, hc, hn⟩ := C30_C31_query heap on G h sources targets hs ht
  refine ⟨q1, q2, q3, r.nodes, e1, e2, e3, e4, hn, length_le_of_nodup hn (correct_lt ?_ (fun p hp => (hs p hp).1) hc)⟩
  obtain ⟨order, tail, head, _, _, _, _, hi, _, _, _, _, gn, ga, _⟩ := h
  rw [ga, gn]
  exact listArcs_lt hi.tail_lt hi.head_lt

/-- C83, Dijkstra's algorithm: here cycles of length 0 do no harm, and the weights may depend on the time. -/
theorem C83_dijkstra (G : TGraph) (hG : G.WF) (srcs : List (Nat × Nat)) (hlt : ∀ p ∈ srcs, p.1 < G.n)
    (hnd : (srcs.map Prod.fst).Nodup) (hno : (⟨G, srcs, []⟩ : Search).NoOverflow) :
    ∃ d0 d1 d2, Dijkstra.new ⟨G.firstOut, G.tail, G.head⟩ = some d0 ∧ addSources srcs d0 = some d1 ∧
      Dijkstra.runLoop G.time (G.n + 1) d1 = some d2 ∧
      ∀ x < G.n, ∃ nodes, d2.getNodePathTo x = some nodes ∧ nodes.Nodup ∧ nodes.length ≤ G.n := by
  obtain ⟨d0, d1, d2, e0, e1, e2, _, hall⟩ := C16_C17_run_to_completion G hG srcs hlt hnd hno
  refine ⟨d0, d1, d2, e0, e1, e2, fun x hx => ?_⟩
  obtain ⟨k, arcs, nodes, _, _, en, h⟩ := hall x hx
  refine ⟨nodes, en, ?_⟩
  rcases h with ⟨_, _, src, hsrc, _, ha, h⟩ | ⟨_, _, _, _, h⟩
  · exact ⟨h, length_le_of_nodup h (nodesAlong_lt hG ha (hlt _ hsrc))⟩
  · rw [h]; simp

/-! ### Cycles of length 0 -/

/-- The path that a query on a contraction hierarchy returns for two nodes. -/
def chNodePath (ch : Ch) (s t : Nat) : Option (List Nat) := do
  let q ← (ChQuery.new ch).addSource s 0
  let q ← q.addTarget t 0
  let q ← q.run
  q.getNodePath

set_option maxRecDepth 10000 in
/-- C83 does not hold for contraction hierarchies if there are cycles of length 0. Here all arcs have weight 0, and 2 and 3 are
connected in both directions. The path from 1 to 3 passes its target, goes on to 2 and comes back. -/
theorem C83_zero_cycle_violated :
    ((Ch.build true 4 [1, 0, 2, 0, 3] [3, 2, 3, 1, 2] [0, 0, 0, 0, 0] 500 (fun _ => 0) (fun _ => 0)).bind fun ch => chNodePath ch 1 3) =
      some [1, 3, 2, 3] := by decide +kernel

set_option maxRecDepth 10000 in
/-- Such paths can be much longer than the number of nodes: here 40 nodes on a path in a graph with 10 nodes. -/
theorem C83_long_path_violated :
    ((Ch.buildGivenOrder true [0, 1, 2, 3, 4, 5, 6, 7, 8, 9]
      [0, 7, 5, 4, 3, 2, 1, 3, 0, 1, 6, 3, 8, 3, 9, 6, 5, 5, 9, 5, 9] [2, 0, 9, 0, 6, 0, 3, 5, 1, 4, 0, 7, 0, 8, 4, 3, 6, 1, 8, 2, 6]
      [0, 0, 0, 0, 0, 0, 0, 1, 0, 0, 0, 0, 0, 0, 1, 1, 0, 0, 0, 0, 0] 500 (fun _ => 0) (fun _ => 0)).bind fun ch =>
        (chNodePath ch 0 9).map List.length) = some 40 := by decide +kernel

/-! ### Examples -/

example : NoFreeCycles sampleChGraph.arcs ∧ ∃ ch, sampleCh = some ch ∧ BuiltFor ch sampleChGraph := by
  refine ⟨noFreeCycles_of_positive ?_, ?_⟩
  · intro a x y w h
    exact (by decide : ∀ w ∈ [4, 1, 1, 5, 7, 1, 2, 2], 1 ≤ w) w (List.mem_of_getElem? h.2.2)
  · obtain ⟨ch, h1, h2, _⟩ := sampleCh_built
    exact ⟨ch, h1, h2⟩

set_option maxRecDepth 10000 in
/-- All arcs cost nothing, so every cycle has length 0. -/
example : ¬ NoFreeCycles (sampleCchGraph [0, 0, 0, 0, 0, 0, 0, 0]).arcs ∧
    ∃ on heap, sampleHandle true 7 [0, 0, 0, 0, 0, 0, 0, 0] = some on ∧ CustomizedFor heap on (sampleCchGraph [0, 0, 0, 0, 0, 0, 0, 0]) := by
  refine ⟨fun h => ?_, ?_⟩
  · have h1 : (sampleCchGraph [0, 0, 0, 0, 0, 0, 0, 0]).arcs 5 3 4 0 := ⟨rfl, rfl, rfl⟩
    have h2 : (sampleCchGraph [0, 0, 0, 0, 0, 0, 0, 0]).arcs 7 4 3 0 := ⟨rfl, rfl, rfl⟩
    exact absurd (h 3 [5, 7] (.cons h1 (.cons h2 (.nil 3)))) (by simp)
  · have h : (sampleHandle true 7 [0, 0, 0, 0, 0, 0, 0, 0]).isSome = true := by decide +kernel
    obtain ⟨on, ho⟩ := Option.isSome_iff_exists.1 h
    refine ⟨on, fun _ => on.cch, ho, ?_⟩
    simp only [sampleHandle, Option.bind_eq_bind, Option.bind_eq_some_iff] at ho
    obtain ⟨c, hc, m, hm, e⟩ := ho
    cases e
    refine ⟨[2, 4, 1, 0, 3], [0, 0, 1, 1, 2, 3, 3, 4], [1, 2, 2, 3, 3, 4, 0, 3], true, true, _, _, ⟨?_, ?_, rfl, ?_, ?_, ?_, Or.inl rfl⟩, ?_, hc,
      rfl, ?_, rfl, rfl, ?_, ?_, hm, rfl⟩
    · unfold IsPermutation; decide
    · decide
    · decide
    · decide
    · decide
    · decide
    · show ∀ w ∈ [0, 0, 0, 0, 0, 0, 0, 0], w ≤ unreachable; decide
    · simp [Metric.new]
    · simp [Metric.new]

end RK.Props
