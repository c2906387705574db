import Verif.Proof.DijkstraLife
/-! # C104: programs with several graphs and Dijkstra objects -/
namespace RK.Props
open RK _root_.Spec

/-- No variable exists. -/
abbrev noDijkstra : DijProgram := ⟨fun _ => none, fun _ => none⟩

/-- No variable exists. -/
abbrev noDijkstraView : DijLifeView := ⟨fun _ => none, fun _ => none⟩

/-- C104 (partial: whenever an object is reset to a graph, the variable of its old graph must still exist, and if that variable now
holds a graph as large as the new one, the old graph must have been as large, too, see `C104_violated`). Every program that assigns and destroys graphs, constructs, copies and resets objects and searches with them in any
interleaving is served without undefined behaviour and with correct answers. -/
theorem C104_programs_partial :
    Implements DijProgram.call DijLifeStep (fun S op => DijLifePre S op ∧ OldGraphKept S op) noDijkstra noDijkstraView :=
  implements_of_simulation RepDijs ⟨rfl, fun _ _ h => by simp at h, fun _ => rfl⟩ dij_life_step

/-- C104 is violated for every two graphs of different sizes: after a graph has been replaced by a larger one in the same variable,
`reset(first_out, tail, head)` succeeds, but the arrays of the object keep the old size, and adding one of the new nodes as source
writes behind their end. -/
theorem C104_larger_graph_undefined (G1 G2 : TGraph) (h1 : G1.WF) (h2 : G2.WF) (x t : Nat) (hx : G1.n ≤ x) :
    ∃ w, runCalls DijProgram.call noDijkstra [.setGraph 0 G1, .construct 0 0, .setGraph 0 G2, .resetGraph 0 0] =
        some (w, [.unit, .unit, .unit, .unit]) ∧ w.call (.call 0 (.addSource x t)) = none := by
  obtain ⟨d, e, hd⟩ := rep_new h1
  obtain ⟨m, hm, _⟩ := hd.queue
  obtain ⟨q, eq, _⟩ := hm.clear
  have er : Dijkstra.resetGraph { d with graph := some (toGraph G2) } (toGraph G2) =
      some { d with graph := some (toGraph G2), queue := q, wasPopped := d.wasPopped.resetAll } := by
    unfold Dijkstra.resetGraph
    simp only [checkGraph_ok h2, Option.bind_eq_bind, Option.bind_some, if_true, eq]
  refine ⟨⟨changed (changed (fun _ => none) 0 (some G1)) 0 (some G2), changed (changed (fun _ => none) 0 (some (0, ⟨d, G1.time⟩))) 0
    (some (0, ⟨{ d with graph := some (toGraph G2), queue := q, wasPopped := d.wasPopped.resetAll }, G2.time⟩))⟩, ?_, ?_⟩
  · unfold toGraph at e er
    simp only [runCalls, noDijkstra, List.foldlM_cons, List.foldlM_nil, DijProgram.call, changed_same, Option.bind_eq_bind,
      Option.bind_some, Option.map_some, toGraph, e, dijCall, DijProgram.deref, er]
    rfl
  · have hw : wr d.tentative x t = none := by
      unfold wr
      have := hd.lenT
      have hf : ¬ x < d.tentative.length := by rw [this]; exact Nat.not_lt.mpr hx
      rw [if_neg hf]
    simp only [DijProgram.call, changed_same, Option.bind_eq_bind, Option.bind_some, DijProgram.deref, dijCall, Dijkstra.addSource, hw]
    cases check (decide (x < (toGraph G2).firstOut.length - 1)) <;> rfl

/-- A graph with one node. -/
def oneNode : TGraph := ⟨1, [0, 0], [], [], fun _ _ => some 1⟩

theorem oneNode_wf : oneNode.WF := by
  refine ⟨⟨rfl, ?_, rfl, rfl, ?_⟩, rfl, ?_, by decide, by decide, ?_, ?_⟩
  · intro x b e h1 h2
    match x with
    | 0 => simp [oneNode] at h1 h2; omega
    | x + 1 => simp [oneNode] at h1 h2
  · intro a y h; simp [oneNode] at h
  · rintro x a ⟨b, e, h1, h2, h3, h4⟩
    match x with
    | 0 => simp [oneNode] at h1 h2; omega
    | x + 1 => simp [oneNode] at h1 h2
  · intro a t h; simp [oneNode] at h
  · intro a t t' w' h1 h2 h3
    exact ⟨w', h2, h3, by omega⟩

/-- C104 is violated: with only the preconditions that one would expect, programs are not served. -/
theorem C104_violated : ¬ Implements DijProgram.call DijLifeStep DijLifePre noDijkstra noDijkstraView := by
  intro h
  obtain ⟨w, ew, en⟩ := C104_larger_graph_undefined oneNode sampleGraph oneNode_wf sampleGraph_wf 4 0 (by decide)
  obtain ⟨c', outs, s', e, _⟩ := h ([.setGraph 0 oneNode, .construct 0 0, .setGraph 0 sampleGraph, .resetGraph 0 0] ++
    [.call 0 (.addSource 4 0)]) (by
    refine legal_of_spec ?_
    intro pre op post hh outs m hr
    match pre, hh with
    | [], hh => cases hh; exact oneNode_wf
    | [a], hh =>
      cases hh
      obtain ⟨_, _, m0, h0, h1⟩ := specRun_snoc_inv (ops := []) hr
      cases specRun_nil_inv h0
      rw [h1.2]
      simp [DijLifePre, DijLifeView.setGraph, changed]
    | [a, b], hh => cases hh; exact sampleGraph_wf
    | [a, b, c], hh =>
      cases hh
      obtain ⟨_, _, m2, h2, h3⟩ := specRun_snoc_inv (ops := [DijLifeOp.setGraph 0 oneNode, .construct 0 0]) hr
      obtain ⟨_, _, m1, h1, h2⟩ := specRun_snoc_inv (ops := [DijLifeOp.setGraph 0 oneNode]) h2
      obtain ⟨G, _, _, e⟩ := h2
      rw [h3.2, e]
      simp [DijLifePre, DijLifeView.setGraph, changed]
    | [a, b, c, d], hh =>
      cases hh
      obtain ⟨_, _, m3, h3, h4⟩ := specRun_snoc_inv (ops := [DijLifeOp.setGraph 0 oneNode, .construct 0 0, .setGraph 0 sampleGraph]) hr
      obtain ⟨_, _, m2, h2, h3⟩ := specRun_snoc_inv (ops := [DijLifeOp.setGraph 0 oneNode, .construct 0 0]) h3
      obtain ⟨G, hG, _, e⟩ := h4
      rw [h3.2] at hG
      simp only [DijLifeView.setGraph, changed_same, Option.some.injEq] at hG
      subst hG
      rw [e]
      refine ⟨by simp, ⟨0, Search.fresh sampleGraph, true⟩, by simp [changed], rfl, ?_⟩
      simp [DijPre, Search.fresh, sampleGraph]
    | a :: b :: c :: d :: f :: rest, hh => simp at hh)
  rw [runCalls_snoc, ew] at e
  simp only [Option.bind_some, en] at e
  simp at e

/-- C104 is violated: the old graph must not be destroyed before the object is reset to another one. -/
theorem C104_old_graph_gone_undefined (w : DijProgram) (k p i : Nat) (c : DijClient) (h : w.objects k = some (p, c))
    (gone : w.graphs p = none) : w.call (.resetGraph k i) = none := by
  simp [DijProgram.call, h, gone]

/-- Two graphs and two objects; the second is a copy in the middle of a search, then the first is reset to the other graph. -/
example : (runCalls DijProgram.call noDijkstra [.setGraph 0 sampleGraph, .setGraph 1 oneNode, .construct 0 0, .call 0 (.addSource 0 0),
    .call 0 .settle, .copy 1 0, .call 0 .settle, .resetGraph 0 1, .call 0 (.addSource 0 7), .call 0 .settle, .call 0 .isFinished,
    .call 1 .settle, .call 1 (.getPathsTo 1), .resetGraph 0 0, .call 0 (.addSource 4 1), .call 0 .settle]).map (·.2) =
    some [.unit, .unit, .unit, .unit, .node 0 0, .unit, .node 1 4, .unit, .unit, .node 0 7, .flag true, .node 1 4, .paths [1] [0, 1],
      .unit, .unit, .node 4 1] := by decide

/-- Why the vectors must not change during a search: the object sees the change at once. Without the assignment, node 1 would follow. -/
example : (runCalls DijProgram.call noDijkstra [.setGraph 0 sampleGraph, .construct 0 0, .call 0 (.addSource 0 0),
    .setGraph 0 { sampleGraph with firstOut := [0, 0, 0, 0, 0, 0], tail := [], head := [] }, .call 0 .settle,
    .call 0 .isFinished]).map (·.2) = some [.unit, .unit, .unit, .unit, .node 0 0, .flag true] := by decide

/-- The hypothesis of `C104_programs_partial` is met by a program that resets an object to another graph. -/
example : Legal DijProgram.call DijLifeStep (fun S op => DijLifePre S op ∧ OldGraphKept S op) noDijkstra noDijkstraView
    [.setGraph 0 sampleGraph, .construct 0 0, .setGraph 1 oneNode, .resetGraph 0 1] := by
  refine legal_of_spec ?_
  intro pre op post hh outs m hr
  match pre, hh with
  | [], hh => cases hh; exact ⟨sampleGraph_wf, trivial⟩
  | [a], hh =>
    cases hh
    obtain ⟨_, _, m0, h0, h1⟩ := specRun_snoc_inv (ops := []) hr
    cases specRun_nil_inv h0
    rw [h1.2]
    simp [DijLifePre, OldGraphKept, DijLifeView.setGraph, changed]
  | [a, b], hh => cases hh; exact ⟨oneNode_wf, trivial⟩
  | [a, b, c], hh =>
    cases hh
    obtain ⟨_, _, m2, h2, h3⟩ := specRun_snoc_inv (ops := [DijLifeOp.setGraph 0 sampleGraph, .construct 0 0]) hr
    obtain ⟨_, _, m1, h1, h2⟩ := specRun_snoc_inv (ops := [DijLifeOp.setGraph 0 sampleGraph]) h2
    obtain ⟨_, _, m0, h0, h1⟩ := specRun_snoc_inv (ops := []) h1
    cases specRun_nil_inv h0
    obtain ⟨G, hG, _, e⟩ := h2
    rw [h1.2] at hG e
    simp only [DijLifeView.setGraph, changed_same, Option.some.injEq] at hG
    subst hG
    rw [h3.2, e]
    simp [DijLifePre, OldGraphKept, DijLifeView.setGraph, changed, Search.fresh]
  | a :: b :: c :: d :: rest, hh => simp at hh

end RK.Props
