import Verif.Model.DijkstraLife
import Verif.Proof.QueryLife
/-! # Proofs about programs with several graphs and Dijkstra objects -/
namespace RK
open _root_.Spec RK.Props

theorem dijStep_graph {s s' : Search} {op : DijOp} {out : DijOut} (h : DijStep s op out s') (hop : ∀ G, op ≠ .resetGraph G) :
    s'.graph = s.graph := by
  cases op with
  | resetGraph G => exact absurd rfl (hop G)
  | _ => simp only [DijStep] at h; grind [Search.fresh]

/-- `reset(first_out, tail, head)` only needs the size of the old vector. -/
theorem resetGraph_old {d : Dijkstra} {g0 g1 g : DijkstraGraph} (h : d.graph = some g0)
    (hl : g1.firstOut.length = g0.firstOut.length) : Dijkstra.resetGraph { d with graph := some g1 } g = Dijkstra.resetGraph d g := by
  unfold Dijkstra.resetGraph
  simp only [h, hl]

/-- If the vector at the old address has another size, everything is made anew. -/
theorem resetGraph_anew {d : Dijkstra} {G : TGraph} {g1 : DijkstraGraph} (hG : G.WF)
    (hl : (toGraph G).firstOut.length ≠ g1.firstOut.length) :
    ∃ d', Dijkstra.resetGraph { d with graph := some g1 } (toGraph G) = some d' ∧ DRep d' (Search.fresh G) := by
  unfold Dijkstra.resetGraph
  simp only [checkGraph_ok hG, Option.bind_eq_bind, Option.bind_some, toGraph_len hG]
  rw [if_neg hl]
  exact ⟨_, rfl, rep_fresh hG rfl (length_resizeVec _ _) (length_resizeVec _ _) (TimestampFlags.rep_new _)
    (MinIDQueue.rep_new (max_nodes hG))⟩

/-- The simulation relation. The hidden field `graph` remembers the graph for which the members were computed. -/
structure RepDijs (w : DijProgram) (S : DijLifeView) : Prop where
  graphs : w.graphs = S.graphs
  wf : ∀ i G, S.graphs i = some G → G.WF
  objects : ∀ k, match S.objects k with
    | none => w.objects k = none
    | some v => ∃ c, w.objects k = some (v.graph, c) ∧ c.Rep v.search ∧ (v.intact = true → S.graphs v.graph = some v.search.graph)

theorem RepDijs.object {w S k v} (h : RepDijs w S) (e : S.objects k = some v) :
    ∃ c, w.objects k = some (v.graph, c) ∧ c.Rep v.search ∧ (v.intact = true → S.graphs v.graph = some v.search.graph) := by
  have := h.objects k
  rw [e] at this
  exact this

theorem RepDijs.setGraph {w S} (h : RepDijs w S) (i : Nat) {G : Option TGraph} (hG : ∀ g, G = some g → g.WF) :
    RepDijs ⟨changed w.graphs i G, w.objects⟩ (S.setGraph i G) := by
  refine ⟨by simp [DijLifeView.setGraph, h.graphs], ?_, ?_⟩
  · intro x g hg
    by_cases e : x = i
    · subst e
      simp only [DijLifeView.setGraph, changed_same] at hg
      exact hG g hg
    · simp only [DijLifeView.setGraph, changed_other e] at hg
      exact h.wf x g hg
  · intro k
    have hk := h.objects k
    cases hv : S.objects k with
    | none => rw [hv] at hk; simpa [DijLifeView.setGraph, hv] using hk
    | some v =>
      rw [hv] at hk
      obtain ⟨m, h1, h2, h3⟩ := hk
      simp only [DijLifeView.setGraph, hv, Option.map_some]
      by_cases e : v.graph = i
      · rw [if_pos e]
        exact ⟨m, h1, h2, fun hf => by simp at hf⟩
      · rw [if_neg e]
        refine ⟨m, h1, h2, fun hi => ?_⟩
        rw [changed_other e]
        exact h3 hi

theorem RepDijs.setObject {w S} (h : RepDijs w S) (k : Nat) {c : DijClient} {v : DijView} (h1 : c.Rep v.search)
    (h2 : v.intact = true → S.graphs v.graph = some v.search.graph) :
    RepDijs ⟨w.graphs, changed w.objects k (some (v.graph, c))⟩ ⟨S.graphs, changed S.objects k (some v)⟩ := by
  refine ⟨h.graphs, h.wf, fun x => ?_⟩
  by_cases e : x = k
  · subst e
    simp only [changed_same]
    exact ⟨c, rfl, h1, h2⟩
  · simp only [changed_other e]
    exact h.objects x

theorem deref_same {c : DijClient} {s : Search} (h : c.Rep s) : DijProgram.deref c s.graph = c := by
  obtain ⟨d, t⟩ := c
  have hg : d.graph = some (toGraph s.graph) := h.1.graph
  unfold DijProgram.deref
  simp only
  rw [← hg]

theorem dij_life_step (w : DijProgram) (S : DijLifeView) (op : DijLifeOp) (hr : RepDijs w S)
    (hp : DijLifePre S op ∧ OldGraphKept S op) :
    ∃ w' out S', w.call op = some (w', out) ∧ DijLifeStep S op out S' ∧ RepDijs w' S' := by
  obtain ⟨hp, hkept⟩ := hp
  cases op with
  | setGraph i G => exact ⟨_, _, _, rfl, ⟨rfl, rfl⟩, hr.setGraph i (fun g e => by cases e; exact hp)⟩
  | endGraph i =>
    obtain ⟨G, hG⟩ := Option.ne_none_iff_exists'.mp hp
    exact ⟨⟨changed w.graphs i none, w.objects⟩, .unit, _, by simp [DijProgram.call, hr.graphs, hG], ⟨rfl, rfl⟩,
      hr.setGraph i (by simp)⟩
  | construct k i =>
    obtain ⟨G, hG⟩ := Option.ne_none_iff_exists'.mp hp
    obtain ⟨d, e, hd⟩ := rep_new (hr.wf i G hG)
    exact ⟨⟨w.graphs, changed w.objects k (some (i, ⟨d, G.time⟩))⟩, .unit, _, by simp [DijProgram.call, hr.graphs, hG, e],
      ⟨G, hG, rfl, rfl⟩, hr.setObject k (v := ⟨i, Search.fresh G, true⟩) ⟨hd, rfl⟩ (fun _ => hG)⟩
  | copy k l =>
    obtain ⟨v, hv⟩ := Option.ne_none_iff_exists'.mp hp
    obtain ⟨c, e, h1, h2⟩ := hr.object hv
    refine ⟨⟨w.graphs, changed w.objects k (some (v.graph, c))⟩, .unit, _, by simp [DijProgram.call, e], ⟨rfl, rfl⟩, ?_⟩
    rw [hv]
    exact hr.setObject k h1 h2
  | resetGraph k i =>
    obtain ⟨v, hv⟩ := Option.ne_none_iff_exists'.mp hp.1
    obtain ⟨G, hG⟩ := Option.ne_none_iff_exists'.mp hp.2
    obtain ⟨c, e, h1, _⟩ := hr.object hv
    obtain ⟨old, ho, hn⟩ := hkept v G hv hG
    have a1 := (hr.wf _ _ ho).csr.length
    have a2 := h1.1.wf.csr.length
    have a3 := (hr.wf _ _ hG).csr.length
    obtain ⟨d', e2, h'⟩ : ∃ d', Dijkstra.resetGraph { c.dij with graph := some (toGraph old) } (toGraph G) = some d' ∧
        DRep d' (Search.fresh G) := by
      by_cases he : old.n = G.n
      · obtain ⟨d', e1, h'⟩ := h1.1.resetGraph (hr.wf i G hG)
        have := hn he
        exact ⟨d', (resetGraph_old h1.1.graph (by simp only [toGraph]; omega)).trans e1, h'⟩
      · exact resetGraph_anew (hr.wf i G hG) (by simp only [toGraph]; omega)
    refine ⟨⟨w.graphs, changed w.objects k (some (i, ⟨d', G.time⟩))⟩, .unit, _, ?_, ⟨G, hG, rfl, rfl⟩,
      hr.setObject k (v := ⟨i, Search.fresh G, true⟩) ⟨h', rfl⟩ (fun _ => hG)⟩
    unfold toGraph at e2
    simp only [DijProgram.call, e, hr.graphs, ho, hG, Option.bind_eq_bind, Option.bind_some, dijCall, DijProgram.deref, toGraph, e2,
      Option.map_some]
  | call k op =>
    obtain ⟨hop, v, hv, hi, hq⟩ := hp
    obtain ⟨c, e, h1, h2⟩ := hr.object hv
    have hg := h2 hi
    obtain ⟨c', out, s', e1, e2, e3⟩ := dijCall_spec h1 hq
    refine ⟨⟨w.graphs, changed w.objects k (some (v.graph, c'))⟩, out, _, ?_, ⟨v, s', hv, e2, rfl⟩,
      hr.setObject k (v := ⟨v.graph, s', true⟩) e3 (fun _ => by rw [dijStep_graph e2 hop]; exact hg)⟩
    simp only [DijProgram.call, e, hr.graphs, hg, Option.bind_eq_bind, Option.bind_some, deref_same h1, e1]

end RK
