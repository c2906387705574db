import Verif.Proof.Cut
import Verif.Props.Fragment
/-! # Property theorems C42 (nested_dissection.cpp: BlockingFlow and its cuts) -/
namespace RK.Props
open Spec

/-- C42. Constructing a `BlockingFlow` and calling `advance` any number of times is defined (no assertion
fails, no vector is read or written out of bounds, no loop runs forever), the current flow intensity never
exceeds the number of arcs, and after at most one call more than there are arcs the object is finished. -/
theorem C42_advance_finishes (f : GraphFragment) (hf : FragmentOk f) (hfit : FragmentFits f) (src tgt : List Bool)
    (he : EndsOk f src tgt) (junk : Nat → Bool) :
    ∃ w0, Nd.newFlow f src tgt junk = some w0 ∧ w0.intensity = 0 ∧
      ∀ k, ∃ w, advances f k w0 = some w ∧ w.intensity ≤ f.tail.length ∧ (f.tail.length < k → w.finished = true) := by
  obtain ⟨w0, e, W, h1, _⟩ := newFlow_spec he junk
  refine ⟨w0, e, h1, ?_⟩
  intro k
  obtain ⟨w, e', W', h3⟩ := advances_spec hf hfit.2 he k w0 W
  have hle := flowInv_le hf (endsOk_ends he) W'.val
  refine ⟨w, e', hle, ?_⟩
  intro hk
  rcases h3 with h3 | ⟨_, h3⟩
  · exact h3
  · have : f.arcCount = f.tail.length := rfl
    omega

/-- C42. Each call of `advance` that does not finish the flow makes it larger; a finished flow stays as it
is. -/
theorem C42_advance_progress (f : GraphFragment) (hf : FragmentOk f) (hfit : FragmentFits f) (src tgt : List Bool)
    (he : EndsOk f src tgt) (w : Nd.Flow) (hw : FlowRun f src tgt w) :
    ∃ w', Nd.advance f w = some w' ∧
      ((w'.finished = true ∧ w'.intensity = w.intensity) ∨
        (w.finished = false ∧ w'.finished = false ∧ w.intensity < w'.intensity)) := by
  obtain ⟨w', e, _, h⟩ := advance_spec hf hfit.2 (endsOk_ends he) (endsOk_target he) (flowRun_inv hf hfit.2 he hw)
  refine ⟨w', e, ?_⟩
  rcases h with ⟨h1, h2, _⟩ | h
  · exact Or.inl ⟨h1, h2⟩
  · exact Or.inr h

/-- C42. When the flow is finished, `get_source_cut` returns a minimum cut: a node set with all sources
and no target whose number of leaving arcs is `cut_size`, which equals the flow intensity, and no node set
that separates sources and targets has fewer leaving arcs.  It is the smallest such set: every other
minimum cut contains it. -/
theorem C42_source_cut (f : GraphFragment) (hf : FragmentOk f) (hfit : FragmentFits f) (src tgt : List Bool)
    (he : EndsOk f src tgt) (w : Nd.Flow) (hw : FlowRun f src tgt w) (hfin : w.finished = true) :
    ∃ c, Nd.getSourceCut f w = some c ∧ MinimumCut f src tgt c ∧ c.cutSize = w.intensity ∧
      ∀ c', MinimumCut f src tgt c' → ∀ x : Nat, c.isNodeOnSide[x]? = some true → c'.isNodeOnSide[x]? = some true := by
  have W := flowRun_inv hf hfit.2 he hw
  obtain ⟨c, e, M, h1, D⟩ := getSourceCut_spec hf he W hfin
  refine ⟨c, e, M, h1, ?_⟩
  intro c' M' x hx
  have hle : leaving f c'.isNodeOnSide ≤ w.intensity := by
    rw [← M'.size, ← h1, M.size]
    exact M'.smallest _ M.separates
  have hcl := closed_of_minimum hf he W M'.separates hle
  exact at_iff.1 (D.up _ hcl (separates_at M'.separates).1 x (at_iff.2 hx))

/-- C42. The same for `get_target_cut` with sources and targets exchanged. -/
theorem C42_target_cut (f : GraphFragment) (hf : FragmentOk f) (hfit : FragmentFits f) (src tgt : List Bool)
    (he : EndsOk f src tgt) (w : Nd.Flow) (hw : FlowRun f src tgt w) (hfin : w.finished = true) :
    ∃ c, Nd.getTargetCut f w = some c ∧ MinimumCut f tgt src c ∧ c.cutSize = w.intensity ∧
      ∀ c', MinimumCut f tgt src c' → ∀ x : Nat, c.isNodeOnSide[x]? = some true → c'.isNodeOnSide[x]? = some true := by
  have W := flowRun_inv hf hfit.2 he hw
  obtain ⟨c, e, M, h1, D⟩ := getTargetCut_spec hf he W hfin
  refine ⟨c, e, M, h1, ?_⟩
  intro c' M' x hx
  have E := endsOk_ends he
  have hl' : c'.isNodeOnSide.length = f.nodeCount := by have := M'.separates.len; have := E.tl; omega
  have hle : leaving f (c'.isNodeOnSide.map not) ≤ w.intensity := by
    rw [leaving_not hf hl', ← M'.size, ← h1, M.size]
    exact M'.smallest _ M.separates
  have hcl := (dual_sat hf w.sat).two _
    (closed_of_minimum hf he W (separates_not (endsOk_symm he) M'.separates) hle)
  have hin := D.up _ hcl (by
    intro y hy h
    rw [at_iff, List.getElem?_map, M'.separates.source y (at_iff.1 hy)] at h
    cases h) x (at_iff.2 hx)
  have hxl : x < f.nodeCount := by
    have h2 := BitVector.at_eq_true_lt (at_iff.2 hx)
    have := M.separates.len
    have := E.tl
    omega
  rw [at_iff, List.getElem?_map, List.getElem?_eq_getElem (by omega)] at hin
  rw [List.getElem?_eq_getElem (by omega)]
  simpa using hin

/-- C42. `get_balanced_cut` of a finished flow returns one side of a minimum cut, either the one with the
sources or the one with the targets.  The side has at most half of the nodes, and it is at least as large as
the smaller one of the sides that `get_source_cut` and `get_target_cut` return. -/
theorem C42_balanced_cut (f : GraphFragment) (hf : FragmentOk f) (hfit : FragmentFits f) (src tgt : List Bool)
    (he : EndsOk f src tgt) (w : Nd.Flow) (hw : FlowRun f src tgt w) (hfin : w.finished = true) :
    ∃ c s t, Nd.getBalancedCut f w = some c ∧ Nd.getSourceCut f w = some s ∧ Nd.getTargetCut f w = some t ∧
      (MinimumCut f src tgt c ∨ MinimumCut f tgt src c) ∧ c.cutSize = w.intensity ∧
      2 * c.nodeOnSideCount ≤ f.globalNodeId.length ∧
      min s.nodeOnSideCount t.nodeOnSideCount ≤ c.nodeOnSideCount := by
  have W := flowRun_inv hf hfit.2 he hw
  obtain ⟨s, e1, M1, _, D1⟩ := getSourceCut_spec hf he W hfin
  obtain ⟨t, e2, M2, _, D2⟩ := getTargetCut_spec hf he W hfin
  obtain ⟨c, e, h1, h2, h3, h4⟩ := getBalancedCut_spec hf he W hfin
  refine ⟨c, s, t, e, e1, e2, h1, h2, h3, ?_⟩
  rw [M1.nodes, M2.nodes]
  exact h4 _ _ D1 D2

/-- Before the flow is finished the assertions at the beginning of the three functions fail. -/
theorem C42_unfinished_aborts (f : GraphFragment) (w : Nd.Flow) (h : w.finished = false) :
    Nd.getSourceCut f w = none ∧ Nd.getTargetCut f w = none ∧ Nd.getBalancedCut f w = none := by
  unfold Nd.getSourceCut Nd.getTargetCut Nd.getBalancedCut
  rw [h]
  exact ⟨rfl, rfl, rfl⟩

/-- C42. `pick_smaller_side` of a cut with `n` nodes in total: the result is the given side or its
complement, the counts are right, and it has at most half of the nodes. -/
theorem C42_pick_smaller_side (c : Nd.CutSide) (hc : c.nodeOnSideCount = c.isNodeOnSide.count true)
    (hn : c.isNodeOnSide.length + 1 < u32) :
    (Nd.pickSmallerSide c).cutSize = c.cutSize ∧
    ((Nd.pickSmallerSide c).isNodeOnSide = c.isNodeOnSide ∨
      (Nd.pickSmallerSide c).isNodeOnSide = c.isNodeOnSide.map not) ∧
    (Nd.pickSmallerSide c).nodeOnSideCount = (Nd.pickSmallerSide c).isNodeOnSide.count true ∧
    2 * (Nd.pickSmallerSide c).nodeOnSideCount ≤ c.isNodeOnSide.length := by
  have hft := count_false_true c.isNodeOnSide
  have hnot : (c.isNodeOnSide.map not).count true = c.isNodeOnSide.count false := by
    generalize c.isNodeOnSide = l
    induction l with
    | nil => rfl
    | cons b l ih => cases b <;> simp [ih]
  have hu : u32 = 4294967296 := rfl
  have hadd : add32 c.isNodeOnSide.length 1 = c.isNodeOnSide.length + 1 := Nat.mod_eq_of_lt (by omega)
  unfold Nd.pickSmallerSide
  simp only
  rw [hadd]
  split
  · rename_i h
    have hsub : Nd.sub32 c.isNodeOnSide.length c.nodeOnSideCount = c.isNodeOnSide.length - c.nodeOnSideCount := by
      unfold Nd.sub32
      rw [hu] at hn ⊢
      omega
    refine ⟨rfl, Or.inr rfl, ?_, ?_⟩
    · simp only
      rw [hsub, hnot]
      omega
    · simp only
      rw [hsub]
      omega
  · refine ⟨rfl, Or.inl rfl, hc, ?_⟩
    omega

/-- A square 0 – 1 – 3 – 2 – 0 with the diagonal 1 – 2. -/
def squareFragment : GraphFragment :=
  ⟨[0, 1, 2, 3], [0, 2, 5, 8, 10], [0, 0, 1, 1, 1, 2, 2, 2, 3, 3], [1, 2, 0, 2, 3, 0, 1, 3, 1, 2],
    [2, 5, 0, 6, 8, 1, 3, 9, 4, 7]⟩

theorem squareFragment_ok : FragmentOk squareFragment := by
  obtain ⟨f, e, h, _⟩ := C44_make_graph_fragment 4 [0, 0, 1, 1, 2] [1, 2, 3, 2, 3] rfl (by decide) (by decide) (by decide)
  have : Nd.makeGraphFragment 4 [0, 0, 1, 1, 2] [1, 2, 3, 2, 3] = some squareFragment := by decide
  rw [this] at e; cases e
  exact h

example : FragmentOk squareFragment ∧ FragmentFits squareFragment ∧
    EndsOk squareFragment [true, false, false, false] [false, false, false, true] :=
  ⟨squareFragment_ok, by unfold FragmentFits; decide, rfl, rfl, ⟨0, rfl⟩, ⟨3, rfl⟩, by
    intro x h1 h2
    match x with
    | 0 => cases h2
    | 1 => cases h1
    | 2 => cases h1
    | 3 => cases h1
    | x + 4 => cases h1⟩

example : (do
    let w ← Nd.newFlow squareFragment [true, false, false, false] [false, false, false, true] (fun _ => true)
    let w ← advances squareFragment 2 w
    let s ← Nd.getSourceCut squareFragment w
    let t ← Nd.getTargetCut squareFragment w
    let c ← Nd.getBalancedCut squareFragment w
    some (w.finished, w.intensity, s, t, c)) =
    some (true, 2, ⟨1, 2, [true, false, false, false]⟩, ⟨1, 2, [false, false, false, true]⟩,
      ⟨1, 2, [false, false, false, true]⟩) := by decide +kernel

end RK.Props
