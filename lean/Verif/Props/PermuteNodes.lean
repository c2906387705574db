import Verif.Proof.PermuteNodes
/-! # Property theorems C67 (randomly_permute_nodes.cpp) -/
namespace RK.Props
open RK _root_.Spec

/-- C67: whatever permutation the random generator draws, the result is a well-formed graph with the arcs of every node
ordered by head, and it is the given graph with other node and arc ids; every weight vector follows its arcs. -/
theorem C67_renumbered {stdSort : SortFn} (hs : StdSort stdSort) {n : Nat} {nodePerm firstOut head : List Nat} {weights : List (List Nat)}
    (hg : IsCSR n firstOut head) (hne : head ≠ []) (hperm : IsPermutation nodePerm) (hn : nodePerm.length = n)
    (hw : ∀ w ∈ weights, w.length = head.length) :
    ∃ firstOut' head' weights' arcPerm, permuteNodes stdSort nodePerm firstOut head weights = .ok (firstOut', head', weights') ∧
      IsCSR n firstOut' head' ∧ HeadsOrdered firstOut' head' ∧
      IsRenumbering nodePerm arcPerm firstOut head weights firstOut' head' weights' :=
  permuteNodes_spec hs hg hne hperm hn hw

/-- C67: distances do not change, for each of the weight vectors. -/
theorem C67_distances {stdSort : SortFn} (hs : StdSort stdSort) {n : Nat} {nodePerm firstOut head : List Nat} {weights : List (List Nat)}
    (hg : IsCSR n firstOut head) (hperm : IsPermutation nodePerm) (hn : nodePerm.length = n)
    (hw : ∀ w ∈ weights, w.length = head.length) {firstOut' head' : List Nat} {weights' : List (List Nat)}
    (hr : permuteNodes stdSort nodePerm firstOut head weights = .ok (firstOut', head', weights'))
    {k : Nat} {w w' : List Nat} (hk : weights[k]? = some w) (hk' : weights'[k]? = some w') {s t s' t' : Nat}
    (hsp : nodePerm[s]? = some s') (htp : nodePerm[t]? = some t') (d : Nat) :
    IsDist (csrArcs firstOut head w) s t d ↔ IsDist (csrArcs firstOut' head' w') s' t' d := by
  have hne : head ≠ [] := by
    rintro rfl
    simp [permuteNodes, Res.bind_eq_ok, Res.require_eq_ok] at hr
  obtain ⟨fo', hd', ws', r0, e, hg', -, h⟩ := permuteNodes_spec hs hg hne hperm hn hw
  rw [hr] at e
  injection e with e
  injection e with e1 e2
  injection e2 with e2 e3
  subst e1; subst e2; subst e3
  exact renumbering_dist hg hg' hperm hn h hk hk' hsp htp d

/-- C67, rejected input: if the offsets do not decrease, everything that is not a graph with at least one arc and fitting
weight vectors is reported. -/
theorem C67_rejected_iff {stdSort : SortFn} (hs : StdSort stdSort) {nodePerm firstOut head : List Nat} {weights : List (List Nat)}
    (hne : firstOut ≠ []) (hmono : ∀ x b e : Nat, firstOut[x]? = some b → firstOut[x + 1]? = some e → b ≤ e)
    (hperm : IsPermutation nodePerm) (hn : nodePerm.length + 1 = firstOut.length) :
    permuteNodes stdSort nodePerm firstOut head weights = .error ↔
      ¬ (IsCSR nodePerm.length firstOut head ∧ head ≠ [] ∧ ∀ w ∈ weights, w.length = head.length) := by
  constructor
  · rintro h ⟨h1, h2, h3⟩
    obtain ⟨fo', hd', ws', r0, e, -⟩ := permuteNodes_spec hs h1 h2 hperm rfl h3
    rw [h] at e; cases e
  · intro h
    obtain ⟨x, hx⟩ : ∃ x, firstOut.head? = some x := by
      cases firstOut with
      | nil => exact absurd rfl hne
      | cons a l => exact ⟨a, rfl⟩
    obtain ⟨y, hy⟩ : ∃ y, firstOut.getLast? = some y := ⟨_, List.getLast?_eq_some_getLast hne⟩
    have hnn : firstOut.length - 1 = nodePerm.length := by omega
    by_cases h1 : x = 0
    swap
    · simp [permuteNodes, hx, h1, Res.ofOption, Res.require]
    by_cases h2 : y = head.length
    swap
    · simp [permuteNodes, hx, hy, h1, h2, Res.ofOption, Res.require]
    by_cases h3 : head = []
    · simp [permuteNodes, hx, hy, h1, h2, h3, Res.ofOption, Res.require]
    by_cases h4 : ∀ x ∈ head, x < nodePerm.length
    swap
    · have h4' : ¬ (head.all fun x => decide (x < nodePerm.length)) = true := by simpa using h4
      simp only [permuteNodes, hx, hy, h1, h2, h3, hnn, Res.ofOption, Res.require, h4']
      simp [h3]
    by_cases h5 : ∀ w ∈ weights, w.length = head.length
    swap
    · have h4' : (head.all fun x => decide (x < nodePerm.length)) = true := by simpa using h4
      have h5' : ¬ (weights.all fun w => decide (w.length = head.length)) = true := by simpa using h5
      simp only [permuteNodes, hx, hy, h1, h2, h3, hnn, Res.ofOption, Res.require, h4', h5']
      simp [h3]
    refine absurd ⟨⟨by omega, hmono, ?_, ?_, ?_⟩, h3, h5⟩ h
    · subst h1; rw [← hx, List.head?_eq_getElem?]
    · rw [← h2, ← hy, List.getLast?_eq_getElem?, hnn]
    · intro a y hy
      exact h4 y (List.mem_of_getElem? hy)

/-- Finding: decreasing offsets are not noticed; the result then is not the given graph (arc 1 belongs to the nodes 0 and 2,
afterwards only to node 2) ... -/
theorem C67_decreasing_offsets_violated :
    permuteNodes (fun _ less l => l.mergeSort fun a b => !less b a) [0, 1, 2] [0, 2, 1, 2] [1, 1] [] = .ok ([0, 1, 1, 2], [1, 1], []) := by
  decide +kernel

/-- ... or memory behind a vector is written. -/
theorem C67_decreasing_offsets_undefined :
    permuteNodes (fun _ less l => l.mergeSort fun a b => !less b a) [0, 1, 2] [0, 3, 1, 2] [1, 1] [] = .ub := by
  decide +kernel

/-- Finding: a graph without arcs is rejected. -/
theorem C67_no_arcs_rejected {stdSort : SortFn} : permuteNodes stdSort [1, 0] [0, 0, 0] [] [] = .error := rfl

example : permuteNodes (fun _ less l => l.mergeSort fun a b => !less b a) [2, 0, 1] [0, 2, 3, 4] [1, 2, 0, 0] [[5, 6, 7, 8], [1, 2, 3, 4]] =
    .ok ([0, 1, 2, 4], [2, 2, 0, 1], [[7, 8, 5, 6], [3, 4, 1, 2]]) := by decide +kernel
example : IsCSR 3 [0, 2, 3, 4] [1, 2, 0, 0] := (csr_iff rfl).2 (by decide)
example : IsPermutation [2, 0, 1] := by unfold IsPermutation; decide

end RK.Props
