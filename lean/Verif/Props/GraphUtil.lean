import Verif.Proof.GraphUtil
import Verif.Spec.Graph
/-! # Property theorems C07, C15, C49 (graph_util.cpp) -/
namespace RK.Props
open Spec

/-- C07. The returned permutation sorts the arcs lexicographically by (tail, head), and `tail` is
replaced by the sorted tail array. -/
theorem C07_sort_permutation_and_apply (nodeCount : Nat) (tail head : List Nat)
    (hl : tail.length = head.length) (ht : ∀ x ∈ tail, x < nodeCount)
    (hh : ∀ x ∈ head, x < nodeCount) :
    ∃ p tail', computeSortPermutationFirstByTailThenByHeadAndApplySortToTail nodeCount tail head =
        some (p, tail') ∧
      LexSortPerm tail head p ∧ tail'.length = tail.length ∧
      ∀ i a : Nat, p[i]? = some a → tail'[i]? = tail[a]? := by
  obtain ⟨p, a1, q, a2, r, e1, e2, e3, e4, e5, h1, h2, h3⟩ := lex_forward hl ht hh
  refine ⟨r, a2, ?_, h1, h2, h3⟩
  simp [computeSortPermutationFirstByTailThenByHeadAndApplySortToTail,
    computeSortPermutationFirstByLeftThenByRightAndApplySortToLeft, e1, e2, e3, e4, e5,
    lex_sorted hl h1 h2 h3]

example : computeSortPermutationFirstByTailThenByHeadAndApplySortToTail 3 [2, 0, 2, 0] [1, 2, 0, 1] =
    some ([3, 1, 2, 0], [0, 0, 2, 2]) := by decide

/-- C07. The inverse variant returns the inverse of the lexicographic sort permutation. -/
theorem C07_inverse_sort_permutation_and_apply (nodeCount : Nat) (tail head : List Nat)
    (hl : tail.length = head.length) (ht : ∀ x ∈ tail, x < nodeCount)
    (hh : ∀ x ∈ head, x < nodeCount) :
    ∃ q tail' p,
      computeInverseSortPermutationFirstByTailThenByHeadAndApplySortToTail nodeCount tail head =
        some (q, tail') ∧
      IsPermutation q ∧ AreInverse p q ∧ LexSortPerm tail head p ∧ tail'.length = tail.length ∧
      ∀ i a : Nat, p[i]? = some a → tail'[i]? = tail[a]? := by
  obtain ⟨p, a1, q, a2, r, r0, e1, e2, e3, e4, e5, h0, h1, h2, h3, h4⟩ := lex_inverse hl ht hh
  refine ⟨r, a2, r0, ?_, h0, h1, h2, h3, h4⟩
  simp [computeInverseSortPermutationFirstByTailThenByHeadAndApplySortToTail,
    computeInverseSortPermutationFirstByLeftThenByRightAndApplySortToLeft, e1, e2, e3, e4, e5,
    lex_sorted hl h2 h3 h4]

example : computeInverseSortPermutationFirstByTailThenByHeadAndApplySortToTail 3
    [2, 0, 2, 0] [1, 2, 0, 1] = some ([3, 1, 2, 0], [0, 0, 2, 2]) := by decide

/-- C07, variants that do not change `tail`, compiled without asserts. -/
theorem C07_sort_permutation_release (nodeCount : Nat) (tail head : List Nat)
    (hl : tail.length = head.length) (ht : ∀ x ∈ tail, x < nodeCount)
    (hh : ∀ x ∈ head, x < nodeCount) :
    (∃ p, computeSortPermutationFirstByTailThenByHead false nodeCount tail head = some p ∧
      LexSortPerm tail head p) ∧
    (∃ q p, computeInverseSortPermutationFirstByTailThenByHead false nodeCount tail head = some q ∧
      IsPermutation q ∧ AreInverse p q ∧ LexSortPerm tail head p) := by
  constructor
  · obtain ⟨p, a1, q, a2, r, e1, e2, e3, e4, e5, h1, h2, h3⟩ := lex_forward hl ht hh
    refine ⟨r, ?_, h1⟩
    simp [computeSortPermutationFirstByTailThenByHead,
      computeSortPermutationFirstByLeftThenByRight, e1, e2, e3, e5]
  · obtain ⟨p, a1, q, a2, r, r0, e1, e2, e3, e4, e5, h0, h1, h2, h3, h4⟩ := lex_inverse hl ht hh
    refine ⟨r, r0, ?_, h0, h1, h2⟩
    simp [computeInverseSortPermutationFirstByTailThenByHead,
      computeInverseSortPermutationFirstByLeftThenByRight, e1, e2, e3, e5]

/-- The variants that do not change `tail` abort on every unsorted `tail` if asserts are compiled
in (graph_util.cpp:90 and 102 assert that the *input* is sorted). -/
theorem C07_sort_permutation_debug_violated (nodeCount : Nat) (tail head : List Nat)
    (hu : ¬ tail.Pairwise (· ≤ ·)) :
    computeSortPermutationFirstByTailThenByHead true nodeCount tail head = none ∧
    computeInverseSortPermutationFirstByTailThenByHead true nodeCount tail head = none := by
  have hf : isSortedUsingLess tail = false := by
    rw [← isSortedUsingLess_iff] at hu; simpa using hu
  constructor
  · unfold computeSortPermutationFirstByTailThenByHead computeSortPermutationFirstByLeftThenByRight
    simp [hf, check]
  · unfold computeInverseSortPermutationFirstByTailThenByHead
      computeInverseSortPermutationFirstByLeftThenByRight
    simp [hf, check]

example : ¬ ([1, 0] : List Nat).Pairwise (· ≤ ·) := by decide

/-! ### C15 -/

/-- C15, node path to arc path: every consecutive pair of nodes is replaced by an arc between them. -/
theorem C15_convert_node_path_to_arc_path (n : Nat) (firstOut head : List Nat)
    (hg : IsCSR n firstOut head) (path : List Nat) (hne : path ≠ [])
    (hp : ∀ i x y : Nat, path[i]? = some x → path[i + 1]? = some y →
      ∃ a, OutArc firstOut x a ∧ head[a]? = some y) :
    ∃ r, convertNodePathToArcPath firstOut head path = some r ∧ r.length = path.length - 1 ∧
      ∀ i x y : Nat, path[i]? = some x → path[i + 1]? = some y →
        ∃ a, r[i]? = some a ∧ OutArc firstOut x a ∧ head[a]? = some y := by
  unfold convertNodePathToArcPath
  rw [if_neg hne]
  have hlen : path.length ≠ 0 := by simpa using hne
  obtain ⟨r, e, h1, h2, h3⟩ := forRange_inv (lo := 0) (hi := path.length - 1) (s := path)
    (f := fun (path : List Nat) i => (rd path i).bind fun x => (rd firstOut x).bind fun b =>
      (rd firstOut (x + 1)).bind fun e => (rd path (i + 1)).bind fun y =>
      (convertScan head y (e - b) b).bind fun xy => wr path i xy)
    (fun i r => r.length = path.length ∧ (∀ j, i ≤ j → rd r j = rd path j) ∧
      ∀ j, j < i → ∀ x y, rd path j = some x → rd path (j + 1) = some y →
        ∃ a, rd r j = some a ∧ OutArc firstOut x a ∧ rd head a = some y) (by omega)
    ⟨rfl, fun _ _ => rfl, fun j hj => by omega⟩
    (by
      rintro i r _ hi ⟨hl, hr, hd⟩
      obtain ⟨x, hx⟩ := rd_isSome (v := path) (i := i) (by omega)
      obtain ⟨y, hy⟩ := rd_isSome (v := path) (i := i + 1) (by omega)
      obtain ⟨a, ⟨b, e, hb, he, hba, hae⟩, hay⟩ := hp i x y hx hy
      have hbe : b ≤ e := by omega
      have hehead : e ≤ head.length := by
        have hxlt : x + 1 < firstOut.length := rd_some_lt (v := firstOut) he
        have := hg.length
        obtain ⟨b', e', hb', he', _, h⟩ := hg.range (x := x) (by omega)
        rw [he] at he'; cases he'
        exact h
      obtain ⟨c, ec, hc1, hc2, hc3⟩ := convertScan_spec (head := head) (y := y) (n := e - b)
        (xy := b) (by omega) ⟨a, hba, by omega, hay⟩
      have hlt : i < r.length := by omega
      refine ⟨r.set i c, ?_, by simpa using hl, ?_, ?_⟩
      · have e1 : rd r i = some x := by rw [hr i (Nat.le_refl _)]; exact hx
        have e2 : rd r (i + 1) = some y := by rw [hr (i + 1) (by omega)]; exact hy
        simp only [e1, e2, Option.bind_some, show rd firstOut x = some b from hb,
          show rd firstOut (x + 1) = some e from he, ec, wr_lt hlt]
      · intro j hj
        rw [rd_set hlt, if_neg (by omega)]
        exact hr j (by omega)
      · intro j hj x' y' hx' hy'
        by_cases hji : j = i
        · subst hji
          rw [hx] at hx'; cases hx'
          rw [hy] at hy'; cases hy'
          exact ⟨c, by rw [rd_set hlt, if_pos rfl], ⟨b, e, hb, he, hc1, by omega⟩, hc3⟩
        · rw [rd_set hlt, if_neg hji]
          exact hd j (by omega) x' y' hx' hy')
  refine ⟨r.dropLast, ?_, by simp [h1], ?_⟩
  · have := congrArg (fun o => Option.bind o (fun r => some r.dropLast)) e
    exact this
  · intro i x y hx hy
    have hi := rd_some_lt (v := path) hy
    obtain ⟨a, ha, h⟩ := h3 i (by omega) x y hx hy
    refine ⟨a, ?_, h⟩
    rw [List.getElem?_dropLast, if_pos (by omega)]
    exact ha

example : IsCSR 3 [0, 2, 3, 3] [1, 2, 2] :=
  ⟨rfl, by intro x b e; rcases x with _ | _ | _ | x <;> simp <;> omega, rfl, rfl,
    by intro a y; rcases a with _ | _ | _ | a <;> simp <;> omega⟩
example : convertNodePathToArcPath [0, 2, 3, 3] [1, 2, 2] [0, 1, 2] = some [0, 2] := by decide

/-- C15, arc path to node path: exact behaviour of the code. All entries are right except the one
at index 1, which keeps the id of the second arc (or 0). `_partial`: the full property also demands
`r[1] = head[path[0]]`, which is false, see the next theorem. -/
theorem C15_convert_arc_path_to_node_path_partial (source : Nat) (head path : List Nat)
    (hne : path ≠ []) (hp : ∀ a ∈ path, a < head.length) :
    ∃ r, convertArcPathToNodePath source head path = some r ∧ r.length = path.length + 1 ∧
      r[0]? = some source ∧ r[1]? = some (path[1]?.getD 0) ∧
      ∀ i a : Nat, 1 ≤ i → path[i]? = some a → r[i + 1]? = head[a]? := by
  unfold convertArcPathToNodePath
  rw [if_neg hne]
  have hlen : path.length ≠ 0 := by simpa using hne
  have happ : ∀ i, i < path.length → rd (path ++ [0]) i = rd path i := by
    intro i hi
    unfold rd
    rw [List.getElem?_append_left hi]
  obtain ⟨r, e, h1, h2, h3⟩ := convertArcPathLoop_spec (head := head) (n := path.length - 1)
    (path := path ++ [0]) (by simp; omega)
    (by
      intro i a _ hi ha
      rw [happ i (by omega)] at ha
      exact hp a (List.mem_of_getElem? ha))
  have hlt : 0 < r.length := by rw [h1]; simp
  refine ⟨r.set 0 source, ?_, by simp [h1], ?_, ?_, ?_⟩
  · simp [e, wr_lt hlt]
  · simp [hlt]
  · change rd (r.set 0 source) 1 = _
    rw [rd_set hlt, if_neg (by omega), h3 1 (Or.inl (by omega))]
    by_cases h : 1 < path.length
    · rw [happ 1 h]; rw [rd_lt h]; simp [h]
    · have : path.length = 1 := by omega
      unfold rd
      rw [List.getElem?_append_right (by omega), this]
      simp [this]
  · intro i a hi ha
    have hi' := rd_some_lt (v := path) ha
    change rd (r.set 0 source) (i + 1) = rd head a
    rw [rd_set hlt, if_neg (by omega)]
    exact h2 i a hi (by omega) ((happ i hi').trans ha)

/-- C15 (violated by the code): there is a graph and a connected arc path whose node path is not the
returned one. Already the one-arc path `0 → 1` is converted to the nodes `0, 0`. -/
theorem C15_convert_arc_path_to_node_path_violated :
    ∃ (tail head weight : List Nat) (s t l : Nat) (path nodes r : List Nat),
      path ≠ [] ∧ Walk (listArcs tail head weight) s path t l ∧
      NodesOf (listArcs tail head weight) s path nodes ∧
      convertArcPathToNodePath s head path = some r ∧ r ≠ nodes := by
  refine ⟨[0, 1], [1, 2], [5, 6], 0, 1, 5, [0], [0, 1], [0, 0], by decide, ?_, ?_, by decide,
    by decide⟩
  · exact Walk.cons (m := 1) (w := 5) (l := 0) ⟨rfl, rfl, rfl⟩ (Walk.nil 1)
  · exact NodesOf.cons (m := 1) (w := 5) ⟨rfl, rfl, rfl⟩ (NodesOf.nil 1)

/-! ### C49 -/

/-- C49. `find_arc_or_return_invalid` returns the first arc from `x` to `y`, or `invalid_id` if there
is none; it never fails on a well-formed graph. -/
theorem C49_find_arc_or_return_invalid (n : Nat) (firstOut head : List Nat)
    (hg : IsCSR n firstOut head) (x y : Nat) (hx : x < n) (hy : y < n) :
    ∃ r, findArcOrReturnInvalid firstOut head x y = some r ∧
      ((OutArc firstOut x r ∧ head[r]? = some y ∧
          ∀ a, OutArc firstOut x a → head[a]? = some y → r ≤ a) ∨
       (r = invalidId ∧ ∀ a, OutArc firstOut x a → head[a]? ≠ some y)) := by
  obtain ⟨b, e, hb, he, hbe, heh⟩ := hg.range hx
  have hl := hg.length
  have c1 : decide (x < firstOut.length - 1) = true := by simp; omega
  have c2 : decide (y < firstOut.length - 1) = true := by simp; omega
  unfold findArcOrReturnInvalid
  simp only [c1, c2, check_true, Option.bind_eq_bind, Option.bind_some,
    show rd firstOut x = some b from hb, show rd firstOut (x + 1) = some e from he]
  have hout : ∀ a, OutArc firstOut x a ↔ b ≤ a ∧ a < e := by
    intro a
    constructor
    · rintro ⟨b', e', h1, h2, h3, h4⟩
      rw [hb] at h1; rw [he] at h2
      cases h1; cases h2
      exact ⟨h3, h4⟩
    · rintro ⟨h1, h2⟩
      exact ⟨b, e, hb, he, h1, h2⟩
  rcases findArcLoop_spec (head := head) (y := y) (n := e - b) (xy := b) (by omega) with
    ⟨a, h1, h2, h3, h4, h5⟩ | ⟨h1, h2⟩
  · refine ⟨a, h1, Or.inl ⟨(hout a).2 ⟨h2, by omega⟩, h4, ?_⟩⟩
    intro c hc hcy
    rw [hout] at hc
    by_contra hlt
    exact h5 c hc.1 (by omega) hcy
  · refine ⟨_, h1, Or.inr ⟨rfl, ?_⟩⟩
    intro a ha
    rw [hout] at ha
    exact h2 a ha.1 (by omega)

/-- C49. The variant for sorted heads: if the heads of each node are sorted, binary search finds the
first arc from `x` to `y`, or returns `invalid_id` if there is none. -/
theorem C49_find_arc_or_return_invalid_given_sorted_head (n : Nat) (firstOut head : List Nat)
    (hg : IsCSR n firstOut head)
    (hs : ∀ x a b u v : Nat, OutArc firstOut x a → OutArc firstOut x b → a ≤ b →
      head[a]? = some u → head[b]? = some v → u ≤ v)
    (x y : Nat) (hx : x < n) (hy : y < n) :
    ∃ r, findArcOrReturnInvalidGivenSortedHead firstOut head x y = some r ∧
      ((OutArc firstOut x r ∧ head[r]? = some y ∧
          ∀ a, OutArc firstOut x a → head[a]? = some y → r ≤ a) ∨
       (r = invalidId ∧ ∀ a, OutArc firstOut x a → head[a]? ≠ some y)) := by
  obtain ⟨b, e, hb, he, hbe, heh⟩ := hg.range hx
  have hl := hg.length
  have c1 : decide (x < firstOut.length - 1) = true := by simp; omega
  have c2 : decide (y < firstOut.length - 1) = true := by simp; omega
  have c3 : decide (b ≤ e ∧ e ≤ head.length) = true := by simp; omega
  have hout : ∀ a, OutArc firstOut x a ↔ b ≤ a ∧ a < e := by
    intro a
    constructor
    · rintro ⟨b', e', h1, h2, h3, h4⟩
      rw [hb] at h1; rw [he] at h2
      cases h1; cases h2
      exact ⟨h3, h4⟩
    · rintro ⟨h1, h2⟩
      exact ⟨b, e, hb, he, h1, h2⟩
  have c4 : isSortedUsingLess ((head.drop b).take (e - b)) = true := by
    rw [isSortedUsingLess_iff, List.pairwise_iff_getElem]
    intro i j hi hj hij
    simp only [List.length_take, List.length_drop] at hi hj
    simp only [List.getElem_take, List.getElem_drop]
    exact hs x (b + i) (b + j) _ _ ((hout _).2 (by omega)) ((hout _).2 (by omega)) (by omega)
      (List.getElem?_eq_getElem (by omega)) (List.getElem?_eq_getElem (by omega))
  unfold findArcOrReturnInvalidGivenSortedHead
  simp only [c1, c2, c3, c4, check_true, Option.bind_eq_bind, Option.bind_some,
    show rd firstOut x = some b from hb, show rd firstOut (x + 1) = some e from he]
  obtain ⟨pos, ep, h1, h2, h3, h4⟩ := lowerBound_spec (head := head) (y := y) (lo := b) (n := e - b)
    (by omega) (fun i j u v hi hij hj hu hv => hs x i j u v ((hout _).2 (by omega))
      ((hout _).2 (by omega)) hij hu hv)
  rw [ep, Option.bind_some]
  by_cases hpe : pos = e
  · rw [if_pos hpe]
    refine ⟨_, rfl, Or.inr ⟨rfl, ?_⟩⟩
    intro a ha hay
    rw [hout] at ha
    have := h3 a y ha.1 (by omega) hay
    omega
  · rw [if_neg hpe]
    obtain ⟨z, hz⟩ := rd_isSome (v := head) (i := pos) (by omega)
    rw [hz, Option.bind_some]
    have hyz := h4 pos z (Nat.le_refl _) (by omega) hz
    by_cases hzy : z = y
    · subst hzy
      rw [if_neg (by simp)]
      refine ⟨pos, rfl, Or.inl ⟨(hout _).2 (by omega), hz, ?_⟩⟩
      intro a ha hay
      rw [hout] at ha
      by_contra hlt
      have := h3 a z ha.1 (by omega) hay
      omega
    · rw [if_pos hzy]
      refine ⟨_, rfl, Or.inr ⟨rfl, ?_⟩⟩
      intro a ha hay
      rw [hout] at ha
      by_cases hap : a < pos
      · have := h3 a y ha.1 hap hay
        omega
      · have := hs x pos a z y ((hout _).2 (by omega)) ((hout _).2 ha) (by omega) hz hay
        omega

/-- C49. `find_arc` and `find_arc_given_sorted_head` succeed exactly if the arc exists (provided arc
ids are smaller than `invalid_id`). -/
theorem C49_find_arc (n : Nat) (firstOut head : List Nat) (hg : IsCSR n firstOut head)
    (hsize : head.length ≤ invalidId) (x y : Nat) (hx : x < n) (hy : y < n) :
    (∀ r, findArc firstOut head x y = some r ↔
      (OutArc firstOut x r ∧ head[r]? = some y ∧
          ∀ a, OutArc firstOut x a → head[a]? = some y → r ≤ a)) ∧
    (findArc firstOut head x y = none ↔ ∀ a, OutArc firstOut x a → head[a]? ≠ some y) := by
  obtain ⟨r, e, h⟩ := C49_find_arc_or_return_invalid n firstOut head hg x y hx hy
  unfold findArc
  simp only [e, Option.bind_eq_bind, Option.bind_some]
  rcases h with ⟨h1, h2, h3⟩ | ⟨h1, h2⟩
  · have : r < head.length := rd_some_lt (v := head) h2
    have hc : decide (r ≠ invalidId) = true := by simp; omega
    rw [hc]
    simp only [check_true, Option.bind_some]
    constructor
    · intro r'
      simp only [Option.some.injEq]
      constructor
      · rintro rfl; exact ⟨h1, h2, h3⟩
      · rintro ⟨h1', h2', h3'⟩
        have a1 := h3 r' h1' h2'
        have a2 := h3' r h1 h2
        omega
    · constructor
      · intro h; cases h
      · intro h; exact absurd h2 (h r h1)
  · subst h1
    constructor
    · intro r'
      constructor
      · intro h; simp [check] at h
      · rintro ⟨h1', h2', h3'⟩
        exact absurd h2' (h2 r' h1')
    · simp [check]; exact h2

example : findArc [0, 2, 3, 3] [1, 2, 2] 0 2 = some 1 ∧ findArc [0, 2, 3, 3] [1, 2, 2] 2 0 = none := by
  decide

end RK.Props
