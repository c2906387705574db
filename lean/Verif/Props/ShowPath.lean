import Verif.Proof.ShowPath
import Verif.Props.Tools
/-! # Property theorems C75 (show_path.cpp) -/
namespace RK.Props
open RK _root_.Spec

/-- The file of `compute_contraction_hierarchy` and what is loaded from it. -/
theorem tool_file {asserts hardened : Bool} {junkF junkB : Nat → Word} {pad : List Byte} (hpad : pad.length = 4)
    {disk : Disk} {n : Nat} {firstOut head weight : List Nat} (hG : ToolGraph n firstOut head weight)
    (hw : ∀ w ∈ weight, w ≤ 2 * lightArc) {ch : Ch}
    (hch : ToolHierarchy asserts hardened junkF junkB disk n firstOut head weight ch) :
    ∃ file ch', toolComputeCh asserts hardened junkF junkB pad disk firstOut head weight = .ok file ∧
      loadCh hardened (some file) = .ok ch' ∧ HierOk ch' ⟨n, csrArcs firstOut head weight⟩ := by
  obtain ⟨tail, htl, hown, hb⟩ := hch.built
  have ht : IsTail firstOut head tail := ⟨htl, hown⟩
  have hin : GraphInput ⟨n, csrArcs firstOut head weight⟩ tail head weight :=
    ⟨(isTail_arcs hG.csr ht).symm, htl.symm, by rw [htl, hG.weights], isTail_lt hG.csr ht,
      fun x hx => by
        obtain ⟨a, ha⟩ := List.getElem?_of_mem hx
        exact hG.csr.head_lt a x ha,
      hw, hG.nodes, by rw [htl]; exact hG.size⟩
  have hbf : BuiltFor ch ⟨n, csrArcs firstOut head weight⟩ :=
    ⟨tail, head, weight, hin, asserts, 500, junkF, junkB, Or.inl hb, hch.light_forward, hch.light_backward⟩
  obtain ⟨tail', head', weight', OF, OB, hi', hf, l1, l2⟩ := builtFor_full hbf
  obtain ⟨file, ch', e1, e2, e3⟩ := C35_file_round_trip_partial hardened pad hpad ch OF OB (hf.storable hG.nodes hi'.size l1 l2)
    hch.nonempty hch.size disk hch.open_ hch.room
  refine ⟨file, ch', ?_, e2, hierOk_loaded hbf hf.forward hf.backward e3⟩
  obtain ⟨tail2, e4, ht2⟩ := invert_tail hG.csr
  obtain rfl := isTail_unique hG.csr ht ht2
  have hl : firstOut.length - 1 = n := by have := hG.csr.length; omega
  unfold toolComputeCh
  simp only [(C66_graph_accepted_iff_partial firstOut head).2 ⟨n, hG.csr⟩, hG.nonempty, ne_eq, not_false_eq_true, decide_true, Res.require_true,
    checkToolInput_ok hG.csr hG.nonempty hG.weights, e4, hl, hb, builtFor_check hbf, Res.ofOption_some, Res.ok_bind, e1]

theorem csrArcs_head_lt {n : Nat} {fo hd wt : List Nat} (h : IsCSR n fo hd) : ∀ a x y w, csrArcs fo hd wt a x y w → y < n :=
  fun _ _ _ _ ha => h.head_lt _ _ ha.2.1

theorem small_u32 {n : Nat} (h : n ≤ 2 ^ 30) : n < u32 := by
  have : u32 = 4294967296 := rfl
  omega

/-- C75. For the hierarchy file of a graph and a text of pairs of nodes, the tool draws a shortest path of the graph for each pair, in the
order of the input: the end points, the distance, and the coordinates of the nodes along the path. If the next pair contains a number
above the number of nodes, then the tool reports an error after these drawings. -/
theorem C75_drawings_partial (asserts hardened : Bool) (junkF junkB : Nat → Word) (pad : List Byte) (hpad : pad.length = 4)
    (disk : Disk) (n : Nat) (firstOut head weight : List Nat) (hG : ToolGraph n firstOut head weight)
    (hw : ∀ w ∈ weight, w ≤ 2 * lightArc) (ch : Ch)
    (hch : ToolHierarchy asserts hardened junkF junkB disk n firstOut head weight ch) :
    ∃ file, toolComputeCh asserts hardened junkF junkB pad disk firstOut head weight = .ok file ∧
      ∀ (α : Type) (latitude longitude : List α), n ≤ latitude.length → n ≤ longitude.length →
        ∀ (pairs : List (Nat × Nat)), (∀ p ∈ pairs, p.1 < n ∧ p.2 < n) → ∀ (text : List Char),
          (NumbersText text (pairs.flatMap fun p => [p.1, p.2]) →
            ∃ docs, toolShowPath hardened (some file) latitude longitude text = .ok (docs, .finished) ∧
              DocumentsFor (csrArcs firstOut head weight) latitude longitude pairs docs) ∧
          (∀ s t more, NumbersText text ((pairs.flatMap fun p => [p.1, p.2]) ++ s :: t :: more) → s < 2 ^ 32 → t < 2 ^ 32 →
            n < s ∨ n < t →
            ∃ docs, toolShowPath hardened (some file) latitude longitude text = .ok (docs, .outOfBounds) ∧
              DocumentsFor (csrArcs firstOut head weight) latitude longitude pairs docs) := by
  obtain ⟨file, ch', e1, e2, hok⟩ := tool_file (pad := pad) hpad hG hw hch
  refine ⟨file, e1, fun α lat lon hlat hlon pairs hp text => ⟨fun ht => ?_, fun s t more ht hs ht' hst => ?_⟩⟩
  · obtain ⟨fuel', q', S', rest, docs, g1, _, _, g4, g5, g6⟩ := showPaths_pairs (G := ⟨n, csrArcs firstOut head weight⟩) hlat hlon
      (small_u32 hG.nodes) (csrArcs_head_lt hG.csr) pairs (more := []) (docs := []) (chQuery_rep_new hok) rfl hp
      (by rw [List.append_nil]; exact ht) (Nat.lt_succ_self _)
    refine ⟨docs, ?_, g6⟩
    unfold toolShowPath
    rw [e2, Res.ok_bind, hok.ok.rankLen]
    simp only at g1
    rw [g1, showPaths_done g4 g5, List.nil_append]
  · obtain ⟨fuel', q', S', rest, docs, g1, _, _, g4, g5, g6⟩ := showPaths_pairs (G := ⟨n, csrArcs firstOut head weight⟩) hlat hlon
      (small_u32 hG.nodes) (csrArcs_head_lt hG.csr) pairs (docs := []) (chQuery_rep_new hok) rfl hp ht (Nat.lt_succ_self _)
    refine ⟨docs, ?_, g6⟩
    unfold toolShowPath
    rw [e2, Res.ok_bind, hok.ok.rankLen]
    simp only at g1
    rw [g1, showPaths_beyond g4 hs ht' hst g5, List.nil_append]

/-- C75, finding: the number of nodes itself is not a node but passes the check; the query is undefined behaviour, also after any number
of correct queries. -/
theorem C75_node_count_undefined (asserts hardened : Bool) (junkF junkB : Nat → Word) (pad : List Byte) (hpad : pad.length = 4)
    (disk : Disk) (n : Nat) (firstOut head weight : List Nat) (hG : ToolGraph n firstOut head weight)
    (hw : ∀ w ∈ weight, w ≤ 2 * lightArc) (ch : Ch)
    (hch : ToolHierarchy asserts hardened junkF junkB disk n firstOut head weight ch) :
    ∃ file, toolComputeCh asserts hardened junkF junkB pad disk firstOut head weight = .ok file ∧
      ∀ (α : Type) (latitude longitude : List α), n ≤ latitude.length → n ≤ longitude.length →
        ∀ (pairs : List (Nat × Nat)), (∀ p ∈ pairs, p.1 < n ∧ p.2 < n) → ∀ (text : List Char) (s t : Nat) (more : List Nat),
          NumbersText text ((pairs.flatMap fun p => [p.1, p.2]) ++ s :: t :: more) → s ≤ n → t ≤ n → s = n ∨ t = n →
            toolShowPath hardened (some file) latitude longitude text = .ub := by
  obtain ⟨file, ch', e1, e2, hok⟩ := tool_file (pad := pad) hpad hG hw hch
  refine ⟨file, e1, fun α lat lon hlat hlon pairs hp text s t more ht hs ht' hst => ?_⟩
  obtain ⟨fuel', q', S', rest, docs, g1, g2, g3, g4, g5, g6⟩ := showPaths_pairs (G := ⟨n, csrArcs firstOut head weight⟩) hlat hlon
    (small_u32 hG.nodes) (csrArcs_head_lt hG.csr) pairs (docs := []) (chQuery_rep_new hok) rfl hp ht (Nat.lt_succ_self _)
  unfold toolShowPath
  rw [e2, Res.ok_bind, hok.ok.rankLen]
  simp only at g1
  have hn : S'.graph.n = n := by rw [g3]
  rw [g1]
  have := showPaths_at_count (lat := lat) (lon := lon) (fuel := fuel') (docs := [] ++ docs) g2 g4
    (by rw [hn]; exact small_u32 hG.nodes) (by rw [hn]; exact hs) (by rw [hn]; exact ht') (by rw [hn]; exact hst)
  rw [hn] at this
  exact this

/-- The file of the sample graph of C68. -/
def sampleChFile : Option (List Byte) :=
  match toolComputeCh true false (fun _ => 0) (fun _ => 0) [0, 0, 0, 0] sampleDisk sampleFirstOut sampleHead sampleWeight with
  | .ok file => some file
  | _ => none

/-- C75, finding: files with coordinates that are too short are not noticed; and if there is no path then a path of length 2147483647
without nodes is drawn. -/
theorem C75_unchecked_coordinates_undefined :
    toolShowPath false sampleChFile [1, 2] [1, 2, 3, 4, 5] "0 3".toList = .ub ∧
    toolShowPath false sampleChFile [1, 2, 3, 4, 5] [6, 7, 8, 9, 10] "0 4".toList =
      .ok ([⟨(6, 1), (10, 5), 2147483647, []⟩], .finished) := by
  decide +kernel

/-! ### Examples -/

/-- The node 3 is reached from 0 along 1 and 2. -/
example : toolShowPath false sampleChFile [1, 2, 3, 4, 5] [6, 7, 8, 9, 10] "0 3\n3\t2 6 0 1".toList =
    .ok ([⟨(6, 1), (9, 4), 6, [(6, 1), (7, 2), (8, 3), (9, 4)]⟩, ⟨(9, 4), (8, 3), 11, [(9, 4), (6, 1), (7, 2), (8, 3)]⟩],
      .outOfBounds) := by decide +kernel

/-- The text of this example. -/
theorem numbersText_example : NumbersText "0 3\n3\t2 6 0 1".toList [0, 3, 3, 2, 6, 0, 1] := by
  have sp : ∀ c ∈ [' '], IsWhite c := by simp [IsWhite, IsBlank]
  have w : ∀ (c : Char) (l : List Char), IsWhite c → ∀ d, (c :: l).head? = some d → IsWhite d := by
    intro c l h d hd
    simp only [List.head?_cons, Option.some.injEq] at hd
    exact hd ▸ h
  have ws : IsWhite ' ' := Or.inl (Or.inl rfl)
  have wt : IsWhite '\t' := Or.inl (Or.inr (Or.inl rfl))
  have wn : IsWhite '\n' := Or.inr rfl
  exact .cons [] ['0'] " 3\n3\t2 6 0 1".toList 0 _ (by simp) ⟨by decide, by decide, by decide⟩ (w _ _ ws)
    (.cons [' '] ['3'] "\n3\t2 6 0 1".toList 3 _ sp ⟨by decide, by decide, by decide⟩ (w _ _ wn)
    (.cons ['\n'] ['3'] "\t2 6 0 1".toList 3 _ (by simp [wn]) ⟨by decide, by decide, by decide⟩ (w _ _ wt)
    (.cons ['\t'] ['2'] " 6 0 1".toList 2 _ (by simp [wt]) ⟨by decide, by decide, by decide⟩ (w _ _ ws)
    (.cons [' '] ['6'] " 0 1".toList 6 _ sp ⟨by decide, by decide, by decide⟩ (w _ _ ws)
    (.cons [' '] ['0'] " 1".toList 0 _ sp ⟨by decide, by decide, by decide⟩ (w _ _ ws)
    (.cons [' '] ['1'] [] 1 _ sp ⟨by decide, by decide, by decide⟩ (by simp) (.nil [] (by simp))))))))

example : ∃ file docs, toolComputeCh true false (fun _ => 0) (fun _ => 0) [0, 0, 0, 0] sampleDisk sampleFirstOut sampleHead sampleWeight =
      .ok file ∧ toolShowPath false (some file) [1, 2, 3, 4, 5] [6, 7, 8, 9, 10] "0 3\n3\t2 6 0 1".toList = .ok (docs, .outOfBounds) ∧
      DocumentsFor (csrArcs sampleFirstOut sampleHead sampleWeight) [1, 2, 3, 4, 5] [6, 7, 8, 9, 10] [(0, 3), (3, 2)] docs := by
  obtain ⟨ch, hch⟩ := sampleTool_hierarchy
  obtain ⟨file, e, h⟩ := C75_drawings_partial true false (fun _ => 0) (fun _ => 0) [0, 0, 0, 0] rfl sampleDisk 5 sampleFirstOut sampleHead
    sampleWeight sampleTool_graph (by decide) ch hch
  obtain ⟨docs, e2, h2⟩ := (h Nat [1, 2, 3, 4, 5] [6, 7, 8, 9, 10] (by decide) (by decide) [(0, 3), (3, 2)] (by decide) _).2 6 0 [1]
    numbersText_example (by decide) (by decide) (by decide)
  exact ⟨file, docs, e, e2, h2⟩

end RK.Props
