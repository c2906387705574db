import Verif.Proof.DimacsAny
import Verif.Proof.FirstWords
import Verif.Proof.DimacsExport
/-! # C64: import and export of DIMACS graphs -/
namespace RK.Props
open RK _root_.Spec

theorem fromZero_lt {n : Nat} {arcs : List (Nat × Nat × Nat)} (h : ∀ a ∈ arcs, ValidArc n a) : ∀ a ∈ fromZero arcs, a.1 < n ∧ a.2.1 < n := by
  intro a ha
  obtain ⟨b, hb, rfl⟩ := List.mem_map.1 ha
  have := h b hb
  unfold ValidArc at this
  simp only; omega

/-- A DIMACS file whose header announces the right number of arcs and whose arcs are valid is converted to exactly its
graph, whatever the spacing, the comments and the order of the arcs. -/
theorem C64_import_valid (n : Nat) (arcs : List (Nat × Nat × Nat)) (text : List Char) (h : IsDimacs n arcs.length arcs text) (hn : n + 1 < 4294967296)
    (hm : arcs.length < 4294967296) (ha : ∀ a ∈ arcs, ValidArc n a) :
    ∃ firstOut head weight, convertDimacs text = .ok (firstOut, head, weight) ∧ IsGraphOf n (fromZero arcs) firstOut head weight := by
  have hn' : n + 1 < u32 := hn
  rw [convertDimacs_file h, if_pos ⟨by omega, hm, ha, Nat.mod_eq_of_lt hm⟩]
  obtain ⟨fo, hd, w, e, hg⟩ := orderArcs_spec hn' (fromZero_lt ha)
  refine ⟨fo, hd, w, ?_, hg⟩
  rw [Nat.sub_self, List.drop_zero]
  exact congrArg Res.ofOption e

/-- Every other DIMACS file is rejected: wrong number of arcs, a node id that is 0 or too large, a number of more than
32 bits. (At most 2^32-1 arcs; see `C64_arc_count_wraps`.) -/
theorem C64_import_rejects (n m : Nat) (arcs : List (Nat × Nat × Nat)) (text : List Char) (h : IsDimacs n m arcs text)
    (hm : arcs.length < 4294967296) (hbad : arcs.length ≠ m ∨ (∃ a ∈ arcs, ¬ ValidArc n a) ∨ 4294967296 ≤ n) :
    convertDimacs text = .error := by
  rw [convertDimacs_file h, if_neg]
  rintro ⟨h1, h2, h3, h4⟩
  rw [Nat.mod_eq_of_lt (show arcs.length < u32 from hm)] at h4
  rcases hbad with h5 | ⟨a, ha, h5⟩ | h5
  · exact h5 h4
  · exact h5 (h3 a ha)
  · unfold u32 at h1; omega

/-- Whatever the text, even if its lines are not well-formed: a conversion that succeeds delivers a graph with valid
ids. (The empty vectors are the result for 2^32-1 nodes without arcs.) -/
theorem C64_import_result (text : List Char) (firstOut head weight : List Nat) (h : convertDimacs text = .ok (firstOut, head, weight)) :
    (∃ n arcs, n + 1 < 4294967296 ∧ IsGraphOf n arcs firstOut head weight ∧ ∀ a ∈ arcs, a.1 < n ∧ a.2.1 < n ∧ a.2.2 < 4294967296) ∨
    (firstOut = [] ∧ head = [] ∧ weight = []) := by
  rcases convertDimacs_any text with ⟨_, h1⟩ | ⟨_, h1 | ⟨n, arcs, fo, hd, w, e, h2, _, h3, h4⟩ | ⟨l, _, p, sp, m, _, e⟩⟩
  · rw [h1] at h; cases h
  · rw [h1] at h; cases h
  · rw [e] at h
    cases h
    exact Or.inl ⟨n, arcs, h2, h3, h4⟩
  · rw [e] at h
    by_cases hm : m = 0
    · rw [if_pos hm] at h; cases h; exact Or.inr ⟨rfl, rfl, rfl⟩
    · rw [if_neg hm] at h; cases h

/-- Whatever the text: the behaviour is defined if the text has a line that is no comment, unless a header announces
2^32-1 nodes. -/
theorem C64_import_defined (text l : List Char) (hl : IsLine text l) (hc : ¬ IsCommentText l)
    (hh : ∀ l', IsLine text l' → ∀ p sp m, dimacsHeaderFields l' ≠ some (p, sp, 4294967295, m)) : convertDimacs text ≠ .ub := by
  rcases convertDimacs_any text with ⟨h1, _⟩ | ⟨_, h1 | ⟨n, arcs, fo, hd, w, e, _⟩ | ⟨l', hl', p, sp, m, hf, _⟩⟩
  · exact absurd (h1 l (mem_getLines_of_isLine hl (fun e => hc (Or.inl e)))) hc
  · rw [h1]; exact fun h => by cases h
  · rw [e]; exact fun h => by cases h
  · exact absurd hf (hh l' (isLine_of_mem_getLines hl') p sp m)

/-- Whatever the text: if the conversion succeeds then the first line that is no comment starts with the words `p sp`, and
the first word of each later line that is no comment is `a`. -/
theorem C64_accepted_lines (ls : List (List Char)) (text : List Char) (hl : LinesOf ls text) (firstOut head weight : List Nat)
    (h : convertDimacs text = .ok (firstOut, head, weight)) :
    ∃ before header after, ls = before ++ header :: after ∧ (∀ l ∈ before, IsCommentText l) ∧ FirstWords header [['p'], ['s', 'p']] ∧
      ∀ l ∈ after, IsCommentText l ∨ FirstWords l [['a']] :=
  convertDimacs_lines hl h

/-- Finding: for a text without header, for example the empty one, an uninitialised variable is read. -/
theorem C64_no_header_undefined (text : List Char) (h : ∀ l, IsLine text l → IsCommentText l) : convertDimacs text = .ub := by
  rcases convertDimacs_any text with ⟨_, h1⟩ | ⟨⟨l, hl, hc⟩, _⟩
  · exact h1
  · exact absurd (h l (isLine_of_mem_getLines hl)) hc

/-- Finding: the number of arcs is compared modulo 2^32. A file with 2^32 arcs too many is accepted and only its last
arcs are used. -/
theorem C64_arc_count_wraps (n m : Nat) (arcs : List (Nat × Nat × Nat)) (text : List Char) (h : IsDimacs n m arcs text) (hn : n + 1 < 4294967296)
    (hm : m < 4294967296) (hlen : arcs.length = m + 4294967296) (ha : ∀ a ∈ arcs, ValidArc n a) :
    ∃ firstOut head weight, convertDimacs text = .ok (firstOut, head, weight) ∧
      IsGraphOf n (fromZero (arcs.drop 4294967296)) firstOut head weight := by
  have hn' : n + 1 < u32 := hn
  rw [convertDimacs_file h, if_pos ⟨by omega, hm, ha, by rw [hlen]; unfold u32; omega⟩, show arcs.length - m = 4294967296 by omega]
  obtain ⟨fo, hd, w, e, hg⟩ := orderArcs_spec hn' (fromZero_lt (arcs := arcs.drop 4294967296) fun a h => ha a (List.mem_of_mem_drop h))
  exact ⟨fo, hd, w, congrArg Res.ofOption e, hg⟩

/-- Finding: the ids of a graph with 2^32-1 nodes fit, but `first_out` would need 2^32 elements; the size wraps to 0 and the
conversion writes out of bounds. -/
theorem C64_largest_node_count_undefined (arcs : List (Nat × Nat × Nat)) (text : List Char) (h : IsDimacs 4294967295 arcs.length arcs text)
    (hm : arcs.length < 4294967296) (ha : ∀ a ∈ arcs, ValidArc 4294967295 a) (hne : arcs ≠ []) : convertDimacs text = .ub := by
  rw [convertDimacs_file h, if_pos ⟨by decide, hm, ha, Nat.mod_eq_of_lt hm⟩, Nat.sub_self, List.drop_zero]
  rw [show zeroBased arcs = fromZero arcs from rfl, orderArcs_largest (by decide) (fromZero_lt ha), if_neg]
  · rfl
  · intro h0
    exact hne (by simpa [fromZero] using h0)

/-- Exporting a graph that has arcs writes a DIMACS file with exactly its arcs, nodes counted from 1. -/
theorem C64_export_valid (n : Nat) (firstOut head weight : List Nat) (hg : IsGraphFile n firstOut head weight) (hne : head ≠ []) (hn : n + 1 < 4294967296) :
    ∃ text arcs, exportDimacs firstOut head weight = .ok text ∧ IsArcList firstOut head weight arcs ∧
      IsDimacs n head.length (arcs.map fun a => (a.1 + 1, a.2.1 + 1, a.2.2)) text := by
  obtain ⟨text, arcs, h1, h2, h3, _⟩ := exportDimacs_spec hg hne hn
  exact ⟨text, arcs, h1, h2, h3⟩

/-- Exporting and importing again yields the graph with the arcs of each node ordered by head; a graph that is ordered this
way comes back unchanged. -/
theorem C64_round_trip (n : Nat) (firstOut head weight : List Nat) (hg : IsGraphFile n firstOut head weight) (hne : head ≠ []) (hn : n + 1 < 4294967296)
    (hm : head.length < 4294967296) (hw : ∀ w ∈ weight, w < 4294967296) :
    ∃ text arcs head' weight', exportDimacs firstOut head weight = .ok text ∧ IsArcList firstOut head weight arcs ∧
      convertDimacs text = .ok (firstOut, head', weight') ∧ IsGraphOf n arcs firstOut head' weight' ∧
      (HeadsOrdered firstOut head → head' = head ∧ weight' = weight) := by
  obtain ⟨text, arcs, h1, h2, h3, hm2, hm3, ht⟩ := exportDimacs_spec hg hne hn
  have hlen : (oneBased arcs).length = head.length := by simpa [oneBased] using h2.1
  have hgood : ∀ a ∈ oneBased arcs, ValidArc n a := by
    intro a ha
    obtain ⟨b, hb, rfl⟩ := List.mem_map.1 ha
    obtain ⟨i, hi, rfl⟩ := List.getElem_of_mem hb
    obtain ⟨t, _, _, e, htn, _⟩ := ht i (by have := h2.1; omega)
    simp only [rd, List.getElem?_map, List.getElem?_eq_getElem hi, Option.map_some, Option.some.injEq] at e
    have hh : arcs[i].2.1 < n := hg.heads _ (by rw [← hm2]; exact List.mem_map_of_mem (List.getElem_mem hi))
    have hw' : arcs[i].2.2 < 4294967296 := hw _ (by rw [← hm3]; exact List.mem_map_of_mem (List.getElem_mem hi))
    unfold ValidArc
    simp only; omega
  rw [← hlen] at h3
  obtain ⟨fo', hd', wt', e, hgr⟩ := C64_import_valid n _ text h3 hn (by omega) hgood
  rw [show fromZero (oneBased arcs) = arcs from zero_oneBased arcs] at hgr
  obtain ⟨rfl, hord⟩ := graphOf_export hg hm2 hm3 ht hgr
  exact ⟨text, arcs, hd', wt', h1, h2, e, hgr, hord⟩

/-- Vectors that are no graph are rejected, provided `first_out` is sorted and starts with 0. Finding: a graph without arcs
is rejected, too. -/
theorem C64_export_rejects (firstOut head weight : List Nat) (h0 : firstOut[0]? = some 0) (hs : firstOut.Pairwise (· ≤ ·))
    (hbad : firstOut.getLast? ≠ some head.length ∨ head = [] ∨ (∃ h ∈ head, firstOut.length - 1 ≤ h) ∨ weight.length ≠ head.length) :
    exportDimacs firstOut head weight = .error := by
  obtain ⟨tl, last, e1, e2, _⟩ := invertInverseVector_spec (s := firstOut) h0 hs
  have hhead : firstOut.head? = some 0 := by rw [List.head?_eq_getElem?]; exact h0
  have hback : firstOut.getLast? = some last := by rw [List.getLast?_eq_getElem?]; exact e2
  simp only [exportDimacs, e1, Res.ofOption_some, Res.ok_bind, hhead, hback, decide_true, Res.require_true]
  by_cases c1 : last = head.length
  · by_cases c2 : head = []
    · simp [c1, c2]
    · by_cases c3 : (head.all fun x => decide (x < firstOut.length - 1)) = true
      · have c4 : weight.length ≠ head.length := by
          rcases hbad with h | h | ⟨x, hx, h⟩ | h
          · exact absurd (by rw [hback, c1]) h
          · exact absurd h c2
          · have := (List.all_eq_true.1 c3) x hx
            simp only [decide_eq_true_eq] at this
            omega
          · exact h
        rw [c3]
        simp [c1, c2, c4]
      · rw [Bool.not_eq_true] at c3
        rw [c3]
        simp [c1, c2]
  · simp [c1]

/-- Finding: `first_out` is used before it is checked. -/
theorem C64_export_unchecked_undefined : exportDimacs [] [] [] = .ub ∧ exportDimacs [0, 3, 1] [0] [5] = .ub := by decide

/-- Finding: a negative number is taken modulo 2^32 and what follows the last number is ignored. -/
theorem C64_import_lenient :
    convertDimacs "p sp 2 1\na 1 2 -1\n".toList = .ok ([0, 1, 1], [1], [4294967295]) ∧
    convertDimacs "p sp 2 1\na 1 2 1.5\n".toList = .ok ([0, 1, 1], [1], [1]) ∧
    convertDimacs "p sp 2 1 9\na 1+2 7 x".toList = .ok ([0, 1, 1], [1], [7]) := by
  decide +kernel

/-- Finding: with Windows line breaks an empty line is not skipped, the file is rejected. -/
theorem C64_import_crlf : convertDimacs "p sp 2 1\r\n\r\na 1 2 3\r\n".toList = .error ∧
    convertDimacs "p sp 2 1\r\na 1 2 3\r\n".toList = .ok ([0, 1, 1], [1], [3]) := by
  decide +kernel

/-! ### Examples -/

/-- A file with comments, uneven spacing, unsorted arcs and without final line break. -/
def exampleText : List Char := "c test\np  sp 3 3\n\na 3 1 7\nc\n a 1 3\t5\na 1 02 6".toList

example : IsDimacs 3 3 [(3, 1, 7), (1, 3, 5), (1, 2, 6)] exampleText := by
  refine ⟨[.comment], [.comment, .arc 3 1 7, .comment, .arc 1 3 5, .arc 1 2 6], ?_, by simp, by simp, rfl⟩
  refine FileOf.cons _ _ "c test".toList "p  sp 3 3\n\na 3 1 7\nc\n a 1 3\t5\na 1 02 6".toList ⟨Or.inr rfl, by decide⟩ ?_
  refine FileOf.cons _ _ "p  sp 3 3".toList "\na 3 1 7\nc\n a 1 3\t5\na 1 02 6".toList ?_ ?_
  · refine ⟨['3'], ['3'], ?_, ⟨by simp, by decide, by decide⟩, ⟨by simp, by decide, by decide⟩⟩
    refine IsWords.cons [] ['p'] "  sp 3 3".toList _ (by simp) (by decide) (by unfold IsBlank; decide) (by intro c hc; cases hc; exact Or.inl rfl) ?_
    refine IsWords.cons [' ', ' '] ['s', 'p'] " 3 3".toList _ (by unfold IsBlank; decide) (by decide) (by unfold IsBlank; decide) (by intro c hc; cases hc; exact Or.inl rfl) ?_
    refine IsWords.cons [' '] ['3'] " 3".toList _ (by unfold IsBlank; decide) (by decide) (by unfold IsBlank; decide) (by intro c hc; cases hc; exact Or.inl rfl) ?_
    exact IsWords.cons [' '] ['3'] [] _ (by unfold IsBlank; decide) (by decide) (by unfold IsBlank; decide) (by simp) (IsWords.nil [] (by simp))
  refine FileOf.cons _ _ [] "a 3 1 7\nc\n a 1 3\t5\na 1 02 6".toList ⟨Or.inl rfl, by decide⟩ ?_
  refine FileOf.cons _ _ "a 3 1 7".toList "c\n a 1 3\t5\na 1 02 6".toList ?_ ?_
  · refine ⟨['3'], ['1'], ['7'], ?_, ⟨by simp, by decide, by decide⟩, ⟨by simp, by decide, by decide⟩, ⟨by simp, by decide, by decide⟩⟩
    refine IsWords.cons [] ['a'] " 3 1 7".toList _ (by simp) (by decide) (by unfold IsBlank; decide) (by intro c hc; cases hc; exact Or.inl rfl) ?_
    refine IsWords.cons [' '] ['3'] " 1 7".toList _ (by unfold IsBlank; decide) (by decide) (by unfold IsBlank; decide) (by intro c hc; cases hc; exact Or.inl rfl) ?_
    refine IsWords.cons [' '] ['1'] " 7".toList _ (by unfold IsBlank; decide) (by decide) (by unfold IsBlank; decide) (by intro c hc; cases hc; exact Or.inl rfl) ?_
    exact IsWords.cons [' '] ['7'] [] _ (by unfold IsBlank; decide) (by decide) (by unfold IsBlank; decide) (by simp) (IsWords.nil [] (by simp))
  refine FileOf.cons _ _ "c".toList " a 1 3\t5\na 1 02 6".toList ⟨Or.inr rfl, by decide⟩ ?_
  refine FileOf.cons _ _ " a 1 3\t5".toList "a 1 02 6".toList ?_ ?_
  · refine ⟨['1'], ['3'], ['5'], ?_, ⟨by simp, by decide, by decide⟩, ⟨by simp, by decide, by decide⟩, ⟨by simp, by decide, by decide⟩⟩
    refine IsWords.cons [' '] ['a'] " 1 3\t5".toList _ (by unfold IsBlank; decide) (by decide) (by unfold IsBlank; decide) (by intro c hc; cases hc; exact Or.inl rfl) ?_
    refine IsWords.cons [' '] ['1'] " 3\t5".toList _ (by unfold IsBlank; decide) (by decide) (by unfold IsBlank; decide) (by intro c hc; cases hc; exact Or.inl rfl) ?_
    refine IsWords.cons [' '] ['3'] "\t5".toList _ (by unfold IsBlank; decide) (by decide) (by unfold IsBlank; decide) (by intro c hc; cases hc; exact Or.inr (Or.inl rfl)) ?_
    exact IsWords.cons ['\t'] ['5'] [] _ (by unfold IsBlank; decide) (by decide) (by unfold IsBlank; decide) (by simp) (IsWords.nil [] (by simp))
  refine FileOf.last _ "a 1 02 6".toList ?_
  refine ⟨['1'], ['0', '2'], ['6'], ?_, ⟨by simp, by decide, by decide⟩, ⟨by simp, by decide, by decide⟩, ⟨by simp, by decide, by decide⟩⟩
  refine IsWords.cons [] ['a'] " 1 02 6".toList _ (by simp) (by decide) (by unfold IsBlank; decide) (by intro c hc; cases hc; exact Or.inl rfl) ?_
  refine IsWords.cons [' '] ['1'] " 02 6".toList _ (by unfold IsBlank; decide) (by decide) (by unfold IsBlank; decide) (by intro c hc; cases hc; exact Or.inl rfl) ?_
  refine IsWords.cons [' '] ['0', '2'] " 6".toList _ (by unfold IsBlank; decide) (by decide) (by unfold IsBlank; decide) (by intro c hc; cases hc; exact Or.inl rfl) ?_
  exact IsWords.cons [' '] ['6'] [] _ (by unfold IsBlank; decide) (by decide) (by unfold IsBlank; decide) (by simp) (IsWords.nil [] (by simp))

/-- … and what it is converted to. -/
example : LinesOf ["c test".toList, "p  sp 3 3".toList, [], "a 3 1 7".toList, "c".toList, " a 1 3\t5".toList, "a 1 02 6".toList] exampleText :=
  ⟨by decide, Or.inr ⟨["c test".toList, "p  sp 3 3".toList, [], "a 3 1 7".toList, "c".toList, " a 1 3\t5".toList], "a 1 02 6".toList, by decide, by decide,
    by decide⟩⟩

example : convertDimacs exampleText = .ok ([0, 2, 2, 3], [1, 2, 0], [6, 5, 7]) := by decide +kernel

/-- Wrong count, node 0, node too large, number too large, second header, arc before the header. -/
example : convertDimacs "p sp 2 2\na 1 2 3\n".toList = .error ∧ convertDimacs "p sp 2 1\na 0 2 3\n".toList = .error ∧
    convertDimacs "p sp 2 1\na 1 3 3\n".toList = .error := by decide +kernel

example : convertDimacs "p sp 2 1\na 1 2 4294967296\n".toList = .error ∧
    convertDimacs "p sp 2 0\np sp 2 0\n".toList = .error ∧ convertDimacs "a 1 2 3\np sp 2 0\n".toList = .error := by decide +kernel

/-- A graph whose arcs are not ordered by head. -/
example : IsGraphFile 3 [0, 2, 2, 3] [2, 1, 0] [5, 6, 7] := ⟨rfl, rfl, rfl, by decide, by decide, rfl⟩

example : exportDimacs [0, 2, 2, 3] [2, 1, 0] [5, 6, 7] = .ok "p sp 3 3\na 1 3 5\na 1 2 6\na 3 1 7\n".toList ∧
    convertDimacs "p sp 3 3\na 1 3 5\na 1 2 6\na 3 1 7\n".toList = .ok ([0, 2, 2, 3], [1, 2, 0], [6, 5, 7]) := by decide +kernel

/-- The empty text and a text of comments have no header; the lines of the example text are not all comments. -/
example : (∀ l, IsLine [] l → IsCommentText l) ∧ IsLine exampleText "p  sp 3 3".toList ∧ ¬ IsCommentText "p  sp 3 3".toList := by
  refine ⟨fun l ⟨pre, post, h, _⟩ => Or.inl ?_, ⟨"c test\n".toList, "\n\na 3 1 7\nc\n a 1 3\t5\na 1 02 6".toList, by decide, by decide, Or.inr rfl, Or.inr rfl⟩, ?_⟩
  · simp only [List.nil_eq, List.append_eq_nil_iff] at h; exact h.1.2
  · rintro (h | h) <;> revert h <;> decide

end RK.Props
