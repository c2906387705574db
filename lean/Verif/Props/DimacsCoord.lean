import Verif.Proof.DimacsCoord
import Verif.Proof.FirstWords
/-! # C71: import of DIMACS coordinates -/
namespace RK.Props
open RK _root_.Spec

/-- A coordinate file in which each node has exactly one position is converted to exactly these positions, whatever the
spacing, the comments and the order of the lines. `conv` is the conversion of a number of the file to a `float`. -/
theorem C71_coordinates_valid {α : Type} (conv : Int → α) (zero : α) (n : Nat) (points : List CoordPoint) (text : List Char)
    (h : IsCoordFile n points text) (hn : n < 4294967296) (hc : CoordsComplete n points) :
    ∃ longitude latitude, convertCoordinates conv zero text = .ok (longitude, latitude) ∧ longitude.length = n ∧ latitude.length = n ∧
      ∀ p ∈ points, longitude[p.node - 1]? = some (conv p.lon) ∧ latitude[p.node - 1]? = some (conv p.lat) :=
  (convertCoordinates_file h).1 ⟨hn, hc⟩

/-- Every other coordinate file is rejected: a node without position, a node with two positions, a node that is 0 or too
large, a number that does not fit. -/
theorem C71_coordinates_rejects {α : Type} (conv : Int → α) (zero : α) (n : Nat) (points : List CoordPoint) (text : List Char)
    (h : IsCoordFile n points text) (hbad : 4294967296 ≤ n ∨ ¬ CoordsComplete n points) : convertCoordinates conv zero text = .error := by
  refine (convertCoordinates_file h).2 ?_
  rintro ⟨h1, h2⟩
  rcases hbad with hb | hb
  · unfold u32 at h1; omega
  · exact hb h2

/-- Whatever the text: the behaviour is defined as soon as there is a line that is no comment, and the two vectors have the
same length.
Partial: without such a line see `C71_no_header_undefined`. -/
theorem C71_coordinates_any_partial {α : Type} (conv : Int → α) (zero : α) (text l : List Char) (hl : IsLine text l) (hc : ¬ IsCommentText l) :
    convertCoordinates conv zero text = .error ∨ ∃ longitude latitude, convertCoordinates conv zero text = .ok (longitude, latitude) ∧
      longitude.length = latitude.length ∧ longitude.length < 4294967296 := by
  rcases convertCoordinates_any (conv := conv) (zero := zero) text with ⟨h1, _⟩ | ⟨_, h2⟩
  · exact absurd (h1 l (mem_getLines_of_isLine hl fun e => hc (Or.inl e))) hc
  · exact h2

/-- Whatever the text: if the conversion succeeds then the first line that is no comment consists of the words `p aux sp co`
and a number, and each later line is a comment or its first word is `v`. -/
theorem C71_accepted_lines {α : Type} (conv : Int → α) (zero : α) (ls : List (List Char)) (text : List Char) (hl : LinesOf ls text)
    (longitude latitude : List α) (h : convertCoordinates conv zero text = .ok (longitude, latitude)) :
    ∃ before header after, ls = before ++ header :: after ∧ (∀ l ∈ before, IsCommentText l) ∧
      (∃ a v, IsWords header [['p'], ['a', 'u', 'x'], ['s', 'p'], ['c', 'o'], a] ∧ IsInteger a v ∧ -4294967296 < v ∧ v < 4294967296) ∧
      ∀ l ∈ after, IsCommentText l ∨ FirstWords l [['v']] :=
  convertCoordinates_lines hl h

/-- Finding: for a text without header, for example the empty one, an uninitialised variable is read. -/
theorem C71_no_header_undefined {α : Type} (conv : Int → α) (zero : α) (text : List Char) (h : ∀ l, IsLine text l → IsCommentText l) :
    convertCoordinates conv zero text = .ub := by
  rcases convertCoordinates_any (conv := conv) (zero := zero) text with ⟨_, h2⟩ | ⟨h1, _⟩
  · exact h2
  · exact absurd (fun l hl => h l (isLine_of_mem_getLines hl)) h1

/-- Finding: a negative node number is taken modulo 2^32, blanks between numbers may be missing if there is a sign, and with
Windows line breaks an empty line is not skipped. -/
theorem C71_coordinates_lenient :
    convertCoordinates (fun v => v) 0 "p aux sp co 1\nv -4294967295 5 -6\n".toList = .ok ([5], [-6]) ∧
    convertCoordinates (fun v => v) 0 "p aux sp co 1\nv 1+5-6\n".toList = .ok ([5], [-6]) ∧
    convertCoordinates (fun v => v) 0 "p aux sp co 1\r\n\r\nv 1 5 6\r\n".toList = .error := by
  decide +kernel

/-! ### Examples -/

/-- Comments, uneven spacing, unsorted nodes, no final line break. -/
def coordText : List Char := "c x\np aux  sp co 2\nv 2 -7 +8\n\nv 1 03\t4".toList

example : IsCoordFile 2 [⟨2, -7, 8⟩, ⟨1, 3, 4⟩] coordText := by
  refine ⟨[.comment], [.point ⟨2, -7, 8⟩, .comment, .point ⟨1, 3, 4⟩], ?_, by simp, by simp, rfl⟩
  refine CoordFileOf.cons _ _ "c x".toList "p aux  sp co 2\nv 2 -7 +8\n\nv 1 03\t4".toList ⟨Or.inr rfl, by decide⟩ ?_
  refine CoordFileOf.cons _ _ "p aux  sp co 2".toList "v 2 -7 +8\n\nv 1 03\t4".toList ?_ ?_
  · refine ⟨['2'], ?_, ⟨by simp, by decide, by decide⟩⟩
    refine IsWords.cons [] ['p'] " aux  sp co 2".toList _ (by simp) (by decide) (by unfold IsBlank; decide) (by intro c hc; cases hc; exact Or.inl rfl) ?_
    refine IsWords.cons [' '] ['a', 'u', 'x'] "  sp co 2".toList _ (by unfold IsBlank; decide) (by decide) (by unfold IsBlank; decide) (by intro c hc; cases hc; exact Or.inl rfl) ?_
    refine IsWords.cons [' ', ' '] ['s', 'p'] " co 2".toList _ (by unfold IsBlank; decide) (by decide) (by unfold IsBlank; decide) (by intro c hc; cases hc; exact Or.inl rfl) ?_
    refine IsWords.cons [' '] ['c', 'o'] " 2".toList _ (by unfold IsBlank; decide) (by decide) (by unfold IsBlank; decide) (by intro c hc; cases hc; exact Or.inl rfl) ?_
    exact IsWords.cons [' '] ['2'] [] _ (by unfold IsBlank; decide) (by decide) (by unfold IsBlank; decide) (by simp) (IsWords.nil [] (by simp))
  refine CoordFileOf.cons _ _ "v 2 -7 +8".toList "\nv 1 03\t4".toList ?_ ?_
  · refine ⟨['2'], ['-', '7'], ['+', '8'], ?_, ⟨by simp, by decide, by decide⟩, ⟨['7'], 7, ⟨by simp, by decide, by decide⟩, Or.inr (Or.inr ⟨rfl, rfl⟩)⟩,
      ⟨['8'], 8, ⟨by simp, by decide, by decide⟩, Or.inr (Or.inl ⟨rfl, rfl⟩)⟩⟩
    refine IsWords.cons [] ['v'] " 2 -7 +8".toList _ (by simp) (by decide) (by unfold IsBlank; decide) (by intro c hc; cases hc; exact Or.inl rfl) ?_
    refine IsWords.cons [' '] ['2'] " -7 +8".toList _ (by unfold IsBlank; decide) (by decide) (by unfold IsBlank; decide) (by intro c hc; cases hc; exact Or.inl rfl) ?_
    refine IsWords.cons [' '] ['-', '7'] " +8".toList _ (by unfold IsBlank; decide) (by decide) (by unfold IsBlank; decide) (by intro c hc; cases hc; exact Or.inl rfl) ?_
    exact IsWords.cons [' '] ['+', '8'] [] _ (by unfold IsBlank; decide) (by decide) (by unfold IsBlank; decide) (by simp) (IsWords.nil [] (by simp))
  refine CoordFileOf.cons _ _ [] "v 1 03\t4".toList ⟨Or.inl rfl, by decide⟩ ?_
  refine CoordFileOf.last _ "v 1 03\t4".toList ?_
  refine ⟨['1'], ['0', '3'], ['4'], ?_, ⟨by simp, by decide, by decide⟩, ⟨['0', '3'], 3, ⟨by simp, by decide, by decide⟩, Or.inl ⟨rfl, rfl⟩⟩,
    ⟨['4'], 4, ⟨by simp, by decide, by decide⟩, Or.inl ⟨rfl, rfl⟩⟩⟩
  refine IsWords.cons [] ['v'] " 1 03\t4".toList _ (by simp) (by decide) (by unfold IsBlank; decide) (by intro c hc; cases hc; exact Or.inl rfl) ?_
  refine IsWords.cons [' '] ['1'] " 03\t4".toList _ (by unfold IsBlank; decide) (by decide) (by unfold IsBlank; decide) (by intro c hc; cases hc; exact Or.inl rfl) ?_
  refine IsWords.cons [' '] ['0', '3'] "\t4".toList _ (by unfold IsBlank; decide) (by decide) (by unfold IsBlank; decide) (by intro c hc; cases hc; exact Or.inr (Or.inl rfl)) ?_
  exact IsWords.cons ['\t'] ['4'] [] _ (by unfold IsBlank; decide) (by decide) (by unfold IsBlank; decide) (by simp) (IsWords.nil [] (by simp))

example : LinesOf ["c x".toList, "p aux  sp co 2".toList, "v 2 -7 +8".toList, [], "v 1 03\t4".toList] coordText :=
  ⟨by decide, Or.inr ⟨["c x".toList, "p aux  sp co 2".toList, "v 2 -7 +8".toList, []], "v 1 03\t4".toList, by decide, by decide, by decide⟩⟩

example : CoordsComplete 2 [⟨2, -7, 8⟩, ⟨1, 3, 4⟩] := by
  refine ⟨by simp, by simp [Fits64], by simp, ?_⟩
  intro x h1 h2
  simp only [List.map_cons, List.map_nil, List.mem_cons, List.not_mem_nil, or_false]
  omega

example : convertCoordinates (fun v => v) 0 coordText = .ok ([3, -7], [4, 8]) := by decide +kernel

/-- A second position, a missing position, node 0, a node that is too large, a second header, a fourth number. -/
example : convertCoordinates (fun v => v) 0 "p aux sp co 1\nv 1 2 3\nv 1 2 3".toList = .error ∧
    convertCoordinates (fun v => v) 0 "p aux sp co 2\nv 1 2 3".toList = .error ∧
    convertCoordinates (fun v => v) 0 "p aux sp co 1\nv 0 2 3".toList = .error ∧
    convertCoordinates (fun v => v) 0 "p aux sp co 1\nv 2 2 3".toList = .error := by decide +kernel

example : convertCoordinates (fun v => v) 0 "p aux sp co 0\np aux sp co 0".toList = .error ∧
    convertCoordinates (fun v => v) 0 "p aux sp co 1\nv 1 2 3 4".toList = .error ∧
    convertCoordinates (fun v => v) 0 "p aux sp co 1\nv 1 9223372036854775808 3".toList = .error := by decide +kernel

end RK.Props
