import Verif.Spec.Vector
/-! # Specification: DIMACS graph files -/
namespace Spec

/-- Blank characters within a line: space, tabulators, form feed, carriage return. -/
def IsBlank (c : Char) : Prop := c = ' ' ∨ c = '\t' ∨ c = Char.ofNat 11 ∨ c = Char.ofNat 12 ∨ c = '\r'

/-- `IsWords text ws`: the words of the line `text`, separated by blanks, are `ws`. -/
inductive IsWords : List Char → List (List Char) → Prop
  | nil (gap : List Char) : (∀ c ∈ gap, IsBlank c) → IsWords gap []
  | cons (gap w rest : List Char) (ws : List (List Char)) : (∀ c ∈ gap, IsBlank c) → w ≠ [] → (∀ c ∈ w, ¬ IsBlank c ∧ c ≠ '\n') →
      (∀ c, rest.head? = some c → IsBlank c) → IsWords rest ws → IsWords (gap ++ w ++ rest) (w :: ws)

/-- `w` consists of digits and denotes the number `v`. -/
def IsDecimal (w : List Char) (v : Nat) : Prop := w ≠ [] ∧ (∀ c ∈ w, c.isDigit) ∧ Nat.ofDigitChars 10 w 0 = v

/-- An empty line or a line that starts with `c`. -/
def IsCommentText (text : List Char) : Prop := text = [] ∨ text.head? = some 'c'

/-- The meaning of a line. -/
inductive DimacsLine
  /-- an empty line or a line that starts with `c` -/
  | comment
  /-- `p sp n m` -/
  | header (n m : Nat)
  /-- `a t h w`, an arc from `t` to `h` of weight `w`; nodes are counted from 1 -/
  | arc (t h w : Nat)

/-- `text` is a spelling of the line. -/
def DimacsLine.Reads (l : DimacsLine) (text : List Char) : Prop :=
  match l with
  | .comment => IsCommentText text ∧ '\n' ∉ text
  | .header n m => ∃ a b, IsWords text [['p'], ['s', 'p'], a, b] ∧ IsDecimal a n ∧ IsDecimal b m
  | .arc t h w => ∃ a b c, IsWords text [['a'], a, b, c] ∧ IsDecimal a t ∧ IsDecimal b h ∧ IsDecimal c w

/-- The text of a file with the given lines. The line break after the last line may be missing. -/
inductive FileOf : List DimacsLine → List Char → Prop
  | nil : FileOf [] []
  | last (l : DimacsLine) (t : List Char) : l.Reads t → FileOf [l] t
  | cons (l : DimacsLine) (ls : List DimacsLine) (t rest : List Char) : l.Reads t → FileOf ls rest → FileOf (l :: ls) (t ++ '\n' :: rest)

/-- The arc on a line. -/
def DimacsLine.toArc : DimacsLine → Option (Nat × Nat × Nat)
  | .arc t h w => some (t, h, w)
  | _ => none

/-- `text` is a DIMACS graph file with `n` nodes, announced arc count `m` and the arcs `arcs`: possibly comments, the header, then
arcs and possibly further comments. -/
def IsDimacs (n m : Nat) (arcs : List (Nat × Nat × Nat)) (text : List Char) : Prop :=
  ∃ before after, FileOf (before ++ .header n m :: after) text ∧ (∀ l ∈ before, l = .comment) ∧
    (∀ l ∈ after, ∀ n' m', l ≠ .header n' m') ∧ after.filterMap DimacsLine.toArc = arcs

/-- An arc line of a graph with `n` nodes is valid: both nodes are in `1, …, n`, the weight is a 32-bit number. -/
def ValidArc (n : Nat) (a : Nat × Nat × Nat) : Prop := 1 ≤ a.1 ∧ a.1 ≤ n ∧ 1 ≤ a.2.1 ∧ a.2.1 ≤ n ∧ a.2.2 < 4294967296

/-- The arcs with nodes counted from 0. -/
def fromZero (arcs : List (Nat × Nat × Nat)) : List (Nat × Nat × Nat) := arcs.map fun a => (a.1 - 1, a.2.1 - 1, a.2.2)

/-- The vectors describe the graph with nodes `0, …, n-1` and the given arcs (tail, head, weight): arc `i` is the
`i`-th arc in the order by tail, then head, then position in the list; the arcs from `x` have the ids from `firstOut[x]`
up to `firstOut[x+1]-1`. -/
def IsGraphOf (n : Nat) (arcs : List (Nat × Nat × Nat)) (firstOut head weight : List Nat) : Prop :=
  ∃ p, LexSortPerm (arcs.map (·.1)) (arcs.map (·.2.1)) p ∧ head.length = arcs.length ∧ weight.length = arcs.length ∧
    firstOut.length = n + 1 ∧ firstOut[0]? = some 0 ∧ firstOut[n]? = some arcs.length ∧ firstOut.Pairwise (· ≤ ·) ∧
    ∀ (i a t h w : Nat), p[i]? = some a → arcs[a]? = some (t, h, w) →
      head[i]? = some h ∧ weight[i]? = some w ∧ ∃ b e, firstOut[t]? = some b ∧ firstOut[t + 1]? = some e ∧ b ≤ i ∧ i < e

/-- `l` is a line of `text`: it extends from the start or a line break to the end or the next line break. -/
def IsLine (text l : List Char) : Prop :=
  ∃ pre post, text = pre ++ l ++ post ∧ '\n' ∉ l ∧ (pre = [] ∨ pre.getLast? = some '\n') ∧ (post = [] ∨ post.head? = some '\n')

/-- A graph with nodes `0, …, n-1` as the three vectors of the graph tools: the arcs from `x` have the ids from
`firstOut[x]` up to `firstOut[x+1]-1`. -/
structure IsGraphFile (n : Nat) (firstOut head weight : List Nat) : Prop where
  length : firstOut.length = n + 1
  first : firstOut[0]? = some 0
  last : firstOut[n]? = some head.length
  mono : firstOut.Pairwise (· ≤ ·)
  heads : ∀ h ∈ head, h < n
  weights : weight.length = head.length

/-- `arcs` are the arcs (tail, head, weight) of the graph by increasing id. -/
def IsArcList (firstOut head weight : List Nat) (arcs : List (Nat × Nat × Nat)) : Prop :=
  arcs.length = head.length ∧ ∀ (i x b e h w : Nat), firstOut[x]? = some b → firstOut[x + 1]? = some e → b ≤ i → i < e →
    head[i]? = some h → weight[i]? = some w → arcs[i]? = some (x, h, w)

/-- The arcs from each node are ordered by head. -/
def HeadsOrdered (firstOut head : List Nat) : Prop :=
  ∀ (i j x b e h h' : Nat), firstOut[x]? = some b → firstOut[x + 1]? = some e → b ≤ i → i < j → j < e →
    head[i]? = some h → head[j]? = some h' → h ≤ h'

end Spec
