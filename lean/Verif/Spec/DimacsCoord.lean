import Verif.Spec.Dimacs
/-! # Specification: DIMACS coordinate files -/
namespace Spec

/-- `w` denotes the integer `v`: digits, possibly after a sign. -/
def IsInteger (w : List Char) (v : Int) : Prop :=
  ∃ (d : List Char) (k : Nat), IsDecimal d k ∧ ((w = d ∧ v = k) ∨ (w = '+' :: d ∧ v = k) ∨ (w = '-' :: d ∧ v = -(k : Int)))

/-- The position of a node: its number counted from 1, longitude and latitude in millionths of a degree. -/
structure CoordPoint where
  node : Nat
  lon : Int
  lat : Int

/-- The meaning of a line. -/
inductive CoordLine
  /-- an empty line or a line that starts with `c` -/
  | comment
  /-- `p aux sp co n` -/
  | header (n : Nat)
  /-- `v node lon lat` -/
  | point (p : CoordPoint)

/-- `text` is a spelling of the line. -/
def CoordLine.Reads (l : CoordLine) (text : List Char) : Prop :=
  match l with
  | .comment => IsCommentText text ∧ '\n' ∉ text
  | .header n => ∃ a, IsWords text [['p'], ['a', 'u', 'x'], ['s', 'p'], ['c', 'o'], a] ∧ IsDecimal a n
  | .point p => ∃ a b c, IsWords text [['v'], a, b, c] ∧ IsDecimal a p.node ∧ IsInteger b p.lon ∧ IsInteger c p.lat

/-- The text of a file with the given lines. The line break after the last line may be missing. -/
inductive CoordFileOf : List CoordLine → List Char → Prop
  | nil : CoordFileOf [] []
  | last (l : CoordLine) (t : List Char) : l.Reads t → CoordFileOf [l] t
  | cons (l : CoordLine) (ls : List CoordLine) (t rest : List Char) : l.Reads t → CoordFileOf ls rest →
      CoordFileOf (l :: ls) (t ++ '\n' :: rest)

/-- The point on a line. -/
def CoordLine.toPoint : CoordLine → Option CoordPoint
  | .point p => some p
  | _ => none

/-- `text` is a DIMACS coordinate file with announced node count `n` and the given points: possibly comments, the header,
then points and possibly further comments. -/
def IsCoordFile (n : Nat) (points : List CoordPoint) (text : List Char) : Prop :=
  ∃ before after, CoordFileOf (before ++ .header n :: after) text ∧ (∀ l ∈ before, l = .comment) ∧
    (∀ l ∈ after, ∀ n', l ≠ .header n') ∧ after.filterMap CoordLine.toPoint = points

/-- A 64 bit integer. -/
def Fits64 (v : Int) : Prop := -9223372036854775808 ≤ v ∧ v ≤ 9223372036854775807

/-- The points belong to nodes of a graph with `n` nodes, all numbers fit, and each node has exactly one position. -/
structure CoordsComplete (n : Nat) (points : List CoordPoint) : Prop where
  range : ∀ p ∈ points, 1 ≤ p.node ∧ p.node ≤ n
  fits : ∀ p ∈ points, Fits64 p.lon ∧ Fits64 p.lat
  once : (points.map CoordPoint.node).Nodup
  all : ∀ x, 1 ≤ x → x ≤ n → x ∈ points.map CoordPoint.node

end Spec
