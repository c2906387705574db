import Verif.Spec.Dimacs
import Verif.Spec.OrderTool
import Verif.Model.ShowPath
/-! # Specification of texts of numbers and of drawings of routes -/
namespace Spec

/-- White space: blanks and line breaks. -/
def IsWhite (c : Char) : Prop := IsBlank c ∨ c = '\n'

/-- `NumbersText text vs`: the text consists of the decimal numbers `vs`, separated by white space. -/
inductive NumbersText : List Char → List Nat → Prop
  | nil (gap : List Char) : (∀ c ∈ gap, IsWhite c) → NumbersText gap []
  | cons (gap w rest : List Char) (v : Nat) (vs : List Nat) : (∀ c ∈ gap, IsWhite c) → IsDecimal w v →
      (∀ c, rest.head? = some c → IsWhite c) → NumbersText rest vs → NumbersText (gap ++ w ++ rest) (v :: vs)

/-- `line` are the coordinates (longitude, latitude) of the nodes. -/
def Drawing {α : Type} (latitude longitude : List α) (nodes : List Nat) (line : List (α × α)) : Prop :=
  line.length = nodes.length ∧
  ∀ i x : Nat, nodes[i]? = some x → ∃ p, line[i]? = some p ∧ longitude[x]? = some p.1 ∧ latitude[x]? = some p.2

/-- What one query prints. -/
structure DocumentFor {α : Type} (A : ArcRel) (lat lon : List α) (s t : Nat) (doc : RK.PathDocument α) : Prop where
  source : lon[s]? = some doc.source.1 ∧ lat[s]? = some doc.source.2
  target : lon[t]? = some doc.target.1 ∧ lat[t]? = some doc.target.2
  route : ∃ arcs nodes, ShortestRoute A s t doc.distance arcs nodes ∧ Drawing lat lon nodes doc.line

/-- One document for each pair, in the same order. -/
def DocumentsFor {α : Type} (A : ArcRel) (lat lon : List α) (pairs : List (Nat × Nat)) (docs : List (RK.PathDocument α)) : Prop :=
  docs.length = pairs.length ∧
  ∀ i s t : Nat, pairs[i]? = some (s, t) → ∃ doc, docs[i]? = some doc ∧ DocumentFor A lat lon s t doc

end Spec
