import Verif.Spec.Dijkstra
import Verif.Spec.QueryLife
/-!
# Specification of programs with several graphs and several Dijkstra objects

A `Dijkstra` object does not own the vectors of its graph.
-/
namespace Spec

/-- Statements about variables; graphs (three vectors and the travel times that go with them) and `Dijkstra` objects are numbered
separately. -/
inductive DijLifeOp
  /-- the vectors of graph `i` are assigned -/
  | setGraph (i : Nat) (G : TGraph)
  /-- the end of the life of graph `i` -/
  | endGraph (i : Nat)
  /-- object `k` is constructed for graph `i` -/
  | construct (k i : Nat)
  /-- object `k = l` -/
  | copy (k l : Nat)
  /-- `reset(first_out, tail, head)` of object `k` with the vectors of graph `i` -/
  | resetGraph (k i : Nat)
  /-- every other call on object `k` -/
  | call (k : Nat) (op : DijOp)

/-- What an object stands for: the variable of its graph, the search, and whether the variable has not been changed since the object
was told about it. -/
structure DijView where
  graph : Nat
  search : Search
  intact : Bool

/-- The graphs and the objects. -/
structure DijLifeView where
  graphs : Nat → Option TGraph
  objects : Nat → Option DijView

/-- A graph changes; the objects that use it are not intact any more. -/
def DijLifeView.setGraph (S : DijLifeView) (i : Nat) (G : Option TGraph) : DijLifeView :=
  ⟨changed S.graphs i G, fun k => (S.objects k).map fun v => if v.graph = i then { v with intact := false } else v⟩

/-- What the statements mean. -/
def DijLifeStep (S : DijLifeView) (op : DijLifeOp) (out : DijOut) (S' : DijLifeView) : Prop :=
  match op with
  | .setGraph i G => out = .unit ∧ S' = S.setGraph i (some G)
  | .endGraph i => out = .unit ∧ S' = S.setGraph i none
  | .construct k i => ∃ G, S.graphs i = some G ∧ out = .unit ∧
      S' = ⟨S.graphs, changed S.objects k (some ⟨i, Search.fresh G, true⟩)⟩
  | .copy k l => out = .unit ∧ S' = ⟨S.graphs, changed S.objects k (S.objects l)⟩
  | .resetGraph k i => ∃ G, S.graphs i = some G ∧ out = .unit ∧
      S' = ⟨S.graphs, changed S.objects k (some ⟨i, Search.fresh G, true⟩)⟩
  | .call k op => ∃ v s', S.objects k = some v ∧ DijStep v.search op out s' ∧
      S' = ⟨S.graphs, changed S.objects k (some ⟨v.graph, s', true⟩)⟩

/-- What one would expect to be required: existing variables; for calls other than `reset(first_out, tail, head)` that the graph is
intact. -/
def DijLifePre (S : DijLifeView) (op : DijLifeOp) : Prop :=
  match op with
  | .setGraph _ G => G.WF
  | .endGraph i => S.graphs i ≠ none
  | .construct _ i => S.graphs i ≠ none
  | .copy _ l => S.objects l ≠ none
  | .resetGraph k i => S.objects k ≠ none ∧ S.graphs i ≠ none
  | .call k op => (∀ G, op ≠ .resetGraph G) ∧ ∃ v, S.objects k = some v ∧ v.intact = true ∧ DijPre v.search op

/-- What is required in addition: when an object is reset to a graph, the variable of its old graph still holds a graph, and if that one
has as many nodes as the new graph, then the graph that the object was used with had, too. -/
def OldGraphKept (S : DijLifeView) (op : DijLifeOp) : Prop :=
  match op with
  | .resetGraph k i => ∀ v G', S.objects k = some v → S.graphs i = some G' →
      ∃ G, S.graphs v.graph = some G ∧ (G.n = G'.n → v.search.graph.n = G'.n)
  | _ => True

end Spec
