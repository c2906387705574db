import Verif.Model.ChBuild
/-!
# The states that occur while a contraction hierarchy is built

Specification used by C78. The node order may be given or found during the construction; in both cases
the construction consists of the steps below, in some order.
-/
namespace RK

/-- The graph the construction starts with: the arguments without loops and without multi-arcs
(contraction_hierarchy.cpp:1107-1114 and 1156-1165, see C20). -/
def startGraph (n : Nat) (tail head weight : List Nat) : Option ChGraph := do
  let ids ← identityPermutation head.length
  let inp ← ArcCols.sortAndReduce n ⟨tail, head, weight, ids⟩
  ChGraph.new n inp.tail inp.head inp.weight

/-- `BuildRun n g maxPop C s`: starting with the graph `g` on `n` nodes, the nodes `C` were contracted in
this order, `s` is the state reached: remaining graph, witness search, arcs found so far. Importances of
nodes may have been estimated and levels raised in between. -/
inductive BuildRun (n : Nat) (g : ChGraph) (maxPop : Nat) : List Nat → BuildState → Prop
  | start : BuildRun n g maxPop [] ⟨g, WitnessSearch.new n maxPop, .empty, .empty⟩
  | contract {C : List Nat} {s s' : BuildState} {v : Nat} : BuildRun n g maxPop C s → v < n → v ∉ C →
      contractStep s v = some s' → BuildRun n g maxPop (C ++ [v]) s'
  | estimate {C : List Nat} {s : BuildState} {w : WitnessSearch} {v k : Nat} : BuildRun n g maxPop C s →
      v < n → estimateNodeImportance s.graph s.wit v = some (w, k) → BuildRun n g maxPop C { s with wit := w }
  | level {C : List Nat} {s : BuildState} {g' : ChGraph} {v k : Nat} : BuildRun n g maxPop C s →
      s.graph.raiseLevel v k = some g' → BuildRun n g maxPop C { s with graph := g' }

/-- The 32-bit numbers of a state are large enough: no arc of the remaining graph weighs more than `M`, and
for `n` further arcs in each direction there are ids left. -/
structure BuildState.Fits (n M : Nat) (s : BuildState) : Prop where
  out_light : ∀ (v : Nat) (arcs : List ChArc) (a : ChArc), s.graph.out[v]? = some arcs → a ∈ arcs → a.weight ≤ M
  in_light : ∀ (v : Nat) (arcs : List ChArc) (a : ChArc), s.graph.inn[v]? = some arcs → a ∈ arcs → a.weight ≤ M
  fwd_ids : s.fwd.head.length + n ≤ invalidId
  bwd_ids : s.bwd.head.length + n ≤ invalidId

/-- The numbers of original arcs in the arcs of one node have a 32-bit sum. -/
def BuildState.HopsFit (s : BuildState) : Prop :=
  ∀ (v : Nat) (inArcs outArcs : List ChArc), s.graph.inn[v]? = some inArcs → s.graph.out[v]? = some outArcs →
    1 + (inArcs.map (·.hop)).sum + (outArcs.map (·.hop)).sum < 2 ^ 32

end RK
