import Verif.Spec.Query
/-!
# Specification of query objects on customizable contraction hierarchies

The same as `QStep` and `QPre`, with three differences of the interface: a run without sources or without targets is
allowed, a run to pinned nodes only reports distances, and the numbers of pinned nodes cannot be asked for. In
addition, paths visit no node twice.
-/
namespace Spec

/-- `CchStep s op out s'`: `out` is a correct answer to `op` in state `s`, and `s'` is the state afterwards. -/
def CchStep {H : Type} (s : QState) (op : QOp H) (out : QOut) (s' : QState) : Prop :=
  match op with
  | .results => s' = s ∧ ∃ r, out = .result r ∧ r.Correct s.graph.arcs s.sources s.targets ∧ r.nodes.Nodup
  | .resultsToTargets => s' = s ∧ ∃ ts b ds, s.mode = .toTargets ts b ∧ out = .lists ds [] ∧ ds.length = ts.length ∧
      ∀ (i t d : Nat), ts[i]? = some t → ds[i]? = some d → ∃ u, ToTarget s.graph.arcs s.sources t d u
  | .resultsToSources => s' = s ∧ ∃ ss b ds, s.mode = .toSources ss b ∧ out = .lists ds [] ∧ ds.length = ss.length ∧
      ∀ (i x d : Nat), ss[i]? = some x → ds[i]? = some d → ∃ u, ToSource s.graph.arcs s.targets x d u
  | op => QStep s op out s'

/-- The preconditions; `Valid h G` says that `h` is a proper data structure for the graph `G`. -/
def CchPre {H : Type} (Valid : H → QGraph → Prop) (s : QState) (op : QOp H) : Prop :=
  match op with
  | .run => s.mode = .collecting
  | .runToPinnedTargets => ∃ ts, s.mode = .toTargets ts false
  | .runToPinnedSources => ∃ ss, s.mode = .toSources ss false
  | .pinnedTargetCount => False
  | .pinnedSourceCount => False
  | op => QPre Valid (fun _ k => k < 2 ^ 32) s op

end Spec
