import Verif.Spec.Graph
/-!
# Specification of shortest path query objects

Shared by the queries on contraction hierarchies and on customizable contraction hierarchies. Nothing
here mentions how a query is computed: a query object remembers a graph, sources and targets with
offsets, and its answers are described by walks of that graph.

`H` is the type of the data structures a query object can be attached to.
-/
namespace Spec

/-- `inf_weight`: the answer for "no route"; routes of at least this length do not count. -/
def unreachable : Nat := 2147483647

/-- `invalid_id`: the answer for "no node". -/
def noNode : Nat := 4294967295

/-- A graph with nodes `0, ..., n-1`. -/
structure QGraph where
  n : Nat
  arcs : ArcRel

/-- What the query object was used for since the last reset. -/
inductive QMode
  /-- sources and targets may be added -/
  | collecting
  /-- `run` was called -/
  | ran
  /-- `pin_targets` was called with this list; was `run_to_pinned_targets` called since the last
  `reset_source`? -/
  | toTargets (pinned : List Nat) (ran : Bool)
  /-- `pin_sources` was called with this list; was `run_to_pinned_sources` called since the last
  `reset_target`? -/
  | toSources (pinned : List Nat) (ran : Bool)

/-- The abstract state: the graph, the mode, and all sources and targets with their offsets. -/
structure QState where
  graph : QGraph
  mode : QMode
  sources : List (Nat × Nat)
  targets : List (Nat × Nat)

def QState.fresh (G : QGraph) : QState := ⟨G, .collecting, [], []⟩

/-- The arcs `p` lead from the source `s` to the target `t`; with both offsets the total length is `d`. -/
def Route (A : ArcRel) (sources targets : List (Nat × Nat)) (s t : Nat) (p : List Nat) (d : Nat) : Prop :=
  ∃ ds dt l, (s, ds) ∈ sources ∧ (t, dt) ∈ targets ∧ Walk A s p t l ∧ d = ds + l + dt

/-- No route is shorter than `k`. -/
def NoRouteBelow (A : ArcRel) (sources targets : List (Nat × Nat)) (k : Nat) : Prop :=
  ∀ s t p d, Route A sources targets s t p d → k ≤ d

/-- The five answers of a one-to-one query: distance, used source, used target, arc path, node path. -/
structure QResult where
  distance : Nat
  source : Nat
  target : Nat
  arcs : List Nat
  nodes : List Nat

/-- Correctness of the answers. Either the arc path is a route from the used source to the used target,
the distance is its length, the node path visits its nodes, and no route is shorter; or there is no
route (shorter than `inf_weight`) and the answers say so. -/
def QResult.Correct (r : QResult) (A : ArcRel) (sources targets : List (Nat × Nat)) : Prop :=
  (r.distance < unreachable ∧ Route A sources targets r.source r.target r.arcs r.distance ∧
    NodesOf A r.source r.arcs r.nodes ∧ NoRouteBelow A sources targets r.distance) ∨
  (r.distance = unreachable ∧ r.source = noNode ∧ r.target = noNode ∧ r.arcs = [] ∧ r.nodes = [] ∧
    NoRouteBelow A sources targets unreachable)

/-- Correctness of distance `d` and used source `u` reported for a pinned target `t`. -/
def ToTarget (A : ArcRel) (sources : List (Nat × Nat)) (t d u : Nat) : Prop :=
  (d < unreachable ∧ (∃ p, Route A sources [(t, 0)] u t p d) ∧ NoRouteBelow A sources [(t, 0)] d) ∨
  (d = unreachable ∧ u = noNode ∧ NoRouteBelow A sources [(t, 0)] unreachable)

/-- Correctness of distance `d` and used target `u` reported for a pinned source `s`. -/
def ToSource (A : ArcRel) (targets : List (Nat × Nat)) (s d u : Nat) : Prop :=
  (d < unreachable ∧ (∃ p, Route A [(s, 0)] targets s u p d) ∧ NoRouteBelow A [(s, 0)] targets d) ∨
  (d = unreachable ∧ u = noNode ∧ NoRouteBelow A [(s, 0)] targets unreachable)

/-- The lists have equal lengths and `P` holds for corresponding elements. -/
def ForAll3 (P : Nat → Nat → Nat → Prop) (xs ys zs : List Nat) : Prop :=
  ys.length = xs.length ∧ zs.length = xs.length ∧
    ∀ (i x y z : Nat), xs[i]? = some x → ys[i]? = some y → zs[i]? = some z → P x y z

/-- The operations of a query object. -/
inductive QOp (H : Type)
  | reset
  /-- `reset(h)`: continue with another data structure, one for the graph `G` -/
  | attach (h : H) (G : QGraph)
  | addSource (s d : Nat)
  | addTarget (t d : Nat)
  | run
  /-- `get_distance`, `get_used_source`, `get_used_target`, `get_arc_path`, `get_node_path` -/
  | results
  | pinTargets (ts : List Nat)
  | pinSources (ss : List Nat)
  | resetSource
  | resetTarget
  | runToPinnedTargets
  | runToPinnedSources
  /-- `get_distances_to_targets`, `get_used_sources_to_targets` -/
  | resultsToTargets
  /-- `get_distances_to_sources`, `get_used_targets_to_sources` -/
  | resultsToSources
  | pinnedTargetCount
  | pinnedSourceCount

inductive QOut
  | unit
  | num (k : Nat)
  | result (r : QResult)
  | lists (distances used : List Nat)

/-- `QStep s op out s'`: `out` is a correct answer to `op` in state `s`, and `s'` is the state afterwards. -/
def QStep {H : Type} (s : QState) (op : QOp H) (out : QOut) (s' : QState) : Prop :=
  match op with
  | .reset => out = .unit ∧ s' = QState.fresh s.graph
  | .attach _ G => out = .unit ∧ s' = QState.fresh G
  | .addSource x d => out = .unit ∧ s' = { s with sources := s.sources ++ [(x, d)] }
  | .addTarget x d => out = .unit ∧ s' = { s with targets := s.targets ++ [(x, d)] }
  | .run => out = .unit ∧ s' = { s with mode := .ran }
  | .results => s' = s ∧ ∃ r, out = .result r ∧ r.Correct s.graph.arcs s.sources s.targets
  | .pinTargets ts => out = .unit ∧ s' = { s with mode := .toTargets ts false }
  | .pinSources ss => out = .unit ∧ s' = { s with mode := .toSources ss false }
  | .resetSource => ∃ ts b, s.mode = .toTargets ts b ∧ out = .unit ∧
      s' = { s with mode := .toTargets ts false, sources := [] }
  | .resetTarget => ∃ ss b, s.mode = .toSources ss b ∧ out = .unit ∧
      s' = { s with mode := .toSources ss false, targets := [] }
  | .runToPinnedTargets => ∃ ts b, s.mode = .toTargets ts b ∧ out = .unit ∧ s' = { s with mode := .toTargets ts true }
  | .runToPinnedSources => ∃ ss b, s.mode = .toSources ss b ∧ out = .unit ∧ s' = { s with mode := .toSources ss true }
  | .resultsToTargets => s' = s ∧ ∃ ts b ds us, s.mode = .toTargets ts b ∧ out = .lists ds us ∧
      ForAll3 (ToTarget s.graph.arcs s.sources) ts ds us
  | .resultsToSources => s' = s ∧ ∃ ss b ds us, s.mode = .toSources ss b ∧ out = .lists ds us ∧
      ForAll3 (ToSource s.graph.arcs s.targets) ss ds us
  | .pinnedTargetCount => s' = s ∧ ∃ ts b, s.mode = .toTargets ts b ∧ out = .num ts.length
  | .pinnedSourceCount => s' = s ∧ ∃ ss b, s.mode = .toSources ss b ∧ out = .num ss.length

/-- The preconditions; `Valid h G` says that `h` is a proper data structure for the graph `G`,
`mayPin n k` says that `k` nodes may be pinned in a graph with `n` nodes. -/
def QPre {H : Type} (Valid : H → QGraph → Prop) (mayPin : Nat → Nat → Prop) (s : QState) (op : QOp H) : Prop :=
  match op with
  | .reset => True
  | .attach h G => Valid h G
  | .addSource x d => x < s.graph.n ∧ d < unreachable ∧ (s.mode = .collecting ∨ ∃ ts, s.mode = .toTargets ts false)
  | .addTarget x d => x < s.graph.n ∧ d < unreachable ∧ (s.mode = .collecting ∨ ∃ ss, s.mode = .toSources ss false)
  | .run => s.mode = .collecting ∧ s.sources ≠ [] ∧ s.targets ≠ []
  | .results => s.mode = .ran
  | .pinTargets ts => s.mode = .collecting ∧ s.targets = [] ∧ mayPin s.graph.n ts.length ∧ ∀ t ∈ ts, t < s.graph.n
  | .pinSources ss => s.mode = .collecting ∧ s.sources = [] ∧ mayPin s.graph.n ss.length ∧ ∀ t ∈ ss, t < s.graph.n
  | .resetSource => ∃ ts b, s.mode = .toTargets ts b
  | .resetTarget => ∃ ss b, s.mode = .toSources ss b
  | .runToPinnedTargets => (∃ ts, s.mode = .toTargets ts false) ∧ s.sources ≠ []
  | .runToPinnedSources => (∃ ss, s.mode = .toSources ss false) ∧ s.targets ≠ []
  | .resultsToTargets => ∃ ts, s.mode = .toTargets ts true ∧ ts ≠ []
  | .resultsToSources => ∃ ss, s.mode = .toSources ss true ∧ ss ≠ []
  | .pinnedTargetCount => ∃ ts b, s.mode = .toTargets ts b
  | .pinnedSourceCount => ∃ ss b, s.mode = .toSources ss b

end Spec
