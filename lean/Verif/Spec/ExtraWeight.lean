import Verif.Spec.Query
/-!
# Specification of extra weights

Every arc has an extra weight of an arbitrary type, and a link function tells how the weights of two
consecutive pieces of a path are combined. The extra weight of a path is obtained by linking the weights
of its arcs in order; how the arcs are bracketed is left open (it does not matter if the link function
is associative). A path without arcs has the default weight.
-/
namespace Spec
variable {W : Type}

/-- `x` is obtained by linking the elements of the list in order, with some bracketing. -/
inductive Linked (link : W → W → W) : List W → W → Prop
  | one (w : W) : Linked link [w] w
  | join {l r : List W} {x y : W} : Linked link l x → Linked link r y → Linked link (l ++ r) (link x y)

/-- `x` is the extra weight of the path with the arcs `p`; `weight[a]` is the extra weight of arc `a`. -/
def ExtraOf (weight : List W) (link : W → W → W) (dflt : W) (p : List Nat) (x : W) : Prop :=
  (p = [] ∧ x = dflt) ∨ ∃ ws : List W, p.map (fun a => weight[a]?) = ws.map some ∧ Linked link ws x

/-- Correctness of the extra weight `x` reported for a pinned target `t`, given the reported distance `d`
and used source `u`: `x` is the extra weight of a path that has length `d` and starts at `u`. -/
def ExtraToTarget (A : ArcRel) (weight : List W) (link : W → W → W) (dflt : W) (sources : List (Nat × Nat))
    (t d u : Nat) (x : W) : Prop :=
  (d < unreachable ∧ ∃ p, Route A sources [(t, 0)] u t p d ∧ ExtraOf weight link dflt p x) ∨
  (d = unreachable ∧ x = dflt)

/-- The same for a pinned source `s` with distance `d` and used target `u`. -/
def ExtraToSource (A : ArcRel) (weight : List W) (link : W → W → W) (dflt : W) (targets : List (Nat × Nat))
    (s d u : Nat) (x : W) : Prop :=
  (d < unreachable ∧ ∃ p, Route A [(s, 0)] targets s u p d ∧ ExtraOf weight link dflt p x) ∨
  (d = unreachable ∧ x = dflt)

/-- What is passed to a call that computes extra weights: `extra` is the argument `extra_weight`, which
represents the weights `weight` of the arcs of the graph. -/
structure ExtraArg (E W : Type) where
  extra : E
  weight : List W
  link : W → W → W
  dflt : W

/-- The operations of a query object, including those for extra weights. `buffer` contains the containers
`tmp` and `dist` if they are given by the caller. -/
inductive XOp (H E W : Type)
  | base (op : QOp H)
  /-- the five results and `get_extra_weight_distance` -/
  | results (arg : ExtraArg E W)
  /-- distances, used sources and `get_extra_weight_distances_to_targets` -/
  | toTargets (arg : ExtraArg E W) (buffer : Option (List W × List W))
  /-- distances, used targets and `get_extra_weight_distances_to_sources` -/
  | toSources (arg : ExtraArg E W) (buffer : Option (List W × List W))

inductive XOut (W : Type)
  | base (out : QOut)
  | result (r : QResult) (x : W)
  | lists (distances used : List Nat) (extra : List W)

/-- `xs` are the extra weights for the pinned nodes `ts` with distances `ds` and used nodes `us`. If the
caller provided a container then it may be longer, and its remaining elements are kept. -/
def ExtraList {W : Type} (P : Nat → Nat → Nat → W → Prop) (ts ds us : List Nat) (buffer : Option (List W × List W))
    (xs : List W) : Prop :=
  xs.length = (match buffer with | none => ts.length | some b => b.2.length) ∧
  (∀ (i t d u : Nat), ts[i]? = some t → ds[i]? = some d → us[i]? = some u → ∃ x, xs[i]? = some x ∧ P t d u x) ∧
  ∀ tmp dist, buffer = some (tmp, dist) → ∀ i, ts.length ≤ i → xs[i]? = dist[i]?

/-- The data structure attached after `op`. -/
def QOp.attached {H : Type} (op : QOp H) (h : H) : H :=
  match op with
  | .attach h' _ => h'
  | _ => h

/-- Correct answers; the state contains the attached data structure. -/
def XStep {H E W : Type} (s : QState × H) (op : XOp H E W) (out : XOut W) (s' : QState × H) : Prop :=
  match op with
  | .base op => ∃ o, out = .base o ∧ QStep s.1 op o s'.1 ∧ s'.2 = op.attached s.2
  | .results a => s' = s ∧ ∃ r x, out = .result r x ∧ r.Correct s.1.graph.arcs s.1.sources s.1.targets ∧
      ExtraOf a.weight a.link a.dflt r.arcs x
  | .toTargets a buffer => s' = s ∧ ∃ ts b ds us xs, s.1.mode = .toTargets ts b ∧ out = .lists ds us xs ∧
      ForAll3 (ToTarget s.1.graph.arcs s.1.sources) ts ds us ∧
      ExtraList (ExtraToTarget s.1.graph.arcs a.weight a.link a.dflt s.1.sources) ts ds us buffer xs
  | .toSources a buffer => s' = s ∧ ∃ ss b ds us xs, s.1.mode = .toSources ss b ∧ out = .lists ds us xs ∧
      ForAll3 (ToSource s.1.graph.arcs s.1.targets) ss ds us ∧
      ExtraList (ExtraToSource s.1.graph.arcs a.weight a.link a.dflt s.1.targets) ss ds us buffer xs

/-- The preconditions; `Good h a` says that the extra weights `a` are good for the data structure `h`. The
first container of the caller needs an element for every node, the second one for every pinned node. -/
def XPre {H E W : Type} (pre : QState → QOp H → Prop) (Good : H → ExtraArg E W → Prop) (s : QState × H) (op : XOp H E W) : Prop :=
  match op with
  | .base op => pre s.1 op
  | .results a => pre s.1 .results ∧ GoodArg s.1.graph s.2 a
  | .toTargets a buffer => pre s.1 .resultsToTargets ∧ GoodArg s.1.graph s.2 a ∧
      ∀ tmp dist ts b, buffer = some (tmp, dist) → s.1.mode = .toTargets ts b → s.1.graph.n ≤ tmp.length ∧ ts.length ≤ dist.length
  | .toSources a buffer => pre s.1 .resultsToSources ∧ GoodArg s.1.graph s.2 a ∧
      ∀ tmp dist ss b, buffer = some (tmp, dist) → s.1.mode = .toSources ss b → s.1.graph.n ≤ tmp.length ∧ ss.length ≤ dist.length
where
  /-- every arc of the graph has an extra weight -/
  GoodArg (G : QGraph) (h : H) (a : ExtraArg E W) : Prop :=
    (∀ arc x y w, G.arcs arc x y w → arc < a.weight.length) ∧ Good h a

end Spec
