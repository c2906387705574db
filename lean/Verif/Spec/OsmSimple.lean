import Verif.Spec.OsmGraph
/-! # Specification: the arcs of a file for a kind of traffic -/
namespace Spec

instance (accepted : List Int) (ways : List (Int × List Int)) (x : Int) : Decidable (IsModellingNode accepted ways x) := by
  unfold IsModellingNode; infer_instance

instance (accepted : List Int) (ways : List (Int × List Int)) (x : Int) : Decidable (IsRoutingNode accepted ways x) := by
  unfold IsRoutingNode; infer_instance

/-- The routing nodes of a list of ways; all nodes of the ways if `all` is set. -/
def routingNode (all : Bool) (ways : List (Int × List Int)) (x : Nat) : Bool :=
  if all then decide (IsModellingNode [] ways x) else decide (IsRoutingNode [] ways x)

/-- The arcs of the ways of a file that may be used, in the order of the file. A way with at least two nodes may be used if `use` says
so; `forwards` and `backwards` tell its directions. -/
def networkArcs (all : Bool) (use forwards backwards : TagLookup → Bool) (items : List OsmItem) : List MapArc :=
  items.flatMap fun i => match i with
    | .way id nodes tags =>
      if 2 ≤ nodes.length ∧ use (lookup tags) then
        arcsOfWay (routingNode all (usedWays (fun _ => use) items)) (forwards (lookup tags)) (backwards (lookup tags)) id.toNat (nodes.map Int.toNat)
      else []
    | _ => []

/-- The ways of a file have different ids (or are the same). -/
def UniqueWays (items : List OsmItem) : Prop :=
  ∀ id nodes nodes' tags tags', OsmItem.way id nodes tags ∈ items → OsmItem.way id nodes' tags' ∈ items → nodes = nodes' ∧ tags = tags'

/-- The members of relations: of one of the three types, fewer than 2^32-1. -/
def GoodMembers (items : List OsmItem) : Prop :=
  ∀ id members tags, OsmItem.relation id members tags ∈ items → members.length < 2 ^ 32 - 1 ∧ ∀ m ∈ members, m.1 < 3

end Spec
