import Verif.Spec.Dijkstra
/-! # Specification of Dijkstra ranks -/
namespace Spec

/-- A row of the four query files. -/
structure RankQuery where
  source : Nat
  target : Nat
  rank : Nat
  distance : Nat
deriving DecidableEq

/-- `q.distance` is the distance of the target, and the target is one of the `2 ^ q.rank` nodes that are closest to the
source: there are `2 ^ q.rank` nodes at most that far away, including the target, among them all nodes that are closer. -/
def HasRank (A : ArcRel) (q : RankQuery) : Prop :=
  IsDist A q.source q.target q.distance ∧
  ∃ near : List Nat, near.Nodup ∧ near.length = 2 ^ q.rank ∧ q.target ∈ near ∧
    (∀ x ∈ near, ∃ d, IsDist A q.source x d ∧ d ≤ q.distance) ∧
    ∀ x d, IsDist A q.source x d → d < q.distance → x ∈ near

/-- At least `k` nodes can be reached from `s`. -/
def ReachesMany (A : ArcRel) (s k : Nat) : Prop :=
  ∃ nodes : List Nat, nodes.Nodup ∧ nodes.length = k ∧ ∀ x ∈ nodes, Reachable A s x

/-- The rows of one source node: ranks 6, 7, ..., each once, up to the largest `r` such that `2 ^ r` nodes are reachable. -/
structure RankBlock (A : ArcRel) (s : Nat) (block : List RankQuery) : Prop where
  right : ∀ q ∈ block, q.source = s ∧ HasRank A q
  ranks : block.map RankQuery.rank = List.range' 6 block.length
  complete : ∀ r, 6 ≤ r → ReachesMany A s (2 ^ r) → r < 6 + block.length

/-- The rows of all sources, in the order of the sources. -/
def RankRows (A : ArcRel) (drawn : List Nat) (rows : List RankQuery) : Prop :=
  ∃ blocks : List (List RankQuery), rows = blocks.flatten ∧ blocks.length = drawn.length ∧
    ∀ (i s : Nat) (block : List RankQuery), drawn[i]? = some s → blocks[i]? = some block → RankBlock A s block

end Spec
