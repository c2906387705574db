import Verif.Spec.Dijkstra
/-! # Specification of files with queries and files with their answers -/
namespace Spec

/-- The file `distance` has one answer per query and each is related to its query by `R`. -/
def Answers (R : Nat → Nat → Nat → Prop) (source target distance : List Nat) : Prop :=
  distance.length = source.length ∧
  ∀ i s t : Nat, source[i]? = some s → target[i]? = some t → ∃ d, distance[i]? = some d ∧ R s t d

/-- `d` is the length of a shortest walk; 2147483647 if there is no walk. -/
def ExactDistance (A : ArcRel) (s t d : Nat) : Prop :=
  IsDist A s t d ∨ (¬ Reachable A s t ∧ d = closed)

/-- `d` is the length of a shortest walk; 2147483647 if all walks are at least that long. -/
def CappedDistance (A : ArcRel) (s t d : Nat) : Prop :=
  (d < closed ∧ IsDist A s t d) ∨ (d = closed ∧ ∀ p l, Walk A s p t l → closed ≤ l)

/-- Files with queries: equally long, not empty, node ids below `n`. -/
structure QueryFiles (n : Nat) (source target : List Nat) : Prop where
  length : source.length = target.length
  nonempty : source ≠ []
  source_lt : ∀ s ∈ source, s < n
  target_lt : ∀ t ∈ target, t < n

end Spec
