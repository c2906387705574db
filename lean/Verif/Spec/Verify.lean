import Verif.Spec.Graph
/-! # Specification: well-formed input of the command line tools -/
namespace Spec

/-- Travel time profiles for `m` arcs: arc `a` has the points from `first[a]` up to `first[a+1]-1`, at least one. Its
departure times increase (equal ones are allowed) and are smaller than the period. -/
structure IsProfiles (period m : Nat) (first departure travel : List Nat) : Prop where
  length : first.length = m + 1
  start : first[0]? = some 0
  last : first[m]? = some departure.length
  points : ∀ a b e : Nat, first[a]? = some b → first[a + 1]? = some e → b < e
  travel : travel.length = departure.length
  increasing : ∀ a b e i j t t' : Nat, first[a]? = some b → first[a + 1]? = some e → b ≤ i → i < j → j < e →
    departure[i]? = some t → departure[j]? = some t' → t ≤ t'
  within : ∀ t ∈ departure, t < period

/-- Queries from a source node at a source time to a target node. -/
structure IsTimedQueries (period n : Nat) (source sourceTime target rank : List Nat) : Prop where
  sources : ∀ x ∈ source, x < n
  targets : ∀ x ∈ target, x < n
  times : ∀ t ∈ sourceTime, t < period
  timeCount : sourceTime.length = source.length
  targetCount : target.length = source.length
  rankCount : rank.length = source.length

end Spec
