import Verif.Spec.Flow
import Verif.Model.Inertial
/-! # Specification vocabulary for inertial flow -/
namespace Spec
open RK

/-- A strict weak order on the elements that satisfy `P`. -/
structure StrictWeak {α : Type} (lt : α → α → Bool) (P : α → Prop) : Prop where
  irrefl : ∀ a, P a → lt a a = false
  trans : ∀ a b c, P a → P b → P c → lt a b = true → lt b c = true → lt a c = true
  incomp : ∀ a b c, P a → P b → P c → lt a b = false → lt b a = false → lt b c = false → lt c b = false →
    lt a c = false ∧ lt c a = false

/-- What the standard says about `std::nth_element`: the elements of the range are permuted, and no element
from the nth position on is smaller than one before. -/
def NthOk (nth : Nd.Nth) : Prop :=
  ∀ (less : Nat → Nat → Bool) (l : List Nat) (k : Nat), StrictWeak less (· ∈ l) → k ≤ l.length →
    (nth less l k).Perm l ∧ ∀ x ∈ (nth less l k).take k, ∀ y ∈ (nth less l k).drop k, less y x = false

/-- `src` are `n` nodes with the smallest keys and `tgt` are `n` other nodes with the largest keys. -/
structure Extremes {K : Type} (lt : K → K → Bool) (keys : List K) (n : Nat) (src tgt : List Bool) : Prop where
  source_len : src.length = keys.length
  target_len : tgt.length = keys.length
  source_count : src.count true = n
  target_count : tgt.count true = n
  disjoint : ∀ x : Nat, src[x]? = some true → tgt[x]? = some true → False
  low : ∀ (x y : Nat) (a b : K), src[x]? = some true → src[y]? = some false → keys[x]? = some a → keys[y]? = some b →
    lt b a = false
  high : ∀ (x y : Nat) (a b : K), tgt[x]? = some true → tgt[y]? = some false → keys[x]? = some a → keys[y]? = some b →
    lt a b = false

/-- The values by which the nodes of `f` are ordered in the four directions: latitude, longitude, their sum
and their difference. -/
inductive Direction {K : Type} (add sub : K → K → K) (lat lon : List K) (f : GraphFragment) : List K → Prop
  | horizontal (keys : List K) : f.globalNodeId.map (lat[·]?) = keys.map some → Direction add sub lat lon f keys
  | vertical (keys : List K) : f.globalNodeId.map (lon[·]?) = keys.map some → Direction add sub lat lon f keys
  | mainDiagonal (a b : List K) : f.globalNodeId.map (lat[·]?) = a.map some → f.globalNodeId.map (lon[·]?) = b.map some →
    Direction add sub lat lon f (List.zipWith add a b)
  | nextDiagonal (a b : List K) : f.globalNodeId.map (lat[·]?) = a.map some → f.globalNodeId.map (lon[·]?) = b.map some →
    Direction add sub lat lon f (List.zipWith sub a b)

/-- The result of inertial flow with `n` nodes on both sides: a minimum cut between the extreme nodes of one
direction, not larger than any cut between the extreme nodes of the other directions. -/
structure InertialCut {K : Type} (lt : K → K → Bool) (add sub : K → K → K) (lat lon : List K) (f : GraphFragment)
    (n : Nat) (c : Nd.CutSide) : Prop where
  cut : ∃ keys src tgt, Direction add sub lat lon f keys ∧ Extremes lt keys n src tgt ∧
    (MinimumCut f src tgt c ∨ MinimumCut f tgt src c)
  best : ∀ keys, Direction add sub lat lon f keys → ∃ src tgt, Extremes lt keys n src tgt ∧
    ∀ side, Separates src tgt side → c.cutSize ≤ leaving f side
  balance : n ≤ c.nodeOnSideCount
  small : 2 * c.nodeOnSideCount ≤ f.globalNodeId.length

end Spec
