import Mathlib.Order.Defs.LinearOrder
/-! # Specification: positions of extreme elements, differences of vectors -/
namespace Spec

/-- `p` is the first position of a minimum `x` of `v`. -/
def IsFirstMin {α : Type} [LinearOrder α] (v : List α) (p : Nat) (x : α) : Prop :=
  v[p]? = some x ∧ (∀ y ∈ v, x ≤ y) ∧ ∀ q y, q < p → v[q]? = some y → y ≠ x

/-- `p` is the first position of a maximum `x` of `v`. -/
def IsFirstMax {α : Type} [LinearOrder α] (v : List α) (p : Nat) (x : α) : Prop :=
  v[p]? = some x ∧ (∀ y ∈ v, y ≤ x) ∧ ∀ q y, q < p → v[q]? = some y → y ≠ x

/-- The number of positions at which the elements of the two vectors are in relation `r`. -/
def positions {α : Type} (r : α → α → Prop) [∀ a b, Decidable (r a b)] (v w : List α) : Nat :=
  (v.zip w).countP fun p => decide (r p.1 p.2)

/-- The first position at which the two vectors differ. -/
def IsFirstDifference {α : Type} (v w : List α) (p : Nat) : Prop :=
  p < v.length ∧ v[p]? ≠ w[p]? ∧ ∀ q, q < p → v[q]? = w[q]?

end Spec
