import Mathlib.Data.List.Perm.Basic
/-!
# Specification vocabulary for vectors

Independent of the model: plain statements about lists.  `v[i]?` is Lean's list indexing
(`some` of the element at position `i`, `none` beyond the end).
-/
namespace Spec

/-- `p` contains each of `0, 1, …, p.length-1` exactly once. -/
def IsPermutation (p : List Nat) : Prop := p.Perm (List.range p.length)

/-- `q` is the two-sided inverse of the permutation `p`. -/
def AreInverse (p q : List Nat) : Prop :=
  p.length = q.length ∧ (∀ i j : Nat, p[i]? = some j ↔ q[j]? = some i)

end Spec

namespace Spec

/-- `p` is *the* stable sort permutation for the list of keys: a permutation of the positions that
lists them by increasing key, and positions of equal keys by increasing position. -/
def StableSortPerm (keys p : List Nat) : Prop :=
  IsPermutation p ∧ p.length = keys.length ∧
  ∀ i j a b ka kb : Nat, i < j → p[i]? = some a → p[j]? = some b →
    keys[a]? = some ka → keys[b]? = some kb → ka < kb ∨ (ka = kb ∧ a < b)

/-- `p` is a sort permutation for the list of keys. -/
def SortPerm (keys p : List Nat) : Prop :=
  IsPermutation p ∧ p.length = keys.length ∧
  ∀ i j a b ka kb : Nat, i < j → p[i]? = some a → p[j]? = some b →
    keys[a]? = some ka → keys[b]? = some kb → ka ≤ kb

/-- The contract of `std::sort(begin,end,less)` for a strict weak order `less`: the result is a
permutation of the input in which no element is `less` than an earlier one. -/
def StdSort (sort : (α : Type) → (α → α → Bool) → List α → List α) : Prop :=
  ∀ (α : Type) (less : α → α → Bool) (l : List α),
    (∀ a b, less a b = true → less b a = false) →
    (∀ a b c, less b a = false → less c b = false → less c a = false) →
    (sort α less l).Perm l ∧ (sort α less l).Pairwise fun a b => less b a = false

end Spec

namespace Spec

/-- `p` lists the positions of the pairs `(left[i], right[i])` in lexicographic order; equal pairs
keep their relative order. -/
def LexSortPerm (left right p : List Nat) : Prop :=
  IsPermutation p ∧ p.length = left.length ∧
  ∀ i j a b la lb ra rb : Nat, i < j → p[i]? = some a → p[j]? = some b →
    left[a]? = some la → left[b]? = some lb → right[a]? = some ra → right[b]? = some rb →
    la < lb ∨ (la = lb ∧ (ra < rb ∨ (ra = rb ∧ a < b)))

end Spec
