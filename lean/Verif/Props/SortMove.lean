import Verif.Proof.SortMove
import Verif.Props.Sort
/-! # Property theorems C100 (sort.h, the overloads that consume their argument) -/
namespace RK.Props
open RK _root_.Spec

variable {α : Type} [Inhabited α]

/-- C100. Stable sorting by key of a vector that may be consumed: no element is used after it was moved away, the result
is the vector read through the stable sort permutation, and the argument is afterwards unchanged or all of its elements
have been moved from. -/
theorem C100_stable_sort_using_key (v : List α) (keyCount : Nat) (getKey : α → Nat) (hk : ∀ x ∈ v, getKey x < keyCount) :
    ∃ r rest p, stableSortUsingKeyMove v keyCount getKey = some (r, rest) ∧ r.length = v.length ∧
      StableSortPerm (v.map getKey) p ∧ (∀ i a : Nat, p[i]? = some a → r[i]? = v[a]?) ∧
      (rest = v.map some ∨ rest = List.replicate v.length none) := by
  obtain ⟨r, p, e, h1, h2, h3⟩ := C06_stable_sort_using_key v keyCount getKey hk
  rcases move_spec noStdSort true v keyCount getKey with ⟨_, q⟩ | ⟨r', rest, q1, q2, q3⟩
  · rw [show maybeStableSortUsingKey noStdSort true v keyCount getKey = some r from e] at q; cases q
  · rw [show maybeStableSortUsingKey noStdSort true v keyCount getKey = some r from e] at q2
    cases q2
    exact ⟨r, rest, p, q1, h1, h2, h3, q3⟩

/-- C100. The same for sorting by key, whatever `std::sort` does within its contract. -/
theorem C100_sort_using_key (stdSort : SortFn) (hs : StdSort stdSort) (v : List α) (keyCount : Nat) (getKey : α → Nat)
    (hk : ∀ x ∈ v, getKey x < keyCount) :
    ∃ r rest, sortUsingKeyMove stdSort v keyCount getKey = some (r, rest) ∧ r.Perm v ∧
      (r.Pairwise fun a b => getKey a ≤ getKey b) ∧ (rest = v.map some ∨ rest = List.replicate v.length none) := by
  obtain ⟨r, e, h1, h2⟩ := C06_sort_using_key stdSort hs v keyCount getKey hk
  rcases move_spec stdSort false v keyCount getKey with ⟨_, q⟩ | ⟨r', rest, q1, q2, q3⟩
  · rw [show maybeStableSortUsingKey stdSort false v keyCount getKey = some r from e] at q; cases q
  · rw [show maybeStableSortUsingKey stdSort false v keyCount getKey = some r from e] at q2
    cases q2
    exact ⟨r, rest, q1, h1, h2, q3⟩

/-- C100. Both overloads return the same for all arguments, also where the keys are too large: then neither is defined. -/
theorem C100_same_as_copying (stdSort : SortFn) (v : List α) (keyCount : Nat) (getKey : α → Nat) :
    (sortUsingKeyMove stdSort v keyCount getKey).map Prod.fst = sortUsingKey stdSort v keyCount getKey ∧
    (stableSortUsingKeyMove v keyCount getKey).map Prod.fst = stableSortUsingKey v keyCount getKey := by
  unfold sortUsingKeyMove sortUsingKey stableSortUsingKeyMove stableSortUsingKey
  constructor
  · rcases move_spec stdSort false v keyCount getKey with ⟨q1, q2⟩ | ⟨r', rest, q1, q2, _⟩ <;> rw [q1, q2] <;> rfl
  · rcases move_spec noStdSort true v keyCount getKey with ⟨q1, q2⟩ | ⟨r', rest, q1, q2, _⟩ <;> rw [q1, q2] <;> rfl

omit [Inhabited α] in
/-- C100. The overloads with a comparator return the same as those that copy. -/
theorem C100_comparator (stdSort : SortFn) (v : List α) (isLess : α → α → Bool) :
    (sortUsingComparatorMove stdSort v isLess).1 = sortUsingComparator stdSort v isLess ∧
    (stableSortUsingComparatorMove v isLess).1 = stableSortUsingComparator v isLess := ⟨rfl, rfl⟩

/-- Few keys: bucket sort consumes the argument. Many keys: it is copied. -/
example : stableSortUsingKeyMove [(3, 'a'), (1, 'b'), (3, 'c'), (0, 'd')] 4 (fun x => x.1) =
      some ([(0, 'd'), (1, 'b'), (3, 'a'), (3, 'c')], [none, none, none, none]) ∧
    (stableSortUsingKeyMove [(3, 'a'), (1, 'b')] 100 (fun x => x.1)).map Prod.snd =
      some [some (3, 'a'), some (1, 'b')] ∧
    (∀ x ∈ [(3, 'a'), (1, 'b'), (3, 'c'), (0, 'd')], x.1 < 4) := by decide

end RK.Props
