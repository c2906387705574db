import Verif.Proof.Sort
/-! # Property theorems C06 (sort.h) -/
namespace RK.Props
open Spec
variable {α : Type} [Inhabited α]

/-- C06. `compute_stable_sort_permutation_using_key` returns the stable sort permutation. -/
theorem C06_compute_stable_sort_permutation_using_key (v : List α) (keyCount : Nat)
    (getKey : α → Nat) (hk : ∀ x ∈ v, getKey x < keyCount) :
    ∃ p, computeStableSortPermutationUsingKey v keyCount getKey = some p ∧
      StableSortPerm (v.map getKey) p := by
  obtain ⟨p, e, _, h⟩ := computeMaybeStable_spec (stdSort := noStdSort) hk true (Or.inl rfl)
  exact ⟨p, e, h rfl⟩

example : computeStableSortPermutationUsingKey [3, 1, 3, 0] 4 (fun x => x) =
    some [3, 1, 0, 2] := by decide

/-- C06. `compute_inverse_stable_sort_permutation_using_key` returns its inverse. -/
theorem C06_compute_inverse_stable_sort_permutation_using_key (v : List α) (keyCount : Nat)
    (getKey : α → Nat) (hk : ∀ x ∈ v, getKey x < keyCount) :
    ∃ q p, computeInverseStableSortPermutationUsingKey v keyCount getKey = some q ∧
      IsPermutation q ∧ AreInverse p q ∧ StableSortPerm (v.map getKey) p := by
  obtain ⟨q, e, p, h1, h2, _, h⟩ :=
    computeInverseMaybeStable_spec (stdSort := noStdSort) hk true (Or.inl rfl)
  exact ⟨q, p, e, h2, h1, h rfl⟩

example : computeInverseStableSortPermutationUsingKey [3, 1, 3, 0] 4 (fun x => x) =
    some [2, 1, 3, 0] := by decide

/-- C06. `compute_sort_permutation_using_key` returns a sort permutation, whatever `std::sort` does
within its contract. -/
theorem C06_compute_sort_permutation_using_key (stdSort : SortFn) (hs : StdSort stdSort)
    (v : List α) (keyCount : Nat) (getKey : α → Nat) (hk : ∀ x ∈ v, getKey x < keyCount) :
    ∃ p, computeSortPermutationUsingKey stdSort v keyCount getKey = some p ∧
      SortPerm (v.map getKey) p := by
  obtain ⟨p, e, h, _⟩ := computeMaybeStable_spec (stdSort := stdSort) hk false (Or.inr hs)
  exact ⟨p, e, h⟩

/-- C06. `compute_inverse_sort_permutation_using_key` returns the inverse of a sort permutation. -/
theorem C06_compute_inverse_sort_permutation_using_key (stdSort : SortFn) (hs : StdSort stdSort)
    (v : List α) (keyCount : Nat) (getKey : α → Nat) (hk : ∀ x ∈ v, getKey x < keyCount) :
    ∃ q p, computeInverseSortPermutationUsingKey stdSort v keyCount getKey = some q ∧
      IsPermutation q ∧ AreInverse p q ∧ SortPerm (v.map getKey) p := by
  obtain ⟨q, e, p, h1, h2, h, _⟩ :=
    computeInverseMaybeStable_spec (stdSort := stdSort) hk false (Or.inr hs)
  exact ⟨q, p, e, h2, h1, h⟩

/-- C06. `stable_sort_using_key` returns the vector read through the stable sort permutation. -/
theorem C06_stable_sort_using_key (v : List α) (keyCount : Nat) (getKey : α → Nat)
    (hk : ∀ x ∈ v, getKey x < keyCount) :
    ∃ r p, stableSortUsingKey v keyCount getKey = some r ∧ r.length = v.length ∧
      StableSortPerm (v.map getKey) p ∧ ∀ i a : Nat, p[i]? = some a → r[i]? = v[a]? := by
  by_cases hb : keyCount / bucketSortMinKeyToElementRatio ≤ v.length
  · exact bucket_sort hk hb
  · obtain ⟨p, h1, h2, h3⟩ := stable_comparator_sort v getKey
    refine ⟨_, p, ?_, h1, h2, h3⟩
    simp [stableSortUsingKey, maybeStableSortUsingKey, if_neg hb]

example : stableSortUsingKey [(3, 'a'), (1, 'b'), (3, 'c'), (0, 'd')] 4 (fun x => x.1) =
    some [(0, 'd'), (1, 'b'), (3, 'a'), (3, 'c')] := by decide

/-- C06. `sort_using_key` returns the same elements sorted by key. -/
theorem C06_sort_using_key (stdSort : SortFn) (hs : StdSort stdSort) (v : List α) (keyCount : Nat)
    (getKey : α → Nat) (hk : ∀ x ∈ v, getKey x < keyCount) :
    ∃ r, sortUsingKey stdSort v keyCount getKey = some r ∧ r.Perm v ∧
      r.Pairwise fun a b => getKey a ≤ getKey b := by
  by_cases hb : keyCount / bucketSortMinKeyToElementRatio ≤ v.length
  · obtain ⟨r, p, e, h1, h2, h3⟩ := bucket_sort (stdSort := stdSort) (b := false) hk hb
    have := perm_of_sortPerm h1 h2.sortPerm h3
    exact ⟨r, e, this⟩
  · obtain ⟨h1, h2⟩ := hs α (compareByKey getKey) v (compareByKey_asymm getKey)
      (compareByKey_trans getKey)
    refine ⟨_, by simp [sortUsingKey, maybeStableSortUsingKey, if_neg hb, sortUsingComparator], h1,
      h2.imp ?_⟩
    intro a b
    simp [compareByKey]

omit [Inhabited α] in
/-- C06. `is_sorted_using_key` decides sortedness. -/
theorem C06_is_sorted_using_key (v : List α) (getKey : α → Nat) :
    isSortedUsingKey getKey v = true ↔ v.Pairwise fun a b => getKey a ≤ getKey b := by
  unfold isSortedUsingKey
  rw [isSortedUsingComparator_iff (compareByKey_trans getKey)]
  constructor <;> intro h <;> refine h.imp ?_ <;> simp [compareByKey]

/-- The contract of `std::sort` is satisfiable (by a merge sort), so the theorems above are not
vacuous. -/
example : StdSort (fun _ less l => l.mergeSort fun a b => !less b a) := by
  intro α less l hasymm htrans
  refine ⟨List.mergeSort_perm _ _, ?_⟩
  have := List.pairwise_mergeSort (le := fun a b => !less b a) ?_ ?_ l
  · refine this.imp ?_
    intro a b; simp
  · intro a b c; simp; exact fun h1 h2 => htrans a b c h1 h2
  · intro a b
    cases h : less b a
    · simp
    · simp [hasymm b a h]

/-- The stable sort permutation is unique: `StableSortPerm` determines `p`. -/
theorem C06_stable_sort_perm_unique (keys p q : List Nat) (hp : StableSortPerm keys p)
    (hq : StableSortPerm keys q) : p = q := by
  have hpp := isPerm_iff_perm.2 hp.1
  have hqq := isPerm_iff_perm.2 hq.1
  have perm : p.Perm q := by
    have h1 := hp.1; have h2 := hq.1
    unfold IsPermutation at h1 h2
    rw [hp.2.1] at h1; rw [hq.2.1] at h2
    exact h1.trans h2.symm
  let R : Nat → Nat → Prop := fun a b => keys.getD a 0 < keys.getD b 0 ∨
    (keys.getD a 0 = keys.getD b 0 ∧ a < b)
  have sorted : ∀ r, StableSortPerm keys r → r.Pairwise R := by
    intro r hr
    rw [List.pairwise_iff_getElem]
    intro i j hi hj hij
    have ha := (isPerm_iff_perm.2 hr.1).lt _ (List.getElem_mem hi)
    have hb := (isPerm_iff_perm.2 hr.1).lt _ (List.getElem_mem hj)
    rw [hr.2.1] at ha hb
    have := hr.2.2 i j r[i] r[j] keys[r[i]] keys[r[j]] hij (by simp [hi]) (by simp [hj])
      (by simp [ha]) (by simp [hb])
    simpa [R, List.getD_eq_getElem?_getD, ha, hb] using this
  refine List.Perm.eq_of_pairwise (le := R) ?_ (sorted p hp) (sorted q hq) perm
  intro a b _ _ h1 h2
  simp only [R] at h1 h2
  omega

end RK.Props
