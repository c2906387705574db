import Verif.Proof.Shuffle
import Verif.Props.PermuteNodes
/-! # Property theorems C94 (permutation.h, random permutations) -/
namespace RK.Props
open RK _root_.Spec

/-- What a generator may return: for each position behind the first a position up to it. -/
def Draws (n : Nat) (draw : Nat → Nat) : Prop := ∀ i, 1 ≤ i → i < n → draw i ≤ i

/-- C94. Whatever the random numbers are: `random_permutation` returns a permutation of the requested size. -/
theorem C94_is_permutation (n : Nat) (draw : Nat → Nat) (h : Draws n draw) :
    ∃ p, randomPermutation n draw = some p ∧ p.length = n ∧ IsPermutation p := by
  refine ⟨_, randomPermutation_eq h, shuffled_length _ _, ?_⟩
  unfold IsPermutation
  rw [shuffled_length]
  exact shuffled_perm _ _

/-- C94. Every permutation is the result of some random numbers, and different random numbers have different results: if the random numbers are independent
and uniformly distributed then all permutations are equally likely. -/
theorem C94_equally_likely (n : Nat) (p : List Nat) (hl : p.length = n) (hp : IsPermutation p) :
    ∃ draw, Draws n draw ∧ randomPermutation n draw = some p ∧
      ∀ draw', Draws n draw' → randomPermutation n draw' = some p → ∀ i, 1 ≤ i → i < n → draw' i = draw i := by
  subst hl
  obtain ⟨draw, h1, h2⟩ := shuffled_surj p.length hp
  have hd : Draws p.length draw := fun i _ _ => h1 i
  refine ⟨draw, hd, by rw [randomPermutation_eq hd, h2], ?_⟩
  intro draw' hd' he i hi1 hi2
  rw [randomPermutation_eq hd'] at he
  have he := Option.some.inj he
  -- the element at position 0 needs no random number
  let draw'' : Nat → Nat := fun i => if i = 0 then 0 else draw' i
  have e1 : shuffled draw'' p.length = shuffled draw' p.length := by
    have : ∀ k, 1 ≤ k → shuffled draw'' k = shuffled draw' k := by
      intro k hk
      induction k with
      | zero => omega
      | succ k ih =>
        by_cases hk0 : k = 0
        · subst hk0
          rw [shuffled_one, shuffled_one]
        · rw [shuffled, shuffled, ih (by omega)]
          simp only [draw'', if_neg hk0]
    exact this _ (by omega)
  have hd'' : ∀ i, i < p.length → draw'' i ≤ i := by
    intro i hi
    by_cases h0 : i = 0
    · simp [draw'', h0]
    · simp only [draw'', if_neg h0]
      exact hd' i (by omega) hi
  have := shuffled_inj hd'' (fun i _ => h1 i) (by rw [e1, he, h2]) i hi2
  simpa only [draw'', if_neg (show i ≠ 0 by omega)] using this

/-- C94. `randomly_permute_nodes` renumbers the graph whatever the seed and hence the random numbers are. -/
theorem C94_random_renumbering {stdSort : SortFn} (hs : StdSort stdSort) {n : Nat} {firstOut head : List Nat} {weights : List (List Nat)}
    (hg : IsCSR n firstOut head) (hne : head ≠ []) (hw : ∀ w ∈ weights, w.length = head.length) (draw : Nat → Nat) (h : Draws n draw) :
    ∃ nodePerm firstOut' head' weights' arcPerm, randomPermutation n draw = some nodePerm ∧
      permuteNodes stdSort nodePerm firstOut head weights = .ok (firstOut', head', weights') ∧
      IsCSR n firstOut' head' ∧ HeadsOrdered firstOut' head' ∧
      IsRenumbering nodePerm arcPerm firstOut head weights firstOut' head' weights' := by
  obtain ⟨p, e, hl, hp⟩ := C94_is_permutation n draw h
  obtain ⟨fo, hd, ws, ap, h1, h2⟩ := C67_renumbered hs hg hne hp hl hw
  exact ⟨p, fo, hd, ws, ap, e, h1, h2⟩

/-- Numbers that a generator may return, with their permutation; a position behind the end would be undefined behaviour. -/
example : Draws 4 (fun i => if i = 2 then 0 else i) ∧ randomPermutation 4 (fun i => if i = 2 then 0 else i) = some [2, 1, 0, 3] ∧
    randomPermutation 4 (fun i => i - 1) = some [1, 2, 3, 0] ∧ randomPermutation 4 (fun _ => 4) = none ∧
    IsPermutation [2, 1, 0, 3] := by
  refine ⟨?_, by decide, by decide, by decide, by unfold IsPermutation; decide⟩
  intro i _ _
  dsimp only
  split <;> omega

end RK.Props
