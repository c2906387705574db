import Verif.Proof.Permutation
import Verif.Spec.Vector
/-! # Property theorems C04, C05 (permutation.h) -/
namespace RK.Props
open Spec

/-- C04. `is_permutation` never has undefined behaviour and accepts exactly the permutations. -/
theorem C04_is_permutation (p : List Nat) :
    ∃ b, isPermutation p = some b ∧ (b = true ↔ IsPermutation p) := by
  obtain ⟨b, hb⟩ := isPermutation_total p
  refine ⟨b, hb, ?_⟩
  unfold IsPermutation
  rw [← isPerm_iff_perm, ← isPermutation_iff, hb]
  simp

example : isPermutation [2, 0, 1] = some true ∧ isPermutation [2, 0, 2] = some false ∧
    isPermutation [3, 0, 1] = some false := by decide

/-- C04. `apply_permutation(p,v)` is `{v[p[0]], v[p[1]], …}`. -/
theorem C04_apply_permutation {α : Type} [Inhabited α] (p : List Nat) (v : List α)
    (hp : IsPermutation p) (hl : p.length = v.length) :
    ∃ r, applyPermutation p v = some r ∧ r.length = v.length ∧
      ∀ i k : Nat, p[i]? = some k → r[i]? = v[k]? :=
  applyPermutation_spec (isPerm_iff_perm.2 hp) hl

example : applyPermutation [2, 0, 1] [10, 11, 12] = some [12, 10, 11] := by decide

/-- C04. `apply_inverse_permutation(p,v)` puts `v[i]` at position `p[i]`. -/
theorem C04_apply_inverse_permutation {α : Type} [Inhabited α] (p : List Nat) (v : List α)
    (hp : IsPermutation p) (hl : p.length = v.length) :
    ∃ r, applyInversePermutation p v = some r ∧ r.length = v.length ∧
      ∀ i k : Nat, p[i]? = some k → r[k]? = v[i]? :=
  applyInversePermutation_spec (isPerm_iff_perm.2 hp) hl

example : applyInversePermutation [2, 0, 1] [10, 11, 12] = some [11, 12, 10] := by decide

/-- C04. Applying `p` and then its inverse (or vice versa) gives back the vector. -/
theorem C04_apply_roundtrip {α : Type} [Inhabited α] (p : List Nat) (v : List α)
    (hp : IsPermutation p) (hl : p.length = v.length) :
    (applyPermutation p v).bind (applyInversePermutation p) = some v ∧
    (applyInversePermutation p v).bind (applyPermutation p) = some v := by
  have hp' := isPerm_iff_perm.2 hp
  constructor
  · obtain ⟨r, e, h1, h2⟩ := applyPermutation_spec hp' hl
    obtain ⟨s, e', h3, h4⟩ := applyInversePermutation_spec (v := r) hp' (by omega)
    rw [e, Option.bind_some, e']
    congr 1
    apply list_ext_rd (by omega)
    intro j hj
    obtain ⟨i, hi, hij⟩ := hp'.surj (x := j) (by omega)
    rw [h4 i j hij, h2 i j hij]
  · obtain ⟨r, e, h1, h2⟩ := applyInversePermutation_spec hp' hl
    obtain ⟨s, e', h3, h4⟩ := applyPermutation_spec (v := r) hp' (by omega)
    rw [e, Option.bind_some, e']
    congr 1
    apply list_ext_rd (by omega)
    intro i hi
    obtain ⟨j, hij, _⟩ := hp'.rd (i := i) (by omega)
    rw [h4 i j hij, h2 i j hij]

/-- C04. `invert_permutation(p)` is the two-sided inverse, a permutation, and inverting twice
gives `p`. -/
theorem C04_invert_permutation (p : List Nat) (hp : IsPermutation p) :
    ∃ q, invertPermutation p = some q ∧ IsPermutation q ∧ AreInverse p q ∧
      invertPermutation q = some p := by
  have hp' := isPerm_iff_perm.2 hp
  obtain ⟨q, e, h1, h2, h3⟩ := invertPermutation_spec hp'
  obtain ⟨p', e', h1', h2', h3'⟩ := invertPermutation_spec h2
  have inv : ∀ i j : Nat, p[i]? = some j ↔ q[j]? = some i := by
    intro i j
    by_cases hi : i < p.length
    · exact (h3 i j hi).symm
    · constructor
      · intro h; exact absurd (rd_some_lt (v := p) h) hi
      · intro h
        have hj := rd_some_lt (v := q) h
        have := h2.lt i (List.mem_of_getElem? h)
        omega
  refine ⟨q, e, isPerm_iff_perm.1 h2, ⟨h1.symm, inv⟩, ?_⟩
  rw [e']
  congr 1
  apply list_ext_rd (by omega)
  intro i hi
  obtain ⟨j, hj, _⟩ := hp'.rd (i := i) (by omega)
  rw [hj]
  have hq := (inv i j).1 hj
  exact (h3' j i (rd_some_lt hq)).2 hq

example : invertPermutation [2, 0, 1] = some [1, 2, 0] := by decide

/-- C04. Applying the inverse permutation is the same as inverse-applying the permutation. -/
theorem C04_apply_inverse_eq_apply_invert {α : Type} [Inhabited α] (p : List Nat) (v : List α)
    (hp : IsPermutation p) (hl : p.length = v.length) :
    applyInversePermutation p v = (invertPermutation p).bind fun q => applyPermutation q v := by
  have hp' := isPerm_iff_perm.2 hp
  obtain ⟨q, e, h1, h2, h3⟩ := invertPermutation_spec hp'
  obtain ⟨r, e1, h4, h5⟩ := applyInversePermutation_spec hp' hl
  obtain ⟨s, e2, h6, h7⟩ := applyPermutation_spec (v := v) h2 (by omega)
  rw [e, Option.bind_some, e1, e2]
  congr 1
  apply list_ext_rd (by omega)
  intro j hj
  obtain ⟨i, hi, hij⟩ := hp'.surj (x := j) (by omega)
  rw [h5 i j hij, h7 j i ((h3 i j hi).2 hij)]

/-- C04. `chain_permutation_first_left_then_right(p,q)` is a permutation; applying it equals
applying first `p` and then `q`. -/
theorem C04_chain_permutation {α : Type} [Inhabited α] (p q : List Nat) (v : List α)
    (hp : IsPermutation p) (hq : IsPermutation q) (hl : p.length = q.length)
    (hv : p.length = v.length) :
    ∃ r, chainPermutation p q = some r ∧ IsPermutation r ∧ r.length = p.length ∧
      applyPermutation r v = (applyPermutation p v).bind (applyPermutation q) := by
  have hp' := isPerm_iff_perm.2 hp
  have hq' := isPerm_iff_perm.2 hq
  obtain ⟨r, e, h1, h2⟩ := chainPermutation_spec hp' hq' hl
  have hr := chainPermutation_isPerm hp' hq' hl e
  refine ⟨r, e, isPerm_iff_perm.1 hr, h1, ?_⟩
  obtain ⟨a, ea, ha1, ha2⟩ := applyPermutation_spec (v := v) hr (by omega)
  obtain ⟨b, eb, hb1, hb2⟩ := applyPermutation_spec (v := v) hp' (by omega)
  obtain ⟨c, ec, hc1, hc2⟩ := applyPermutation_spec (v := b) hq' (by omega)
  rw [ea, eb, Option.bind_some, ec]
  congr 1
  apply list_ext_rd (by omega)
  intro i hi
  obtain ⟨j, hj, hj'⟩ := hq'.rd (i := i) (by omega)
  obtain ⟨k, hk, hk'⟩ := hp'.rd (i := j) (by omega)
  rw [hc2 i j hj, hb2 j k hk, ha2 i k ((h2 i j hj).trans hk)]

example : chainPermutation [2, 0, 1] [1, 0, 2] = some [0, 2, 1] := by decide

/-- C04. `identity_permutation(n)` is `0,1,…,n-1`, a permutation that leaves every vector alone. -/
theorem C04_identity_permutation {α : Type} [Inhabited α] (v : List α) :
    ∃ p, identityPermutation v.length = some p ∧ p = List.range v.length ∧ IsPermutation p ∧
      applyPermutation p v = some v := by
  refine ⟨_, identityPermutation_eq _, rfl, isPerm_iff_perm.1 (isPerm_range _), ?_⟩
  obtain ⟨r, e, h1, h2⟩ := applyPermutation_spec (v := v) (isPerm_range v.length) (by simp)
  rw [e]
  congr 1
  apply list_ext_rd h1
  intro i hi
  exact h2 i i (List.getElem?_range (by omega))

/-- C04. `apply_permutation_to_elements_of` replaces every element `x` by `p[x]`. -/
theorem C04_apply_to_elements (p v : List Nat) (hp : IsPermutation p) (hv : ∀ x ∈ v, x < p.length) :
    ∃ r, applyPermutationToElementsOf p v = some r ∧ r.length = v.length ∧
      ∀ i x : Nat, v[i]? = some x → r[i]? = p[x]? :=
  applyPermutationToElementsOf_spec (isPerm_iff_perm.2 hp) hv

example : applyPermutationToElementsOf [2, 0, 1] [1, 1, 0, 2] = some [0, 0, 2, 1] := by decide

/-- C05 (holds for the in-place variant).
`inplace_apply_permutation_to_possibly_invalid_elements_of` maps every valid element and keeps
`invalid_id`. -/
theorem C05_inplace_possibly_invalid (p v : List Nat) (hp : IsPermutation p)
    (hv : ∀ x ∈ v, x < p.length ∨ x = invalidId) :
    ∃ r, inplaceApplyPermutationToPossiblyInvalidElementsOf p v = some r ∧
      r.length = v.length ∧
      ∀ i x : Nat, v[i]? = some x → r[i]? = if x = invalidId then some invalidId else p[x]? := by
  have hp' := isPerm_iff_perm.2 hp
  unfold inplaceApplyPermutationToPossiblyInvalidElementsOf
  rw [checkPerm_of hp']
  have hall : (v.all fun x => decide (x < p.length) || x == invalidId) = true := by
    simpa using hv
  simp only [Option.bind_eq_bind, Option.bind_some, hall, check_true]
  obtain ⟨r, e, h1, h2⟩ := fill_loop (n := v.length)
    (fun i => if (rd v i).getD 0 = invalidId then invalidId else (rd p ((rd v i).getD 0)).getD 0)
    (fun v i => (rd v i).bind fun vi =>
      if vi ≠ invalidId then (rd p vi).bind fun x => wr v i x else some v)
    v rfl
    (by
      intro r i hi hl hr
      rw [hr i (Nat.le_refl _)]
      obtain ⟨x, hx⟩ := rd_isSome (v := v) (i := i) hi
      have hx' := hv x (List.mem_of_getElem? hx)
      simp only [hx, Option.bind_some, Option.getD_some]
      by_cases hxi : x = invalidId
      · subst hxi
        have : rd r i = some invalidId := by rw [hr i (Nat.le_refl _)]; exact hx
        obtain ⟨h1, h2⟩ := rd_eq_some.1 this
        simp only [ne_eq, not_true_eq_false, if_false, if_true]
        rw [wr_lt h1]
        congr 1
        apply List.ext_getElem?
        intro j
        rw [List.getElem?_set]
        by_cases hij : i = j
        · subst hij; simp [h1]; exact h2
        · rw [if_neg hij]
      · rw [if_pos hxi, if_neg hxi]
        obtain ⟨y, hy⟩ := rd_isSome (v := p) (i := x) (by omega)
        simp [hy])
  refine ⟨r, e, h1, ?_⟩
  intro i x hx
  have hi := rd_some_lt (v := v) hx
  have := h2 i hi
  have hx' := hv x (List.mem_of_getElem? hx)
  rw [show rd v i = some x from hx, Option.getD_some] at this
  change rd r i = _
  rw [this]
  split
  · rfl
  · rename_i hne
    obtain ⟨y, hy⟩ := rd_isSome (v := p) (i := x) (by omega)
    rw [hy]; exact hy.symm

example : inplaceApplyPermutationToPossiblyInvalidElementsOf [1, 0] [0, invalidId, 1] =
    some [1, invalidId, 0] := by decide

/-- C05 (violated by the code). The non in-place variant does *not* satisfy the property: on an
admissible input with an invalid element the debug build fails an assertion and the release
build reads out of bounds. -/
theorem C05_possibly_invalid_violated :
    ∃ p v : List Nat, IsPermutation p ∧ (∀ x ∈ v, x < p.length ∨ x = invalidId) ∧
      applyPermutationToPossiblyInvalidElementsOf p v = none ∧
      applyPermutationToPossiblyInvalidElementsOfRelease p v = none :=
  ⟨[1, 0], [0, invalidId], by unfold IsPermutation; decide, by decide, by decide, by decide⟩

theorem release_loop (p : List Nat) : ∀ (rest done : List Nat),
    forN (fun v i => (rd v i).bind fun vi => (rd p vi).bind fun x => wr v i x) done.length rest.length (done ++ rest) =
      (rest.mapM fun x => rd p x).map (done ++ ·)
  | [], done => by simp [forN]
  | a :: rest, done => by
    have h1 : rd (done ++ a :: rest) done.length = some a := by unfold rd; simp
    rw [List.length_cons, forN, h1, Option.bind_some, List.mapM_cons]
    cases h : rd p a with
    | none => rfl
    | some y =>
      have h2 : wr (done ++ a :: rest) done.length y = some ((done ++ [y]) ++ rest) := by
        rw [wr_lt (by simp)]
        simp
      have ih := release_loop p rest (done ++ [y])
      rw [List.length_append, List.length_singleton] at ih
      simp only [Option.bind_some, h2, Option.bind_eq_bind]
      rw [ih]
      cases rest.mapM fun x => rd p x with
      | none => rfl
      | some r => simp

/-- C05, the release build without assertions: it replaces every element `x` by `p[x]`, and reads out of bounds exactly if an element is not below the number of
elements of `p`; in particular for every vector with an invalid element. -/
theorem C05_possibly_invalid_release (p v : List Nat) :
    ((∀ x ∈ v, x < p.length) → ∃ r, applyPermutationToPossiblyInvalidElementsOfRelease p v = some r ∧ r.length = v.length ∧
      ∀ i x : Nat, v[i]? = some x → r[i]? = p[x]?) ∧
    ((∃ x ∈ v, p.length ≤ x) → applyPermutationToPossiblyInvalidElementsOfRelease p v = none) := by
  have e : applyPermutationToPossiblyInvalidElementsOfRelease p v = v.mapM fun x => rd p x := by
    unfold applyPermutationToPossiblyInvalidElementsOfRelease forRange
    have h := release_loop p v []
    simp only [List.length_nil, List.nil_append, Option.map_id'] at h
    exact h
  rw [e]
  clear e
  constructor
  · intro hv
    induction v with
    | nil => exact ⟨[], rfl, rfl, by simp⟩
    | cons a v ih =>
      obtain ⟨y, hy⟩ := rd_isSome (v := p) (i := a) (hv a (List.mem_cons_self ..))
      obtain ⟨r, e, h1, h2⟩ := ih fun x hx => hv x (List.mem_cons_of_mem _ hx)
      refine ⟨y :: r, by rw [List.mapM_cons, hy, e]; rfl, by simp [h1], ?_⟩
      intro i x hx
      cases i with
      | zero =>
        cases hx
        exact hy.symm
      | succ i => exact h2 i x hx
  · rintro ⟨x, hx, hle⟩
    induction v with
    | nil => cases hx
    | cons a v ih =>
      rw [List.mapM_cons]
      cases hy : rd p a with
      | none => rfl
      | some y =>
        rcases List.mem_cons.1 hx with rfl | hx
        · have := (rd_eq_some.1 hy).1
          omega
        · rw [ih hx]
          rfl

example : applyPermutationToPossiblyInvalidElementsOfRelease [2, 0, 1] [1, 1, 0, 2] = some [0, 0, 2, 1] := by decide

/-- C05, strengthening of the violation: *every* admissible input that contains an invalid element
fails. -/
theorem C05_possibly_invalid_violated_always (p v : List Nat) (hinv : invalidId ∈ v)
    (hsize : p.length ≤ invalidId) :
    applyPermutationToPossiblyInvalidElementsOf p v = none := by
  unfold applyPermutationToPossiblyInvalidElementsOf inplaceApplyPermutationToElementsOf
  have hall : (v.all fun x => decide (x < p.length)) = false := by
    rw [List.all_eq_false]
    exact ⟨invalidId, hinv, by simpa using hsize⟩
  rw [hall]
  cases checkPerm p with
  | none => rfl
  | some u =>
    simp only [Option.bind_eq_bind, Option.bind_some]
    cases check (v.all fun x => decide (x < p.length) || x == invalidId) with
    | none => rfl
    | some u => rfl

/-- C05 (what remains true for the non in-place variant): on vectors *without* invalid elements it
maps every element. Missing for the full property: vectors that contain `invalid_id`. -/
theorem C05_possibly_invalid_partial (p v : List Nat) (hp : IsPermutation p)
    (hv : ∀ x ∈ v, x < p.length) :
    ∃ r, applyPermutationToPossiblyInvalidElementsOf p v = some r ∧ r.length = v.length ∧
      ∀ i x : Nat, v[i]? = some x → r[i]? = p[x]? := by
  have hp' := isPerm_iff_perm.2 hp
  unfold applyPermutationToPossiblyInvalidElementsOf inplaceApplyPermutationToElementsOf
  have hall : (v.all fun x => decide (x < p.length)) = true := by simpa using hv
  have hall2 : (v.all fun x => decide (x < p.length) || x == invalidId) = true := by
    simpa using fun x hx => Or.inl (hv x hx)
  rw [checkPerm_of hp', hall, hall2]
  simp only [Option.bind_eq_bind, Option.bind_some, check_true]
  obtain ⟨r, e, h1, h2⟩ := fill_loop (n := v.length)
    (fun i => (rd p ((rd v i).getD 0)).getD 0)
    (fun v i => (rd v i).bind fun vi => (rd p vi).bind fun x => wr v i x)
    v rfl
    (by
      intro r i hi hl hr
      rw [hr i (Nat.le_refl _)]
      obtain ⟨x, hx⟩ := rd_isSome (v := v) (i := i) hi
      obtain ⟨y, hy⟩ := rd_isSome (v := p) (i := x) (hv x (List.mem_of_getElem? hx))
      simp [hx, hy])
  refine ⟨r, e, h1, ?_⟩
  intro i x hx
  have := h2 i (rd_some_lt (v := v) hx)
  rw [show rd v i = some x from hx, Option.getD_some] at this
  obtain ⟨y, hy⟩ := rd_isSome (v := p) (i := x) (hv x (List.mem_of_getElem? hx))
  change rd r i = rd p x
  rw [this, hy]; rfl

example : applyPermutationToPossiblyInvalidElementsOf [1, 0] [0, 1, 1] = some [1, 0, 0] := by decide

end RK.Props
