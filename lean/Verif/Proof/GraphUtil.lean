import Verif.Model.GraphUtil
import Verif.Proof.Sort
import Verif.Proof.Csr
/-! Helper lemmas for graph_util.cpp -/
namespace RK
open Spec

theorem lt_of_rd_perm {p : List Nat} (hp : IsPermutation p) {i a : Nat} (h : rd p i = some a) :
    a < p.length := (isPerm_iff_perm.2 hp).lt a (List.mem_of_getElem? h)

theorem lex_compose {a a' b p q r : List Nat} (hab : a.length = b.length)
    (hp : StableSortPerm b p) (ha' : ∀ i k, rd p i = some k → rd a' i = rd a k)
    (hq : StableSortPerm a' q) (hl' : a'.length = a.length)
    (hr : IsPermutation r) (hrl : r.length = a.length)
    (hrd : ∀ i k, rd q i = some k → rd r i = rd p k) : LexSortPerm a b r := by
  refine ⟨hr, hrl, ?_⟩
  intro i j x y la lb ra rb hij hx hy hla hlb hra hrb
  have hpl := hp.2.1
  have hql := hq.2.1
  have hi := rd_some_lt (v := r) hx
  have hj := rd_some_lt (v := r) hy
  obtain ⟨qi, hqi⟩ := rd_isSome (v := q) (i := i) (by omega)
  obtain ⟨qj, hqj⟩ := rd_isSome (v := q) (i := j) (by omega)
  have hpx : rd p qi = some x := (hrd i qi hqi).symm.trans hx
  have hpy : rd p qj = some y := (hrd j qj hqj).symm.trans hy
  have hax : rd a' qi = some la := (ha' qi x hpx).trans hla
  have hay : rd a' qj = some lb := (ha' qj y hpy).trans hlb
  rcases hq.2.2 i j qi qj la lb hij hqi hqj hax hay with h | ⟨h, h'⟩
  · exact Or.inl h
  · exact Or.inr ⟨h, hp.2.2 qi qj x y ra rb h' hpx hpy hra hrb⟩

theorem lex_sortPerm {a b r : List Nat} (hab : a.length = b.length) (h : LexSortPerm a b r) :
    SortPerm (a.map (fun x => x)) r := by
  refine ⟨h.1, by simpa using h.2.1, ?_⟩
  intro i j x y la lb hij hx hy hla hlb
  simp only [List.map_id_fun', id_eq] at hla hlb
  obtain ⟨ra, hra⟩ := rd_isSome (v := b) (i := x) (by have := rd_some_lt (v := a) hla; omega)
  obtain ⟨rb, hrb⟩ := rd_isSome (v := b) (i := y) (by have := rd_some_lt (v := a) hlb; omega)
  have := h.2.2 i j x y la lb ra rb hij hx hy hla hlb hra hrb
  omega

theorem lex_sorted {a b r a' : List Nat} (hab : a.length = b.length) (h : LexSortPerm a b r)
    (hl : a'.length = a.length) (hr : ∀ i k, rd r i = some k → rd a' i = rd a k) :
    isSortedUsingLess a' = true := by
  rw [isSortedUsingLess_iff]
  exact (perm_of_sortPerm hl (lex_sortPerm hab h) hr).2

theorem stable_key_id {v : List Nat} {n : Nat} (hv : ∀ x ∈ v, x < n) :
    ∃ p, computeStableSortPermutationUsingKey v n (fun x => x) = some p ∧ StableSortPerm v p := by
  obtain ⟨p, e, _, h⟩ := computeMaybeStable_spec (stdSort := noStdSort) (v := v) (kc := n)
    (gk := fun x => x) hv true (Or.inl rfl)
  exact ⟨p, e, by simpa using h rfl⟩

theorem inverse_stable_key_id {v : List Nat} {n : Nat} (hv : ∀ x ∈ v, x < n) :
    ∃ q p, computeInverseStableSortPermutationUsingKey v n (fun x => x) = some q ∧
      IsPermutation q ∧ AreInverse p q ∧ StableSortPerm v p := by
  obtain ⟨q, e, p, h1, h2, _, h⟩ := computeInverseMaybeStable_spec (stdSort := noStdSort) (v := v)
    (kc := n) (gk := fun x => x) hv true (Or.inl rfl)
  exact ⟨q, p, e, h2, h1, by simpa using h rfl⟩

theorem mem_of_apply {a a' p : List Nat} {n : Nat} (ha : ∀ x ∈ a, x < n)
    (hl : p.length = a.length) (hl' : a'.length = a.length)
    (h : ∀ i k, rd p i = some k → rd a' i = rd a k) : ∀ x ∈ a', x < n := by
  intro x hx
  obtain ⟨i, hi, e⟩ := List.getElem_of_mem hx
  obtain ⟨k, hk⟩ := rd_isSome (v := p) (i := i) (by omega)
  have h1 := h i k hk
  rw [rd_lt hi, e] at h1
  exact ha x (List.mem_of_getElem? h1.symm)

/-- Common part of the forward variants. -/
theorem lex_forward {aCount bCount : Nat} {a b : List Nat} (hab : a.length = b.length)
    (ha : ∀ x ∈ a, x < aCount) (hb : ∀ x ∈ b, x < bCount) :
    ∃ p a1 q a2 r, computeStableSortPermutationUsingKey b bCount (fun x => x) = some p ∧
      applyPermutation p a = some a1 ∧
      computeStableSortPermutationUsingKey a1 aCount (fun x => x) = some q ∧
      applyPermutation q a1 = some a2 ∧ chainPermutation p q = some r ∧
      LexSortPerm a b r ∧ a2.length = a.length ∧ ∀ i k, rd r i = some k → rd a2 i = rd a k := by
  obtain ⟨p, ep, hp⟩ := stable_key_id hb
  have hpp := isPerm_iff_perm.2 hp.1
  have hpl := hp.2.1
  obtain ⟨a1, ea1, hl1, h1⟩ := applyPermutation_spec (v := a) hpp (by omega)
  have ha1 := mem_of_apply ha (by omega) hl1 h1
  obtain ⟨q, eq, hq⟩ := stable_key_id ha1
  have hqq := isPerm_iff_perm.2 hq.1
  have hql := hq.2.1
  obtain ⟨a2, ea2, hl2, h2⟩ := applyPermutation_spec (v := a1) hqq (by omega)
  obtain ⟨r, er, hrl, hr⟩ := chainPermutation_spec hpp hqq (by omega)
  have hrp := chainPermutation_isPerm hpp hqq (by omega) er
  refine ⟨p, a1, q, a2, r, ep, ea1, eq, ea2, er, ?_, by omega, ?_⟩
  · exact lex_compose hab hp h1 hq hl1 (isPerm_iff_perm.1 hrp) (by omega) hr
  · intro i k hik
    obtain ⟨j, hj⟩ := rd_isSome (v := q) (i := i) (by have := rd_some_lt hik; omega)
    rw [h2 i j hj]
    apply h1
    rw [← hr i j hj, hik]

/-- Common part of the inverse variants. -/
theorem lex_inverse {aCount bCount : Nat} {a b : List Nat} (hab : a.length = b.length)
    (ha : ∀ x ∈ a, x < aCount) (hb : ∀ x ∈ b, x < bCount) :
    ∃ p a1 q a2 r r0, computeInverseStableSortPermutationUsingKey b bCount (fun x => x) = some p ∧
      applyInversePermutation p a = some a1 ∧
      computeInverseStableSortPermutationUsingKey a1 aCount (fun x => x) = some q ∧
      applyInversePermutation q a1 = some a2 ∧ chainPermutation q p = some r ∧
      IsPermutation r ∧ AreInverse r0 r ∧
      LexSortPerm a b r0 ∧ a2.length = a.length ∧ ∀ i k, rd r0 i = some k → rd a2 i = rd a k := by
  obtain ⟨p, p0, ep, hpP, hpinv, hp⟩ := inverse_stable_key_id hb
  have hpl0 := hp.2.1
  have hpl := hpinv.1
  have hpp := isPerm_iff_perm.2 hpP
  obtain ⟨a1, ea1, hl1, h1'⟩ := applyInversePermutation_spec (v := a) hpp (by omega)
  have h1 : ∀ i k, rd p0 i = some k → rd a1 i = rd a k :=
    fun i k h => h1' k i ((hpinv.2 i k).1 h)
  have ha1 := mem_of_apply ha (by omega) hl1 h1
  obtain ⟨q, q0, eq, hqP, hqinv, hq⟩ := inverse_stable_key_id ha1
  have hql0 := hq.2.1
  have hql := hqinv.1
  have hqq := isPerm_iff_perm.2 hqP
  obtain ⟨a2, ea2, hl2, h2'⟩ := applyInversePermutation_spec (v := a1) hqq (by omega)
  have h2 : ∀ i k, rd q0 i = some k → rd a2 i = rd a1 k :=
    fun i k h => h2' k i ((hqinv.2 i k).1 h)
  obtain ⟨r, er, hrl, hr⟩ := chainPermutation_spec hqq hpp (by omega)
  have hrp := chainPermutation_isPerm hqq hpp (by omega) er
  obtain ⟨r0, er0, hr0P, hr0inv⟩ := invert_areInverse (isPerm_iff_perm.1 hrp)
  have hr0l := hr0inv.1
  have hr0 : ∀ i k, rd q0 i = some k → rd r0 i = rd p0 k := by
    intro i k hik
    have h3 : rd q k = some i := (hqinv.2 i k).1 hik
    have hk := rd_some_lt h3
    obtain ⟨m, hm⟩ := rd_isSome (v := p0) (i := k) (by omega)
    have h4 : rd p m = some k := (hpinv.2 k m).1 hm
    have h5 := hr m k h4
    rw [h3] at h5
    rw [hm]
    exact (hr0inv.2 m i).1 h5
  refine ⟨p, a1, q, a2, r, r0, ep, ea1, eq, ea2, er, isPerm_iff_perm.1 hrp,
    areInverse_symm hr0inv, ?_, by omega, ?_⟩
  · exact lex_compose hab hp h1 hq hl1 hr0P (by omega) hr0
  · intro i k hik
    obtain ⟨j, hj⟩ := rd_isSome (v := q0) (i := i) (by have := rd_some_lt hik; omega)
    rw [h2 i j hj]
    apply h1
    rw [← hr0 i j hj, hik]

/-! ### find_arc -/

theorem findArcLoop_spec {head : List Nat} {y : Nat} : ∀ {n xy : Nat}, xy + n ≤ head.length →
    (∃ a, findArcLoop head y n xy = some a ∧ xy ≤ a ∧ a < xy + n ∧ rd head a = some y ∧
      ∀ b, xy ≤ b → b < a → rd head b ≠ some y) ∨
    (findArcLoop head y n xy = some invalidId ∧ ∀ b, xy ≤ b → b < xy + n → rd head b ≠ some y)
  | 0, xy, _ => Or.inr ⟨rfl, fun b h1 h2 => by omega⟩
  | n + 1, xy, h => by
    unfold findArcLoop
    obtain ⟨x, hx⟩ := rd_isSome (v := head) (i := xy) (by omega)
    simp only [hx, Option.bind_eq_bind, Option.bind_some]
    by_cases hxy : x = y
    · left
      refine ⟨xy, by rw [if_pos hxy], Nat.le_refl _, by omega, by rw [hx, hxy], ?_⟩
      intro b h1 h2; omega
    · rw [if_neg hxy]
      rcases findArcLoop_spec (head := head) (y := y) (n := n) (xy := xy + 1) (by omega) with
        ⟨a, h1, h2, h3, h4, h5⟩ | ⟨h1, h2⟩
      · left
        refine ⟨a, h1, by omega, by omega, h4, ?_⟩
        intro b hb1 hb2
        by_cases hb : b = xy
        · subst hb; rw [hx]; simpa using hxy
        · exact h5 b (by omega) hb2
      · right
        refine ⟨h1, ?_⟩
        intro b hb1 hb2
        by_cases hb : b = xy
        · subst hb; rw [hx]; simpa using hxy
        · exact h2 b (by omega) (by omega)

theorem convertScan_spec {head : List Nat} {y : Nat} : ∀ {n xy : Nat}, xy + n ≤ head.length →
    (∃ b, xy ≤ b ∧ b < xy + n ∧ rd head b = some y) →
    ∃ a, convertScan head y n xy = some a ∧ xy ≤ a ∧ a < xy + n ∧ rd head a = some y
  | 0, xy, _, ⟨b, h1, h2, _⟩ => by omega
  | n + 1, xy, h, ⟨b, h1, h2, h3⟩ => by
    unfold convertScan
    obtain ⟨x, hx⟩ := rd_isSome (v := head) (i := xy) (by omega)
    simp only [hx, Option.bind_eq_bind, Option.bind_some]
    by_cases hxy : x = y
    · exact ⟨xy, by rw [if_pos hxy], Nat.le_refl _, by omega, by rw [hx, hxy]⟩
    · rw [if_neg hxy]
      have hb : b ≠ xy := by
        rintro rfl
        rw [hx] at h3
        exact hxy (by injection h3)
      obtain ⟨a, e1, e2, e3, e4⟩ := convertScan_spec (n := n) (xy := xy + 1) (by omega)
        ⟨b, by omega, by omega, h3⟩
      exact ⟨a, e1, by omega, by omega, e4⟩

theorem lowerBound_spec {head : List Nat} {y lo n : Nat} (h : lo + n ≤ head.length)
    (hs : ∀ i j a b, lo ≤ i → i ≤ j → j < lo + n → rd head i = some a → rd head j = some b → a ≤ b) :
    ∃ pos, lowerBound head y lo n = some pos ∧ lo ≤ pos ∧ pos ≤ lo + n ∧
      (∀ i x, lo ≤ i → i < pos → rd head i = some x → x < y) ∧
      (∀ i x, pos ≤ i → i < lo + n → rd head i = some x → y ≤ x) := by
  induction n using Nat.strongRecOn generalizing lo with
  | _ n ih =>
    unfold lowerBound
    by_cases hn : n = 0
    · subst hn
      exact ⟨lo, by simp, Nat.le_refl _, by omega, fun i x h1 h2 => by omega,
        fun i x h1 h2 => by omega⟩
    · rw [dif_neg hn]
      obtain ⟨x, hx⟩ := rd_isSome (v := head) (i := lo + n / 2) (by omega)
      simp only [hx, Option.bind_eq_bind, Option.bind_some]
      by_cases hxy : x < y
      · rw [if_pos hxy]
        obtain ⟨pos, e, h1, h2, h3, h4⟩ := ih (n - n / 2 - 1) (by omega) (lo := lo + n / 2 + 1)
          (by omega) (fun i j a b h1 h2 h3 => hs i j a b (by omega) h2 (by omega))
        refine ⟨pos, e, by omega, by omega, ?_, ?_⟩
        · intro i z hi1 hi2 hz
          by_cases hi : lo + n / 2 + 1 ≤ i
          · exact h3 i z hi hi2 hz
          · have := hs i (lo + n / 2) z x hi1 (by omega) (by omega) hz hx
            omega
        · intro i z hi1 hi2 hz
          exact h4 i z hi1 (by omega) hz
      · rw [if_neg hxy]
        obtain ⟨pos, e, h1, h2, h3, h4⟩ := ih (n / 2) (by omega) (lo := lo)
          (by omega) (fun i j a b h1 h2 h3 => hs i j a b h1 h2 (by omega))
        refine ⟨pos, e, by omega, by omega, h3, ?_⟩
        intro i z hi1 hi2 hz
        by_cases hi : i < lo + n / 2
        · exact h4 i z hi1 hi hz
        · have := hs (lo + n / 2) i x z (by omega) (by omega) hi2 hx hz
          omega

theorem convertArcPathLoop_spec {head : List Nat} :
    ∀ {n : Nat} {path : List Nat}, n + 1 < path.length →
      (∀ i a, 1 ≤ i → i ≤ n → rd path i = some a → a < head.length) →
      ∃ r, convertArcPathLoop head n path = some r ∧ r.length = path.length ∧
        (∀ i a, 1 ≤ i → i ≤ n → rd path i = some a → rd r (i + 1) = rd head a) ∧
        (∀ i, (i < 2 ∨ n + 1 < i) → rd r i = rd path i)
  | 0, path, _, _ => ⟨path, rfl, rfl, fun i a h1 h2 => by omega, fun i _ => rfl⟩
  | n + 1, path, h, hh => by
    unfold convertArcPathLoop
    obtain ⟨a, ha⟩ := rd_isSome (v := path) (i := n + 1) (by omega)
    obtain ⟨x, hx⟩ := rd_isSome (v := head) (i := a) (hh (n + 1) a (by omega) (by omega) ha)
    have hlt : n + 2 < path.length := by omega
    simp only [ha, hx, Option.bind_eq_bind, Option.bind_some, wr_lt hlt]
    obtain ⟨r, e, h1, h2, h3⟩ := convertArcPathLoop_spec (head := head) (n := n)
      (path := path.set (n + 2) x) (by simp; omega)
      (by
        intro i b hi1 hi2 hb
        rw [rd_set hlt, if_neg (by omega)] at hb
        exact hh i b hi1 (by omega) hb)
    refine ⟨r, e, by simpa using h1, ?_, ?_⟩
    · intro i b hi1 hi2 hb
      by_cases hi : i = n + 1
      · subst hi
        rw [h3 (n + 1 + 1) (Or.inr (by omega)), rd_set hlt, if_pos rfl]
        rw [ha] at hb; cases hb
        exact hx.symm
      · apply h2 i b hi1 (by omega)
        rw [rd_set hlt, if_neg (by omega)]; exact hb
    · intro i hi
      rw [h3 i (by omega), rd_set hlt, if_neg (by omega)]

end RK
