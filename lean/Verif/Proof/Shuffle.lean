import Verif.Model.Shuffle
import Verif.Proof.Permutation
import Verif.Spec.Vector
/-! Helper lemmas: the shuffle. -/
namespace RK
open Spec

/-- Exchanging the last element with the one at position `d`. -/
def swapLast (l : List Nat) (x d : Nat) : List Nat :=
  if h : d < l.length then l.set d x ++ [l[d]] else l ++ [x]

theorem swapLast_length (l : List Nat) (x d : Nat) : (swapLast l x d).length = l.length + 1 := by
  unfold swapLast
  split <;> simp

theorem swapAt_last {l r : List Nat} {x d : Nat} (hd : d ≤ l.length) : swapAt (l ++ x :: r) l.length d = some (swapLast l x d ++ r) := by
  unfold swapAt swapLast
  have h1 : rd (l ++ x :: r) l.length = some x := by unfold rd; simp
  rw [h1]
  by_cases h : d < l.length
  · have h2 : rd (l ++ x :: r) d = some l[d] := by unfold rd; rw [List.getElem?_append_left h]; simp
    simp only [h2, Option.bind_eq_bind, Option.bind_some, dif_pos h]
    rw [wr_lt (by simp)]
    simp only [Option.bind_some]
    rw [wr_lt (by simp; omega)]
    congr 1
    rw [List.set_append_right _ _ (Nat.le_refl _)]
    simp only [Nat.sub_self, List.set_cons_zero]
    rw [List.set_append_left _ _ h]
    simp
  · have hd' : d = l.length := by omega
    subst hd'
    simp only [h1, Option.bind_eq_bind, Option.bind_some, dif_neg h]
    rw [wr_lt (by simp)]
    simp only [Option.bind_some]
    rw [wr_lt (by simp)]
    congr 1
    simp [List.set_append_right]

theorem set_perm {l : List Nat} {d : Nat} (h : d < l.length) (x : Nat) : (l.set d x ++ [l[d]]).Perm (l ++ [x]) := by
  have e : l = l.take d ++ l[d] :: l.drop (d + 1) := by simp
  have e2 : l.set d x = l.take d ++ x :: l.drop (d + 1) := by
    rw [List.set_eq_take_append_cons_drop, if_pos h]
  rw [e2]
  conv => rhs; rw [e]
  rw [List.append_assoc, List.append_assoc]
  refine List.Perm.append_left _ ?_
  rw [List.cons_append, List.cons_append]
  refine (List.Perm.cons x List.perm_append_comm).trans ?_
  refine List.Perm.trans ?_ (List.Perm.cons l[d] List.perm_append_comm.symm)
  exact List.Perm.swap _ _ _

theorem swapLast_perm (l : List Nat) (x d : Nat) : (swapLast l x d).Perm (l ++ [x]) := by
  unfold swapLast
  split
  · next h => exact set_perm h x
  · exact List.Perm.refl _

/-- The position of the new element. -/
theorem swapLast_pos {l : List Nat} {x d : Nat} (hd : d ≤ l.length) (hx : x ∉ l) (i : Nat) : (swapLast l x d)[i]? = some x ↔ i = d := by
  unfold swapLast
  split
  · next h =>
    rw [List.getElem?_append]
    split
    · next hi =>
      rw [List.length_set] at hi
      rw [List.getElem?_set]
      constructor
      · intro e
        by_contra hne
        rw [if_neg (fun e => hne e.symm)] at e
        exact hx (List.mem_of_getElem? e)
      · rintro rfl
        rw [if_pos rfl, if_pos h]
    · next hi =>
      rw [List.length_set] at hi ⊢
      constructor
      · intro e
        have := List.mem_of_getElem? e
        simp only [List.mem_singleton] at this
        exact absurd (this ▸ List.getElem_mem h) hx
      · rintro rfl
        omega
  · next h =>
    have : d = l.length := by omega
    subst this
    rw [List.getElem?_append]
    split
    · next hi =>
      constructor
      · intro e
        exact absurd (List.mem_of_getElem? e) hx
      · rintro rfl
        omega
    · next hi =>
      constructor
      · intro e
        have := (List.getElem?_eq_some_iff.1 e).1
        simp at this
        omega
      · rintro rfl
        simp

theorem swapLast_inj {l l' : List Nat} {x d d' : Nat} (hl : l.length = l'.length) (hd : d ≤ l.length) (hd' : d' ≤ l'.length) (hx : x ∉ l) (hx' : x ∉ l')
    (h : swapLast l x d = swapLast l' x d') : d = d' ∧ l = l' := by
  have e : d = d' := by
    have := (swapLast_pos hd hx d).2 rfl
    rw [h] at this
    exact (swapLast_pos hd' hx' d).1 this
  subst e
  refine ⟨rfl, ?_⟩
  unfold swapLast at h
  by_cases hlt : d < l.length
  · rw [dif_pos hlt, dif_pos (by omega)] at h
    obtain ⟨h1, h2⟩ := List.append_inj h (by simpa using hl)
    simp only [List.cons.injEq, and_true] at h2
    apply List.ext_getElem hl
    intro i hi hi'
    by_cases hid : i = d
    · subst hid
      exact h2
    · have := congrArg (fun z : List Nat => z[i]?) h1
      rw [List.getElem?_set_ne (fun e => hid e.symm), List.getElem?_set_ne (fun e => hid e.symm), List.getElem?_eq_getElem hi, List.getElem?_eq_getElem hi'] at this
      exact Option.some.inj this
  · rw [dif_neg hlt, dif_neg (by omega)] at h
    exact (List.append_inj h hl).1

/-- Every list with `x` in it is the result of an exchange. -/
theorem swapLast_surj {p : List Nat} {x d : Nat} (hd : p[d]? = some x) : ∃ l, l.length + 1 = p.length ∧ d ≤ l.length ∧ swapLast l x d = p := by
  obtain ⟨hlt, he⟩ := List.getElem?_eq_some_iff.1 hd
  have hne : p ≠ [] := by intro e; subst e; simp at hlt
  obtain ⟨q, y, rfl⟩ : ∃ q y, p = q ++ [y] := ⟨p.dropLast, p.getLast hne, (List.dropLast_append_getLast hne).symm⟩
  simp only [List.length_append, List.length_singleton] at hlt
  by_cases h : d < q.length
  · refine ⟨q.set d y, by simp, by simp; omega, ?_⟩
    unfold swapLast
    rw [dif_pos (by simpa using h)]
    rw [List.getElem_append_left h] at he
    simp only [List.set_set, List.getElem_set_self]
    rw [← he, List.set_getElem_self]
  · have : d = q.length := by omega
    subst this
    simp at he
    subst he
    refine ⟨q, by simp, Nat.le_refl _, ?_⟩
    unfold swapLast
    rw [dif_neg (by omega)]

/-- The first `k` elements after the exchanges for the positions below `k`. -/
def shuffled (draw : Nat → Nat) : Nat → List Nat
  | 0 => []
  | k + 1 => swapLast (shuffled draw k) k (draw k)

theorem shuffled_length (draw : Nat → Nat) : ∀ k, (shuffled draw k).length = k
  | 0 => rfl
  | k + 1 => by
    rw [shuffled, swapLast_length, shuffled_length draw k]

theorem shuffled_perm (draw : Nat → Nat) : ∀ k, (shuffled draw k).Perm (List.range k)
  | 0 => List.Perm.refl _
  | k + 1 => by
    rw [shuffled, List.range_succ]
    exact (swapLast_perm _ _ _).trans (List.Perm.append_right _ (shuffled_perm draw k))

theorem shuffled_not_mem (draw : Nat → Nat) (k : Nat) : k ∉ shuffled draw k := by
  intro h
  have := (shuffled_perm draw k).mem_iff.1 h
  simp at this

theorem shuffled_congr {draw draw' : Nat → Nat} : ∀ {k : Nat}, (∀ i, i < k → draw i = draw' i) → shuffled draw k = shuffled draw' k
  | 0, _ => rfl
  | k + 1, h => by
    rw [shuffled, shuffled, shuffled_congr (fun i hi => h i (by omega)), h k (by omega)]

theorem shuffled_inj {draw draw' : Nat → Nat} : ∀ {k : Nat}, (∀ i, i < k → draw i ≤ i) → (∀ i, i < k → draw' i ≤ i) →
    shuffled draw k = shuffled draw' k → ∀ i, i < k → draw i = draw' i
  | 0, _, _, _, _, hi => by omega
  | k + 1, h, h', he, i, hi => by
    rw [shuffled, shuffled] at he
    obtain ⟨e1, e2⟩ := swapLast_inj (by rw [shuffled_length, shuffled_length]) (by rw [shuffled_length]; exact h k (by omega))
      (by rw [shuffled_length]; exact h' k (by omega)) (shuffled_not_mem _ _) (shuffled_not_mem _ _) he
    by_cases hik : i = k
    · rw [hik]; exact e1
    · exact shuffled_inj (fun i hi => h i (by omega)) (fun i hi => h' i (by omega)) e2 i (by omega)

theorem shuffled_surj : ∀ (k : Nat) {p : List Nat}, p.Perm (List.range k) → ∃ draw, (∀ i, draw i ≤ i) ∧ shuffled draw k = p
  | 0, p, h => ⟨fun _ => 0, fun _ => Nat.zero_le _, by
    have : p = [] := by simpa using h.length_eq
    rw [this]; rfl⟩
  | k + 1, p, h => by
    have hm : k ∈ p := h.mem_iff.2 (by simp)
    obtain ⟨d, hd⟩ := List.getElem?_of_mem hm
    obtain ⟨l, h1, h2, h3⟩ := swapLast_surj hd
    have hlen : l.length = k := by have := h.length_eq; simp at this; omega
    have hl : l.Perm (List.range k) := by
      have := (swapLast_perm l k d).symm.trans (h3 ▸ h)
      rw [List.range_succ] at this
      exact (List.perm_append_right_iff _).1 this
    obtain ⟨draw, q1, q2⟩ := shuffled_surj k hl
    refine ⟨fun i => if i = k then d else draw i, ?_, ?_⟩
    · intro i
      simp only
      split
      · omega
      · exact q1 i
    · rw [shuffled, shuffled_congr (draw' := draw) (fun i hi => if_neg (by omega)), q2]
      simpa using h3

theorem shuffle_forN {draw : Nat → Nat} {n : Nat} (hd : ∀ i, 1 ≤ i → i < n → draw i ≤ i) : ∀ (m k : Nat), 1 ≤ k → k + m = n →
    forN (fun v i => swapAt v i (draw i)) k m (shuffled draw k ++ List.range' k m) = some (shuffled draw n)
  | 0, k, _, h => by
    have : k = n := by omega
    subst this
    simp [forN]
  | m + 1, k, hk, h => by
    rw [forN, List.range'_succ]
    have := swapAt_last (l := shuffled draw k) (r := List.range' (k + 1) m) (x := k) (d := draw k)
      (by rw [shuffled_length]; exact hd k hk (by omega))
    rw [shuffled_length] at this
    rw [this, Option.bind_some]
    exact shuffle_forN hd m (k + 1) (by omega) (by omega)

theorem shuffled_one (draw : Nat → Nat) : shuffled draw 1 = [0] := by
  rw [shuffled, shuffled]
  unfold swapLast
  rw [dif_neg (by simp)]
  rfl

theorem randomPermutation_eq {draw : Nat → Nat} {n : Nat} (hd : ∀ i, 1 ≤ i → i < n → draw i ≤ i) :
    randomPermutation n draw = some (shuffled draw n) := by
  unfold randomPermutation stdShuffle
  simp only [identityPermutation_eq, Option.bind_eq_bind, Option.bind_some, List.length_range]
  cases n with
  | zero => rfl
  | succ n =>
    unfold forRange
    have := shuffle_forN hd n 1 (Nat.le_refl _) (by omega)
    rw [shuffled_one] at this
    rw [← this]
    congr 1
    rw [List.range_eq_range', List.range'_succ]
    rfl

end RK
