import Verif.Proof.Chordal
import Verif.Proof.GraphUtil
import Verif.Proof.InverseVector
import Verif.Proof.Filter
import Verif.Proof.IdMapper
import Verif.Proof.BitVectorResize
/-! Helper lemmas: the up graph of a customizable contraction hierarchy and the mapping of input arcs. -/
namespace RK
open Spec BitVector

/-! ### Sorted arc lists -/

/-- The arcs `(t', h')` are the arcs `(t, h)` listed in lexicographic order; position `i` holds arc `r[i]`. -/
structure Sorted2 (t h t' h' r : List Nat) : Prop where
  perm : IsPerm r
  len : r.length = t.length
  lenT : t'.length = t.length
  lenH : h'.length = t.length
  lenH0 : h.length = t.length
  tail : ∀ i k, rd r i = some k → rd t' i = rd t k
  head : ∀ i k, rd r i = some k → rd h' i = rd h k
  le : ∀ i j ti tj hi hj, i < j → rd t' i = some ti → rd t' j = some tj → rd h' i = some hi →
    rd h' j = some hj → ti < tj ∨ (ti = tj ∧ hi ≤ hj)

theorem sorted2_of_lex {t h t' h' r : List Nat} (hl : t.length = h.length) (hr : LexSortPerm t h r)
    (l1 : t'.length = t.length) (l2 : h'.length = t.length)
    (e1 : ∀ i k, rd r i = some k → rd t' i = rd t k) (e2 : ∀ i k, rd r i = some k → rd h' i = rd h k) :
    Sorted2 t h t' h' r := by
  have hp := isPerm_iff_perm.2 hr.1
  refine ⟨hp, hr.2.1, l1, l2, hl.symm, e1, e2, ?_⟩
  intro i j ti tj hi hj hij a1 a2 a3 a4
  obtain ⟨k, hk⟩ := rd_isSome (v := r) (i := i) (by have := rd_some_lt a1; have := hr.2.1; omega)
  obtain ⟨m, hm⟩ := rd_isSome (v := r) (i := j) (by have := rd_some_lt a2; have := hr.2.1; omega)
  rw [e1 i k hk] at a1
  rw [e2 i k hk] at a3
  rw [e1 j m hm] at a2
  rw [e2 j m hm] at a4
  rcases hr.2.2 i j k m ti tj hi hj hij hk hm a1 a2 a3 a4 with h1 | ⟨h1, h2 | ⟨h2, _⟩⟩
  · exact Or.inl h1
  · exact Or.inr ⟨h1, by omega⟩
  · exact Or.inr ⟨h1, by omega⟩

theorem mem_lt_of_rd {v : List Nat} {n : Nat} (h : ∀ x ∈ v, x < n) {i x : Nat} (e : rd v i = some x) : x < n :=
  h x (List.mem_of_getElem? e)

theorem mem_iff_rd {α : Type} {v : List α} {x : α} : x ∈ v ↔ ∃ i, rd v i = some x := by
  constructor
  · intro h
    obtain ⟨i, hi, e⟩ := List.getElem_of_mem h
    exact ⟨i, rd_eq_some.2 ⟨hi, e⟩⟩
  · rintro ⟨i, h⟩; exact List.mem_of_getElem? h

namespace Sorted2
variable {t h t' h' r : List Nat}

theorem hasArc (s : Sorted2 t h t' h' r) (x y : Nat) : HasArc t' h' x y ↔ HasArc t h x y := by
  constructor
  · rintro ⟨i, e1, e2⟩
    obtain ⟨k, hk⟩ := rd_isSome (v := r) (i := i) (by have := rd_some_lt e1; have := s.lenT; have := s.len; omega)
    exact ⟨k, by rw [← s.tail i k hk]; exact e1, by rw [← s.head i k hk]; exact e2⟩
  · rintro ⟨k, e1, e2⟩
    obtain ⟨i, _, hi⟩ := s.perm.surj (x := k) (by have := rd_some_lt e1; have := s.len; omega)
    exact ⟨i, by rw [s.tail i k hi]; exact e1, by rw [s.head i k hi]; exact e2⟩

theorem pairwise (s : Sorted2 t h t' h' r) : t'.Pairwise (· ≤ ·) := by
  rw [List.pairwise_iff_getElem]
  intro i j hi hj hij
  obtain ⟨x, hx⟩ := rd_isSome (v := h') (i := i) (by have := s.lenT; have := s.lenH; omega)
  obtain ⟨y, hy⟩ := rd_isSome (v := h') (i := j) (by have := s.lenT; have := s.lenH; omega)
  rcases s.le i j _ _ x y hij (rd_lt hi) (rd_lt hj) hx hy with h | ⟨h, _⟩ <;> omega

theorem lt_tail (s : Sorted2 t h t' h' r) {n : Nat} (ht : ∀ x ∈ t, x < n) : ∀ x ∈ t', x < n :=
  mem_of_apply ht s.len s.lenT s.tail

theorem lt_head (s : Sorted2 t h t' h' r) {n : Nat} (hh : ∀ x ∈ h, x < n) : ∀ x ∈ h', x < n := by
  have := s.len; have := s.lenH; have := s.lenH0
  exact mem_of_apply hh (by omega) (by omega) s.head

/-- If no pair occurs twice, the sorted pairs increase strictly. -/
theorem strict (s : Sorted2 t h t' h' r)
    (hd : ∀ a b x y, rd t a = some x → rd h a = some y → rd t b = some x → rd h b = some y → a = b) :
    SortedArcs t' h' := by
  refine ⟨by rw [s.lenT, s.lenH], ?_⟩
  intro a b ta tb ha hb hab e1 e2 e3 e4
  rcases s.le a b ta tb ha hb hab e1 e2 e3 e4 with h1 | ⟨h1, h2⟩
  · exact Or.inl h1
  · rcases Nat.lt_or_eq_of_le h2 with h2 | h2
    · exact Or.inr ⟨h1, h2⟩
    · exfalso
      subst h1; subst h2
      obtain ⟨k, hk⟩ := rd_isSome (v := r) (i := a) (by have := rd_some_lt e1; have := s.lenT; have := s.len; omega)
      obtain ⟨m, hm⟩ := rd_isSome (v := r) (i := b) (by have := rd_some_lt e2; have := s.lenT; have := s.len; omega)
      rw [s.tail a k hk] at e1
      rw [s.head a k hk] at e3
      rw [s.tail b m hm] at e2
      rw [s.head b m hm] at e4
      have := hd k m _ _ e1 e3 e2 e4
      subst this
      have := s.perm.inj hk hm
      omega

end Sorted2

/-- Sorting arcs with the inverse permutation. -/
theorem sortInv_spec {n : Nat} {t h : List Nat} (hl : t.length = h.length) (ht : ∀ x ∈ t, x < n) (hh : ∀ x ∈ h, x < n) :
    ∃ p t' h' r, computeInverseSortPermutationFirstByTailThenByHeadAndApplySortToTail n t h = some (p, t') ∧
      applyInversePermutation p h = some h' ∧ Sorted2 t h t' h' r ∧
      ∀ v : List Nat, v.length = t.length → ∃ v', applyInversePermutation p v = some v' ∧ v'.length = v.length ∧
        ∀ i k, rd r i = some k → rd v' i = rd v k := by
  obtain ⟨p0, a1, q, a2, p, r, e1, e2, e3, e4, e5, h0, h1, h2, h3, h4⟩ := lex_inverse hl ht hh
  have hp := isPerm_iff_perm.2 h0
  have hpl : p.length = t.length := by rw [← h1.1]; exact h2.2.1
  have happ : ∀ v : List Nat, v.length = t.length → ∃ v', applyInversePermutation p v = some v' ∧ v'.length = v.length ∧
        ∀ i k, rd r i = some k → rd v' i = rd v k := by
    intro v hv
    obtain ⟨v', e, hl', hv'⟩ := applyInversePermutation_spec (v := v) hp (by omega)
    exact ⟨v', e, hl', fun i k hik => hv' k i ((h1.2 i k).1 hik)⟩
  obtain ⟨h', eh, hlh, hh'⟩ := happ h hl.symm
  refine ⟨p, a2, h', r, ?_, eh, sorted2_of_lex hl h2 h3 (by omega) h4 hh', happ⟩
  simp [computeInverseSortPermutationFirstByTailThenByHeadAndApplySortToTail,
    computeInverseSortPermutationFirstByLeftThenByRightAndApplySortToLeft, e1, e2, e3, e4, e5,
    lex_sorted hl h2 h3 h4]

/-- Sorting arcs with the permutation itself. -/
theorem sortFwd_spec {n : Nat} {t h : List Nat} (hl : t.length = h.length) (ht : ∀ x ∈ t, x < n) (hh : ∀ x ∈ h, x < n) :
    ∃ r t' h', computeSortPermutationFirstByTailThenByHeadAndApplySortToTail n t h = some (r, t') ∧
      applyPermutation r h = some h' ∧ Sorted2 t h t' h' r := by
  obtain ⟨p, a1, q, a2, r, e1, e2, e3, e4, e5, h1, h2, h3⟩ := lex_forward hl ht hh
  have hp := isPerm_iff_perm.2 h1.1
  have hrl := h1.2.1
  obtain ⟨h', eh, hlh, hh'⟩ := applyPermutation_spec (v := h) hp (by omega)
  refine ⟨r, a2, h', ?_, eh, sorted2_of_lex hl h1 h2 (by omega) h3 hh'⟩
  simp [computeSortPermutationFirstByTailThenByHeadAndApplySortToTail,
    computeSortPermutationFirstByLeftThenByRightAndApplySortToLeft, e1, e2, e3, e4, e5,
    lex_sorted hl h1 h2 h3]

namespace SortedArcs
variable {t h : List Nat}

theorem inj (s : SortedArcs t h) {a b x y : Nat} (h1 : rd t a = some x) (h2 : rd h a = some y)
    (h3 : rd t b = some x) (h4 : rd h b = some y) : a = b := by
  rcases Nat.lt_trichotomy a b with hab | hab | hab
  · rcases s.2 a b x x y y hab h1 h3 h2 h4 with h' | ⟨_, h'⟩ <;> omega
  · exact hab
  · rcases s.2 b a x x y y hab h3 h1 h4 h2 with h' | ⟨_, h'⟩ <;> omega

theorem pairwise (s : SortedArcs t h) : t.Pairwise (· ≤ ·) := by
  rw [List.pairwise_iff_getElem]
  intro i j hi hj hij
  obtain ⟨x, hx⟩ := rd_isSome (v := h) (i := i) (by have := s.1; omega)
  obtain ⟨y, hy⟩ := rd_isSome (v := h) (i := j) (by have := s.1; omega)
  rcases s.2 i j _ _ x y hij (rd_lt hi) (rd_lt hj) hx hy with h | ⟨h, _⟩ <;> omega

/-- Arcs are numbered in lexicographic order. -/
theorem mono (s : SortedArcs t h) {a b x y x' y' : Nat} (h1 : rd t a = some x) (h2 : rd h a = some y)
    (h3 : rd t b = some x') (h4 : rd h b = some y') (hle : x < x' ∨ (x = x' ∧ y ≤ y')) : a ≤ b := by
  rcases Nat.lt_or_ge b a with hab | hab
  · rcases s.2 b a x' x y' y hab h3 h1 h4 h2 with h' | ⟨_, h'⟩ <;> omega
  · exact hab

end SortedArcs

/-- `fo` is the index of the sorted list `t`. -/
def IsIdx (n : Nat) (t fo : List Nat) : Prop := fo.length = n + 1 ∧ ∀ i, i ≤ n → rd fo i = some (cLt t i)

theorem cLt_range {t : List Nat} (hs : t.Pairwise (· ≤ ·)) {a x : Nat} :
    rd t a = some x ↔ cLt t x ≤ a ∧ a < cLt t (x + 1) := by
  constructor
  · intro h
    have h1 := sorted_cLt (k := x) hs h
    have h2 := sorted_cLt (k := x + 1) hs h
    omega
  · rintro ⟨h1, h2⟩
    have := cLt_le_length t (x + 1)
    obtain ⟨y, hy⟩ := rd_isSome (v := t) (i := a) (by omega)
    have h3 := sorted_cLt (k := x) hs hy
    have h4 := sorted_cLt (k := x + 1) hs hy
    have : y = x := by omega
    rw [hy, this]

/-! ### Making the graph symmetric -/

theorem at_replicate_false (n i : Nat) : at' (List.replicate n false) i = false := by
  rcases Nat.lt_or_ge i n with h | h
  · rw [at_lt (by simpa using h)]; simp
  · exact at_ge (by simpa using h)

theorem at_cons_zero (b : Bool) (B : List Bool) : at' (b :: B) 0 = b := by simp [at']
theorem at_cons_succ (b : Bool) (B : List Bool) (i : Nat) : at' (b :: B) (i + 1) = at' B i := by simp [at']

theorem rk_cons (b : Bool) (B : List Bool) (i : Nat) :
    rk (at' (b :: B)) (i + 1) = (if b then 1 else 0) + rk (at' B) i := by
  rw [Nat.add_comm i 1, rk_add, rk_succ]
  have : rk (at' (b :: B)) 0 = 0 := by simp [rk]
  rw [this, at_cons_zero]
  simp only [Nat.zero_add]
  congr 1
  apply rk_congr
  intro j _
  rw [Nat.add_comm, at_cons_succ]

theorem pick_cons {α : Type} (b : Bool) (B : List Bool) (x : α) (xs : List α) :
    pick true (b :: B) (x :: xs) = if b then x :: pick true B xs else pick true B xs := by
  unfold pick
  cases b <;> simp

theorem pick_nil {α : Type} (B : List Bool) : pick true B ([] : List α) = [] := by
  unfold pick; simp

/-- The element with number `i` is found at the number of kept elements before it. -/
theorem pick_rk {α : Type} : ∀ {B : List Bool} {xs : List α} {i : Nat}, B.length = xs.length → at' B i = true →
    rd (pick true B xs) (rk (at' B) i) = rd xs i
  | [], xs, i, _, h => by simp [at'] at h
  | b :: B, [], i, hl, _ => by simp at hl
  | b :: B, x :: xs, 0, hl, h => by
    rw [at_cons_zero] at h
    subst h
    rw [pick_cons]
    simp [rk, rd]
  | b :: B, x :: xs, i + 1, hl, h => by
    rw [at_cons_succ] at h
    rw [rk_cons, pick_cons]
    have ih := pick_rk (xs := xs) (by simpa using hl) h
    cases b
    · simpa [rd] using ih
    · simp only [if_true]
      rw [Nat.add_comm]
      simpa [rd] using ih

theorem pick_length {α : Type} : ∀ {B : List Bool} {xs : List α}, B.length = xs.length →
    (pick true B xs).length = B.count true
  | [], xs, hl => by
    cases xs
    · rfl
    · simp at hl
  | b :: B, [], hl => by simp at hl
  | b :: B, x :: xs, hl => by
    rw [pick_cons]
    have ih := pick_length (B := B) (xs := xs) (by simpa using hl)
    cases b
    · simpa using ih
    · simpa using ih

/-- Every kept element comes from a position. -/
theorem pick_pos {α : Type} {B : List Bool} {xs : List α} (hl : B.length = xs.length) {j : Nat} {x : α}
    (h : rd (pick true B xs) j = some x) : ∃ i, at' B i = true ∧ rk (at' B) i = j ∧ rd xs i = some x := by
  have hj := rd_some_lt h
  rw [pick_length hl] at hj
  have : B.count true = rk (at' B) B.length := (countP_at B B.length (Nat.le_refl _)).symm
  rw [this] at hj
  obtain ⟨i, _, h1, h2⟩ := sel_exists hj
  exact ⟨i, h1, h2, by rw [← pick_rk hl h1, h2]; exact h⟩

theorem hasArc_pick {B : List Bool} {t h : List Nat} (h1 : B.length = t.length) (h2 : B.length = h.length) (x y : Nat) :
    HasArc (pick true B t) (pick true B h) x y ↔ ∃ i, at' B i = true ∧ rd t i = some x ∧ rd h i = some y := by
  constructor
  · rintro ⟨j, e1, e2⟩
    obtain ⟨i, a1, a2, a3⟩ := pick_pos h1 e1
    obtain ⟨i', b1, b2, b3⟩ := pick_pos h2 e2
    have : i = i' := Sel.unique (f := at' B) ⟨a1, a2⟩ ⟨b1, b2⟩
    subst this
    exact ⟨i, a1, a3, b3⟩
  · rintro ⟨i, a1, a2, a3⟩
    exact ⟨rk (at' B) i, by rw [pick_rk h1 a1]; exact a2, by rw [pick_rk h2 a1]; exact a3⟩

theorem hasArc_append {t h t2 h2 : List Nat} (hl : t.length = h.length) (x y : Nat) :
    HasArc (t ++ t2) (h ++ h2) x y ↔ HasArc t h x y ∨ HasArc t2 h2 x y := by
  constructor
  · rintro ⟨a, e1, e2⟩
    rcases rd_append.1 e1 with e1 | ⟨la, e1⟩
    · have := rd_some_lt e1
      rcases rd_append.1 e2 with e2 | ⟨_, e2⟩
      · exact Or.inl ⟨a, e1, e2⟩
      · omega
    · rcases rd_append.1 e2 with e2 | ⟨_, e2⟩
      · have := rd_some_lt e2; omega
      · exact Or.inr ⟨a - t.length, e1, by rw [hl]; exact e2⟩
  · rintro (⟨a, e1, e2⟩ | ⟨a, e1, e2⟩)
    · exact ⟨a, rd_append.2 (Or.inl e1), rd_append.2 (Or.inl e2)⟩
    · refine ⟨t.length + a, rd_append.2 (Or.inr ⟨by omega, ?_⟩), rd_append.2 (Or.inr ⟨by omega, ?_⟩)⟩
      · rw [show t.length + a - t.length = a by omega]; exact e1
      · rw [show t.length + a - h.length = a by omega]; exact e2

theorem rd_congr_some {v : List Nat} {i x y : Nat} (h1 : rd v i = some x) (h2 : rd v i = some y) : x = y := by
  rw [h1] at h2; cases h2; rfl

/-- In a lexicographically sorted list, every pair has a first occurrence, which is its only occurrence
differing from its predecessor. -/
theorem first_occurrence {t h : List Nat} {i x y : Nat} (h1 : rd t i = some x) (h2 : rd h i = some y) :
    ∃ j, rd t j = some x ∧ rd h j = some y ∧ ∀ k, k < j → ¬ (rd t k = some x ∧ rd h k = some y) := by
  classical
  have hex : ∃ j, rd t j = some x ∧ rd h j = some y := ⟨i, h1, h2⟩
  refine ⟨Nat.find hex, (Nat.find_spec hex).1, (Nat.find_spec hex).2, fun k hk => Nat.find_min hex hk⟩

theorem symmetrize_spec {n : Nat} {tail head : List Nat} (hl : tail.length = head.length) (ht : ∀ x ∈ tail, x < n)
    (hh : ∀ x ∈ head, x < n) (hsz : 2 * tail.length < 2 ^ 32) (junk : Nat → Word) :
    ∃ t h, symmetrize n tail head junk = some (t, h) ∧ t.length = h.length ∧ (∀ x ∈ t, x < n) ∧ (∀ x ∈ h, x < n) ∧
      ∀ x y, HasArc t h x y ↔ x ≠ y ∧ (HasArc tail head x y ∨ HasArc tail head y x) := by
  have c0 : decide (mul32 2 tail.length = 2 * tail.length) = true := by
    rw [decide_eq_true_eq]
    exact Nat.mod_eq_of_lt hsz
  have hl1 : (tail ++ head).length = (head ++ tail).length := by simp [hl]
  have b1 : ∀ x ∈ tail ++ head, x < n := by
    intro x hx; rcases List.mem_append.1 hx with h | h
    · exact ht x h
    · exact hh x h
  have b2 : ∀ x ∈ head ++ tail, x < n := by
    intro x hx; rcases List.mem_append.1 hx with h | h
    · exact hh x h
    · exact ht x h
  obtain ⟨p, t, h, r, e1, e2, s, _⟩ := sortInv_spec hl1 b1 b2
  have hlen : t.length = 2 * tail.length := by rw [s.lenT]; simp; omega
  have hlenh : h.length = 2 * tail.length := by rw [s.lenH]; simp; omega
  obtain ⟨f0, e3, B0, r0, hB0⟩ : ∃ f0, BitVector.newUninit (2 * tail.length) junk = some f0 ∧
      ∃ B0, f0.Rep B0 ∧ B0.length = 2 * tail.length := by
    obtain ⟨v, B, e, hr, hB⟩ := BitVector.rep_newUninit (n := 2 * tail.length)
      (by simp [u64] at *; omega) junk
    exact ⟨v, e, B, hr, hB⟩
  let cond : Nat → Bool := fun i =>
    decide ((i = 0 ∨ (fn h i ≠ fn h (i - 1) ∨ fn t i ≠ fn t (i - 1))) ∧ fn t i ≠ fn h i)
  have hf1 : ∃ f1, markFirst tail t h f0 = some f1 ∧
      ∃ B1, f1.Rep B1 ∧ B1.length = 2 * tail.length ∧ (0 < 2 * tail.length → at' B1 0 = cond 0) := by
    unfold markFirst
    by_cases hz : tail.length = 0
    · exact ⟨f0, by rw [if_neg (by simpa using hz)], B0, r0, hB0, fun h => by omega⟩
    · rw [if_pos hz]
      obtain ⟨f1, ef, hf⟩ := r0.setTo (x := 0) (by omega) (decide (fn t 0 ≠ fn h 0))
      refine ⟨f1, ?_, _, hf, by simpa using hB0, ?_⟩
      · simp only [rd_fn (v := t) (x := 0) (by omega), rd_fn (v := h) (x := 0) (by omega), Option.bind_eq_bind, Option.bind_some]
        exact ef
      · intro _
        rw [at_set (by omega)]
        simp [cond]
  obtain ⟨f1, e4, B1, r1, hB1, hc1⟩ := hf1
  obtain ⟨f2, e5, B2, r2, hB2, hc2⟩ := forRange_inv (lo := 1) (hi := max 1 (2 * tail.length)) (s := f1)
    (f := fun (filter : BitVector) i => (rd t i).bind fun ti => (rd h i).bind fun hi => (rd t (i - 1)).bind fun tp =>
      (rd h (i - 1)).bind fun hp => filter.setTo i (decide ((hi ≠ hp ∨ ti ≠ tp) ∧ ti ≠ hi)))
    (fun k f => ∃ B, f.Rep B ∧ B.length = 2 * tail.length ∧ ∀ i, i < k → i < 2 * tail.length → at' B i = cond i)
    (by omega)
    ⟨B1, r1, hB1, by intro i hi hi'; have : i = 0 := by omega
                     subst this; exact hc1 hi'⟩
    (by
      rintro k f hk1 hk ⟨B, rB, hB, hc⟩
      obtain ⟨f', ef, hf⟩ := rB.setTo (x := k) (by omega)
        (decide ((fn h k ≠ fn h (k - 1) ∨ fn t k ≠ fn t (k - 1)) ∧ fn t k ≠ fn h k))
      refine ⟨f', ?_, _, hf, by simpa using hB, ?_⟩
      · simp only [rd_fn (v := t) (x := k) (by omega), rd_fn (v := h) (x := k) (by omega),
          rd_fn (v := t) (x := k - 1) (by omega), rd_fn (v := h) (x := k - 1) (by omega), Option.bind_some]
        exact ef
      · intro i hi hi'
        rw [at_set (by omega)]
        by_cases hik : i = k
        · subst hik
          rw [if_pos rfl]
          have : i ≠ 0 := by omega
          simp [cond, this]
        · rw [if_neg hik]; exact hc i (by omega) hi')
  have e5' : forRange 1 (2 * tail.length) f1 (fun (filter : BitVector) i => (rd t i).bind fun ti => (rd h i).bind fun hi => (rd t (i - 1)).bind fun tp =>
      (rd h (i - 1)).bind fun hp => filter.setTo i (decide ((hi ≠ hp ∨ ti ≠ tp) ∧ ti ≠ hi))) = some f2 := by
    rw [← e5]
    unfold forRange
    congr 1
    omega
  have hcond : ∀ i, i < 2 * tail.length → at' B2 i = cond i := fun i hi => hc2 i (by omega) hi
  have hBt : B2.length = t.length := by omega
  have hBh : B2.length = h.length := by omega
  refine ⟨pick true B2 t, pick true B2 h, ?_, ?_, ?_, ?_, ?_⟩
  · unfold symmetrize
    simp only [c0, check_true, Option.bind_eq_bind, Option.bind_some, e1, e2, e3, e4]
    rw [e5']
    simp only [Option.bind_some, inplaceKeep, inplaceFilter_spec r2 true t hBt, inplaceFilter_spec r2 true h hBh]
  · rw [pick_length hBt, pick_length hBh]
  · intro x hx
    obtain ⟨j, hj⟩ := mem_iff_rd.1 hx
    obtain ⟨i, _, _, hi⟩ := pick_pos hBt hj
    exact mem_lt_of_rd (s.lt_tail b1) hi
  · intro x hx
    obtain ⟨j, hj⟩ := mem_iff_rd.1 hx
    obtain ⟨i, _, _, hi⟩ := pick_pos hBh hj
    exact mem_lt_of_rd (s.lt_head b2) hi
  · intro x y
    have hsym : HasArc (tail ++ head) (head ++ tail) x y ↔ HasArc tail head x y ∨ HasArc tail head y x := by
      rw [hasArc_append hl]
      constructor
      · rintro (h | ⟨a, h1, h2⟩)
        · exact Or.inl h
        · exact Or.inr ⟨a, h2, h1⟩
      · rintro (h | ⟨a, h1, h2⟩)
        · exact Or.inl h
        · exact Or.inr ⟨a, h2, h1⟩
    rw [hasArc_pick hBt hBh, ← hsym, ← s.hasArc]
    constructor
    · rintro ⟨i, a1, a2, a3⟩
      refine ⟨?_, i, a2, a3⟩
      rw [hcond i (by have := rd_some_lt a2; omega)] at a1
      simp only [cond, decide_eq_true_eq, fn_of_rd a2, fn_of_rd a3] at a1
      exact a1.2
    · rintro ⟨hne, i, a2, a3⟩
      obtain ⟨j, b2, b3, hmin⟩ := first_occurrence a2 a3
      have hj := rd_some_lt b2
      refine ⟨j, ?_, b2, b3⟩
      rw [hcond j (by omega)]
      simp only [cond, decide_eq_true_eq, fn_of_rd b2, fn_of_rd b3]
      refine ⟨?_, hne⟩
      by_cases hj0 : j = 0
      · exact Or.inl hj0
      · right
        by_contra hc
        apply hmin (j - 1) (by omega)
        have d1 : x = fn t (j - 1) := by by_contra h'; exact hc (Or.inr h')
        have d2 : y = fn h (j - 1) := by by_contra h'; exact hc (Or.inl h')
        exact ⟨by rw [d1]; exact rd_fn (by omega), by rw [d2]; exact rd_fn (by omega)⟩

/-! ### The up graph -/

/-- The up graph: sorted arcs with their index. -/
structure UpOk (n : Nat) (fo head tail : List Nat) : Prop where
  sorted : SortedArcs tail head
  up : ∀ x y, HasArc tail head x y → x < y ∧ y < n
  idx : IsIdx n tail fo

theorem UpOk.tail_lt {n : Nat} {fo head tail : List Nat} (u : UpOk n fo head tail) : ∀ x ∈ tail, x < n := by
  intro x hx
  obtain ⟨i, hi⟩ := mem_iff_rd.1 hx
  obtain ⟨y, hy⟩ := rd_isSome (v := head) (i := i) (by have := rd_some_lt hi; have := u.sorted.1; omega)
  have := u.up x y ⟨i, hi, hy⟩
  omega

theorem UpOk.head_lt {n : Nat} {fo head tail : List Nat} (u : UpOk n fo head tail) : ∀ x ∈ head, x < n := by
  intro y hy
  obtain ⟨i, hi⟩ := mem_iff_rd.1 hy
  obtain ⟨x, hx⟩ := rd_isSome (v := tail) (i := i) (by have := rd_some_lt hi; have := u.sorted.1; omega)
  exact (u.up x y ⟨i, hx, hi⟩).2

theorem buildUp_spec {n : Nat} {tail head : List Nat} {E : Nat → Nat → Prop}
    (hl : tail.length = head.length) (ht : ∀ x ∈ tail, x < n) (hh : ∀ x ∈ head, x < n)
    (hE : ∀ x y, E x y → E y x) (hEI : ∀ x y, x < y → (E x y ↔ HasArc tail head x y)) :
    ∃ fo h t, UpOk n fo h t ∧ FillOk n E (HasArc t h) ∧
      buildUp n tail head = if t.length ≤ invalidId then some (fo, h, t) else none := by
  obtain ⟨t0, h0, s0, hlt, hfill, ec⟩ := chordalSupergraph_spec hl ht hh hE hEI
  have bt : ∀ x ∈ t0, x < n := by
    intro x hx
    obtain ⟨i, hi⟩ := mem_iff_rd.1 hx
    obtain ⟨y, hy⟩ := rd_isSome (v := h0) (i := i) (by have := rd_some_lt hi; have := s0.1; omega)
    obtain ⟨h1, h2, _⟩ := hfill.sound x y ⟨i, hi, hy⟩
    omega
  have bh : ∀ x ∈ h0, x < n := by
    intro y hy
    obtain ⟨i, hi⟩ := mem_iff_rd.1 hy
    obtain ⟨x, hx⟩ := rd_isSome (v := t0) (i := i) (by have := rd_some_lt hi; have := s0.1; omega)
    exact hlt x y ⟨i, hx, hi⟩
  obtain ⟨p, t, h, r, e1, e2, s, _⟩ := sortInv_spec s0.1 bt bh
  have hst := s.strict (fun a b x y h1 h2 h3 h4 => s0.inj h1 h2 h3 h4)
  obtain ⟨fo, e3, hfo, hfo'⟩ := invertVector_spec s.pairwise (s.lt_tail bt)
  have hU : ∀ x y, HasArc t h x y ↔ HasArc t0 h0 x y := s.hasArc
  refine ⟨fo, h, t, ⟨hst, ?_, hfo, hfo'⟩, ?_, ?_⟩
  · intro x y hxy
    obtain ⟨h1, h2, _⟩ := hfill.sound x y ((hU x y).1 hxy)
    exact ⟨h1, h2⟩
  · refine ⟨hE, fun x y h1 h2 => (hU x y).2 (hfill.base x y h1 h2),
      fun x y hxy => hfill.sound x y ((hU x y).1 hxy), ?_⟩
    intro x a b h1 h2 h3 h4
    exact (hU a b).2 (hfill.low x a b ((hU x a).1 h1) ((hU x b).1 h2)
      (fun c hc => h3 c ((hU x c).2 hc)) h4)
  · unfold buildUp
    rw [ec, s.lenT]
    by_cases hk : t0.length ≤ invalidId
    · rw [if_pos hk, if_pos hk]
      simp only [Option.bind_eq_bind, Option.bind_some, e1, e2, e3]
    · rw [if_neg hk, if_neg hk]
      rfl

/-! ### Mapping input arcs -/

theorem seekArc_spec {t h : List Nat} (s : SortedArcs t h) {x y b : Nat} (h1 : rd t b = some x) (h2 : rd h b = some y) :
    ∀ (fuel a : Nat), a ≤ b → b < a + fuel → seekArc t h x y fuel a = some b
  | 0, a, h3, h4 => by omega
  | fuel + 1, a, h3, h4 => by
    have hb := rd_some_lt h1
    have hl := s.1
    unfold seekArc
    simp only [rd_fn (v := t) (x := a) (by omega), rd_fn (v := h) (x := a) (by omega), Option.bind_eq_bind,
      Option.bind_some]
    by_cases hab : a = b
    · subst hab
      rw [if_neg (by rw [fn_of_rd h1, fn_of_rd h2]; simp)]
    · have : x ≠ fn t a ∨ y ≠ fn h a := by
        by_contra hc
        simp only [not_or, ne_eq, Decidable.not_not] at hc
        exact hab (s.inj (a := a) (b := b) (x := x) (y := y) (by rw [hc.1]; exact rd_fn (by omega))
          (by rw [hc.2]; exact rd_fn (by omega)) h1 h2)
      rw [if_pos this]
      have c : decide (a < h.length) = true := by simp; omega
      simp only [c, check_true, Option.bind_some]
      exact seekArc_spec s h1 h2 fuel (a + 1) (by omega) (by omega)

/-- What is known about the mapping of input arc `i` from `t` to `h`. -/
def MapAt (upTail upHead m : List Nat) (U : List Bool) (i t h : Nat) : Prop :=
  (t = h → rd m i = some invalidId) ∧
  (t < h → ∃ a, rd m i = some a ∧ rd upTail a = some t ∧ rd upHead a = some h ∧ at' U i = true) ∧
  (h < t → ∃ a, rd m i = some a ∧ rd upTail a = some h ∧ rd upHead a = some t ∧ at' U i = false)

theorem mapUp_spec {n : Nat} {upTail upHead tail head ids : List Nat} (s : SortedArcs upTail upHead)
    (hl : tail.length = head.length) (hids : IsPerm ids) (hli : ids.length = tail.length)
    (hle : ∀ i j ti tj hi hj, i < j → rd tail i = some ti → rd tail j = some tj → rd head i = some hi →
      rd head j = some hj → ti < tj ∨ (ti = tj ∧ hi ≤ hj))
    (hex : ∀ i t h, rd tail i = some t → rd head i = some h → t < h → HasArc upTail upHead t h)
    {m0 : List Nat} (hm0 : m0.length = tail.length) {u0 : BitVector} {U0 : List Bool} (hu0 : u0.Rep U0)
    (hU0 : U0.length = tail.length) (hU0' : ∀ i, at' U0 i = false) (hn : n = n) :
    ∃ c m u U, forRange 0 tail.length (0, m0, u0) (mapUpStep upTail upHead tail head ids) = some (c, m, u) ∧
      m.length = tail.length ∧ u.Rep U ∧ U.length = tail.length ∧
      ∀ j i t h, rd ids j = some i → rd tail j = some t → rd head j = some h →
        (t = h → rd m i = some invalidId) ∧ (t < h → ∃ a, rd m i = some a ∧ rd upTail a = some t ∧ rd upHead a = some h) ∧
        (at' U i = decide (t < h)) := by
  obtain ⟨⟨c, m, u⟩, e, ⟨h1, U, h2, h3, h4, h5⟩, _⟩ := forRange_inv (lo := 0) (hi := tail.length) (s := (0, m0, u0))
    (f := mapUpStep upTail upHead tail head ids)
    (fun k st => (st.2.1.length = tail.length ∧ ∃ U, st.2.2.Rep U ∧ U.length = tail.length ∧
      (∀ j i t h, j < k → rd ids j = some i → rd tail j = some t → rd head j = some h →
        (t = h → rd st.2.1 i = some invalidId) ∧
        (t < h → ∃ a, rd st.2.1 i = some a ∧ rd upTail a = some t ∧ rd upHead a = some h) ∧
        (at' U i = decide (t < h))) ∧
      (∀ j i, k ≤ j → rd ids j = some i → at' U i = false)) ∧
      ∀ j t h b, k ≤ j → rd tail j = some t → rd head j = some h → rd upTail b = some t → rd upHead b = some h →
        st.1 ≤ b) (Nat.zero_le _)
    ⟨⟨hm0, U0, hu0, hU0, fun j i t h hj => absurd hj (Nat.not_lt_zero j), fun _ i _ _ => hU0' i⟩,
      fun _ _ _ _ _ _ _ _ _ => Nat.zero_le _⟩
    (by
      rintro k ⟨c, m, u⟩ _ hk ⟨⟨g1, U, g2, g3, g4, g5⟩, g6⟩
      have g1 : m.length = tail.length := g1
      obtain ⟨t, et⟩ := rd_isSome (v := tail) hk
      obtain ⟨h, eh⟩ := rd_isSome (v := head) (i := k) (by omega)
      obtain ⟨i, ei⟩ := rd_isSome (v := ids) (i := k) (by omega)
      have hi : i < tail.length := by have := hids.lt i (List.mem_of_getElem? ei); omega
      have g6' : ∀ j t h b, k + 1 ≤ j → rd tail j = some t → rd head j = some h → rd upTail b = some t →
          rd upHead b = some h → c ≤ b := fun j t h b hj => g6 j t h b (by omega)
      unfold mapUpStep
      simp only [et, eh, Option.bind_eq_bind, Option.bind_some]
      by_cases hth : t < h
      · rw [if_pos hth]
        obtain ⟨b, b1, b2⟩ := hex k t h et eh hth
        have hcb := g6 k t h b (Nat.le_refl _) et eh b1 b2
        have hb := rd_some_lt b1
        rw [seekArc_spec s b1 b2 (upTail.length + 1) c hcb (by omega)]
        simp only [Option.bind_some, ei, wr_lt (v := m) (i := i) (x := b) (by omega)]
        obtain ⟨u', eu, hu'⟩ := g2.set (x := i) (by omega)
        rw [eu]
        refine ⟨(b, m.set i b, u'), by simp only [Option.bind_some], ⟨by simpa using g1, _, hu', by simpa using g3, ?_, ?_⟩, ?_⟩
        · intro j i' t' h' hj ej et' eh'
          show (t' = h' → rd (m.set i b) i' = _) ∧ (t' < h' → ∃ a, rd (m.set i b) i' = _ ∧ _) ∧ _
          rw [rd_set (by omega), at_set (by omega)]
          by_cases hjk : j = k
          · subst hjk
            cases (ei.symm.trans ej : some i = some i')
            cases (et.symm.trans et' : some t = some t')
            cases (eh.symm.trans eh' : some h = some h')
            refine ⟨fun h' => by omega, fun _ => ⟨b, by rw [if_pos rfl], b1, b2⟩, ?_⟩
            rw [if_pos rfl]; simp [hth]
          · have hii : i' ≠ i := by
              intro hc; subst hc; exact hjk (hids.inj ej ei)
            rw [if_neg hii, if_neg hii]
            exact g4 j i' t' h' (by omega) ej et' eh'
        · intro j i' hj ej
          rw [at_set (by omega), if_neg (by intro hc; subst hc; have := hids.inj ej ei; omega)]
          exact g5 j i' (by omega) ej
        · intro j t' h' b' hj et' eh' c1 c2
          exact s.mono b1 b2 c1 c2 (hle k j t t' h h' (by omega) et et' eh eh')
      · rw [if_neg hth]
        by_cases hte : t = h
        · rw [if_pos hte]
          simp only [Option.bind_some, ei, wr_lt (v := m) (i := i) (x := invalidId) (by omega)]
          refine ⟨(c, m.set i invalidId, u), rfl, ⟨by simpa using g1, U, g2, g3, ?_, ?_⟩, g6'⟩
          · intro j i' t' h' hj ej et' eh'
            show (t' = h' → rd (m.set i invalidId) i' = _) ∧ (t' < h' → ∃ a, rd (m.set i invalidId) i' = _ ∧ _) ∧ _
            rw [rd_set (by omega)]
            by_cases hjk : j = k
            · subst hjk
              cases (ei.symm.trans ej : some i = some i')
              cases (et.symm.trans et' : some t = some t')
              cases (eh.symm.trans eh' : some h = some h')
              refine ⟨fun _ => by rw [if_pos rfl], fun h' => by omega, ?_⟩
              rw [g5 j i (Nat.le_refl _) ej]; simp [hth]
            · have hii : i' ≠ i := by
                intro hc; subst hc; exact hjk (hids.inj ej ei)
              rw [if_neg hii]
              exact g4 j i' t' h' (by omega) ej et' eh'
          · intro j i' hj ej; exact g5 j i' (by omega) ej
        · rw [if_neg hte]
          refine ⟨(c, m, u), rfl, ⟨g1, U, g2, g3, ?_, fun j i' hj ej => g5 j i' (by omega) ej⟩, g6'⟩
          intro j i' t' h' hj ej et' eh'
          by_cases hjk : j = k
          · subst hjk
            cases (ei.symm.trans ej : some i = some i')
            cases (et.symm.trans et' : some t = some t')
            cases (eh.symm.trans eh' : some h = some h')
            refine ⟨fun h' => absurd h' hte, fun h' => absurd h' hth, ?_⟩
            rw [g5 j i (Nat.le_refl _) ej]; simp [hth]
          · exact g4 j i' t' h' (by omega) ej et' eh')
  exact ⟨c, m, u, U, e, h1, h2, h3, fun j i t h ej et eh => h4 j i t h (rd_some_lt et) ej et eh⟩

theorem mapDown_spec {upTail upHead tail head ids : List Nat} (s : SortedArcs upTail upHead)
    (hl : tail.length = head.length) (hids : IsPerm ids) (hli : ids.length = tail.length)
    (hle : ∀ i j ti tj hi hj, i < j → rd tail i = some ti → rd tail j = some tj → rd head i = some hi →
      rd head j = some hj → ti < tj ∨ (ti = tj ∧ hi ≤ hj))
    (hex : ∀ i t h, rd tail i = some t → rd head i = some h → t < h → HasArc upTail upHead t h)
    {m0 : List Nat} (hm0 : m0.length = tail.length) :
    ∃ c m, forRange 0 tail.length (0, m0) (mapDownStep upTail upHead tail head ids) = some (c, m) ∧
      m.length = tail.length ∧
      ∀ j i t h, rd ids j = some i → rd tail j = some t → rd head j = some h →
        (t < h → ∃ a, rd m i = some a ∧ rd upTail a = some t ∧ rd upHead a = some h) ∧
        (h ≤ t → rd m i = rd m0 i) := by
  obtain ⟨⟨c, m⟩, e, ⟨h1, h4, _⟩, _⟩ := forRange_inv (lo := 0) (hi := tail.length) (s := (0, m0))
    (f := mapDownStep upTail upHead tail head ids)
    (fun k st => (st.2.length = tail.length ∧
      (∀ j i t h, j < k → rd ids j = some i → rd tail j = some t → rd head j = some h →
        (t < h → ∃ a, rd st.2 i = some a ∧ rd upTail a = some t ∧ rd upHead a = some h) ∧
        (h ≤ t → rd st.2 i = rd m0 i)) ∧
      ∀ j i, k ≤ j → rd ids j = some i → rd st.2 i = rd m0 i) ∧
      ∀ j t h b, k ≤ j → rd tail j = some t → rd head j = some h → rd upTail b = some t → rd upHead b = some h →
        st.1 ≤ b) (Nat.zero_le _)
    ⟨⟨hm0, fun j i t h hj => absurd hj (Nat.not_lt_zero j), fun _ _ _ _ => rfl⟩,
      fun _ _ _ _ _ _ _ _ _ => Nat.zero_le _⟩
    (by
      rintro k ⟨c, m⟩ _ hk ⟨⟨g1, g4, g5⟩, g6⟩
      have g1 : m.length = tail.length := g1
      obtain ⟨t, et⟩ := rd_isSome (v := tail) hk
      obtain ⟨h, eh⟩ := rd_isSome (v := head) (i := k) (by omega)
      obtain ⟨i, ei⟩ := rd_isSome (v := ids) (i := k) (by omega)
      have hi : i < tail.length := by have := hids.lt i (List.mem_of_getElem? ei); omega
      unfold mapDownStep
      simp only [et, eh, Option.bind_eq_bind, Option.bind_some]
      by_cases hth : t < h
      · rw [if_pos hth]
        obtain ⟨b, b1, b2⟩ := hex k t h et eh hth
        have hcb := g6 k t h b (Nat.le_refl _) et eh b1 b2
        have hb := rd_some_lt b1
        rw [seekArc_spec s b1 b2 (upTail.length + 1) c hcb (by omega)]
        simp only [Option.bind_some, ei, wr_lt (v := m) (i := i) (x := b) (by omega)]
        refine ⟨(b, m.set i b), rfl, ⟨by simpa using g1, ?_, ?_⟩, ?_⟩
        · intro j i' t' h' hj ej et' eh'
          show (t' < h' → ∃ a, rd (m.set i b) i' = _ ∧ _) ∧ (_ → rd (m.set i b) i' = _)
          rw [rd_set (by omega)]
          by_cases hjk : j = k
          · subst hjk
            cases (ei.symm.trans ej : some i = some i')
            cases (et.symm.trans et' : some t = some t')
            cases (eh.symm.trans eh' : some h = some h')
            exact ⟨fun _ => ⟨b, by rw [if_pos rfl], b1, b2⟩, fun h' => by omega⟩
          · have hii : i' ≠ i := by
              intro hc; subst hc; exact hjk (hids.inj ej ei)
            rw [if_neg hii]
            exact g4 j i' t' h' (by omega) ej et' eh'
        · intro j i' hj ej
          show rd (m.set i b) i' = _
          rw [rd_set (by omega), if_neg (by intro hc; subst hc; have := hids.inj ej ei; omega)]
          exact g5 j i' (by omega) ej
        · intro j t' h' b' hj et' eh' c1 c2
          exact s.mono b1 b2 c1 c2 (hle k j t t' h h' (by omega) et et' eh eh')
      · rw [if_neg hth]
        refine ⟨(c, m), rfl, ⟨g1, ?_, fun j i' hj ej => g5 j i' (by omega) ej⟩, fun j t h b hj => g6 j t h b (by omega)⟩
        intro j i' t' h' hj ej et' eh'
        by_cases hjk : j = k
        · subst hjk
          cases (ei.symm.trans ej : some i = some i')
          cases (et.symm.trans et' : some t = some t')
          cases (eh.symm.trans eh' : some h = some h')
          exact ⟨fun h' => absurd h' hth, fun _ => g5 j i (Nat.le_refl _) ej⟩
        · exact g4 j i' t' h' (by omega) ej et' eh')
  exact ⟨c, m, e, h1, fun j i t h ej et eh => h4 j i t h (rd_some_lt et) ej et eh⟩

/-- The mapping of all input arcs: input arc `i` leads from `t0[i]` to `h0[i]`, and `(tail, head)` are these
arcs in sorted order. -/
theorem mapInput_spec {n : Nat} {upTail upHead t0 h0 tail head ids : List Nat} (s : SortedArcs upTail upHead)
    (so : Sorted2 t0 h0 tail head ids) (ht : ∀ x ∈ t0, x < n) (hh : ∀ x ∈ h0, x < n)
    (hsz : t0.length + 511 < u64)
    (hex : ∀ x y, HasArc t0 h0 x y ∨ HasArc t0 h0 y x → x < y → HasArc upTail upHead x y) :
    ∃ m u U, mapInput n upTail upHead tail head ids = some (m, u) ∧ m.length = t0.length ∧ u.Rep U ∧
      U.length = t0.length ∧ ∀ i t h, rd t0 i = some t → rd h0 i = some h → MapAt upTail upHead m U i t h := by
  have l1 := so.lenT
  have l2 := so.lenH
  have l3 := so.lenH0
  have l4 := so.len
  have hl : tail.length = head.length := by omega
  obtain ⟨u0, eu0, hu0⟩ := BitVector.rep_null.resize (n := tail.length) (by omega) false (by simp)
  have hU0l : (([] : List Bool).take tail.length ++ List.replicate (tail.length - ([] : List Bool).length) false).length = tail.length := by simp
  have hU0f : ∀ i, at' (([] : List Bool).take tail.length ++ List.replicate (tail.length - ([] : List Bool).length) false) i = false := by
    intro i
    simp only [List.take_nil, List.nil_append]
    exact at_replicate_false _ _
  unfold mapInput
  simp only [eu0, Option.bind_eq_bind, Option.bind_some]
  by_cases hz : upTail.length = 0
  · rw [if_pos hz]
    refine ⟨_, u0, _, rfl, by simp [l1], hu0, by simp [l1], ?_⟩
    intro i t h et eh
    have hi := rd_some_lt et
    have none : ∀ x y, ¬ HasArc upTail upHead x y := by
      rintro x y ⟨a, h1, _⟩
      have := rd_some_lt h1; omega
    refine ⟨fun _ => rd_replicate (by omega), fun hlt => ?_, fun hlt => ?_⟩
    · exact absurd (hex t h (Or.inl ⟨i, et, eh⟩) hlt) (none _ _)
    · exact absurd (hex h t (Or.inr ⟨i, et, eh⟩) hlt) (none _ _)
  · rw [if_neg hz]
    obtain ⟨c1, m1, u1, U1, e1, h1, h2, h3, h4⟩ := mapUp_spec (n := n) s hl so.perm (by omega) so.le
      (fun i t h e1 e2 hth => hex t h (Or.inl ((so.hasArc t h).1 ⟨i, e1, e2⟩)) hth)
      (m0 := List.replicate tail.length 0) (by simp) hu0 hU0l hU0f rfl
    simp only [e1, Option.bind_some]
    obtain ⟨p, tail', head', r, e2, e3, s', happ⟩ := sortInv_spec (n := n) (t := head) (h := tail) (by omega)
      (so.lt_head hh) (so.lt_tail ht)
    obtain ⟨ids', e4, hl4, h4'⟩ := happ ids (by omega)
    simp only [e2, e3, e4, Option.bind_some]
    have hidsP : IsPerm ids' := by
      apply isPerm_of_rd
      · intro i x hx
        obtain ⟨k, hk⟩ := rd_isSome (v := r) (i := i) (by have := rd_some_lt hx; have := s'.len; omega)
        rw [h4' i k hk] at hx
        have := so.perm.lt x (List.mem_of_getElem? hx); omega
      · intro i j x hx hy
        obtain ⟨k, hk⟩ := rd_isSome (v := r) (i := i) (by have := rd_some_lt hx; have := s'.len; omega)
        obtain ⟨m, hm⟩ := rd_isSome (v := r) (i := j) (by have := rd_some_lt hy; have := s'.len; omega)
        rw [h4' i k hk] at hx
        rw [h4' j m hm] at hy
        have := so.perm.inj hx hy
        subst this
        exact s'.perm.inj hk hm
    have l5 := s'.lenT
    have l6 := s'.lenH
    have l7 := s'.len
    have hswap : ∀ x y, HasArc tail' head' x y ↔ HasArc t0 h0 y x := by
      intro x y
      rw [s'.hasArc]
      constructor
      · rintro ⟨a, b1, b2⟩; exact (so.hasArc y x).1 ⟨a, b2, b1⟩
      · intro h
        obtain ⟨a, b1, b2⟩ := (so.hasArc y x).2 h
        exact ⟨a, b2, b1⟩
    obtain ⟨c2, m2, e5, h5, h6⟩ := mapDown_spec (upTail := upTail) (upHead := upHead) (tail := tail') (head := head')
      (ids := ids') s (by omega) hidsP (by omega) s'.le
      (fun i t h a1 a2 hth => hex t h (Or.inr ((hswap t h).1 ⟨i, a1, a2⟩)) hth) (m0 := m1) (by omega)
    have e5' : forRange 0 tail.length (0, m1) (mapDownStep upTail upHead tail' head' ids') = some (c2, m2) := by
      rw [show tail.length = tail'.length by omega]; exact e5
    rw [e5']
    refine ⟨m2, u1, U1, rfl, by omega, h2, by omega, ?_⟩
    intro i t h et eh
    have hi := rd_some_lt et
    -- position of input arc `i` in the two sorted lists
    obtain ⟨j, hj, ej⟩ := so.perm.surj (x := i) (by omega)
    have tj : rd tail j = some t := by rw [so.tail j i ej]; exact et
    have hj' : rd head j = some h := by rw [so.head j i ej]; exact eh
    obtain ⟨k, hk, ek⟩ := s'.perm.surj (x := j) (by omega)
    have tk : rd tail' k = some h := by rw [s'.tail k j ek]; exact hj'
    have hk' : rd head' k = some t := by rw [s'.head k j ek]; exact tj
    have ik : rd ids' k = some i := by rw [h4' k j ek]; exact ej
    obtain ⟨p1, p2, p3⟩ := h4 j i t h ej tj hj'
    obtain ⟨q1, q2⟩ := h6 k i h t ik tk hk'
    refine ⟨?_, ?_, ?_⟩
    · intro hth
      rw [q2 (by omega)]; exact p1 hth
    · intro hth
      obtain ⟨a, b1, b2, b3⟩ := p2 hth
      exact ⟨a, by rw [q2 (by omega)]; exact b1, b2, b3, by rw [p3]; simpa using hth⟩
    · intro hth
      obtain ⟨a, b1, b2, b3⟩ := q1 hth
      exact ⟨a, b1, b2, b3, by rw [p3]; simp; omega⟩

/-! ### The elimination tree -/

theorem elimTree_spec {n : Nat} {fo head tail : List Nat} (u : UpOk n fo head tail) :
    ∃ parent, elimTree n fo head = some parent ∧ parent.length = n ∧
      ∀ x, x < n → ∃ p, rd parent x = some p ∧
        ((p = invalidId ∧ ∀ y, ¬ HasArc tail head x y) ∨
         (HasArc tail head x p ∧ ∀ y, HasArc tail head x y → p ≤ y)) := by
  have hs := u.sorted.pairwise
  have hlen := u.sorted.1
  let g : Nat → Nat := fun x => if cLt tail x = cLt tail (x + 1) then invalidId else fn head (cLt tail x)
  obtain ⟨parent, e, h1, h2⟩ := fill_loop (n := n) g (parentStep fo head) (List.replicate n 0) (by simp)
    (by
      intro r x hx hr _
      unfold parentStep
      rw [u.idx.2 x (by omega), u.idx.2 (x + 1) (by omega)]
      simp only [Option.bind_eq_bind, Option.bind_some]
      by_cases hc : cLt tail x = cLt tail (x + 1)
      · rw [if_neg (by simpa using hc)]
        simp only [g, if_pos hc]
      · rw [if_pos hc]
        have h1 := cLt_mono tail (show x ≤ x + 1 by omega)
        have h2 := cLt_le_length tail (x + 1)
        rw [rd_fn (v := head) (x := cLt tail x) (by omega)]
        simp only [g, if_neg hc, Option.bind_some])
  refine ⟨parent, e, h1, ?_⟩
  intro x hx
  refine ⟨g x, h2 x hx, ?_⟩
  have h1 := cLt_mono tail (show x ≤ x + 1 by omega)
  have h2 := cLt_le_length tail (x + 1)
  by_cases hc : cLt tail x = cLt tail (x + 1)
  · left
    simp only [g, if_pos hc, true_and]
    rintro y ⟨a, ha, _⟩
    have := (cLt_range hs).1 ha
    omega
  · right
    simp only [g, if_neg hc]
    have hr := (cLt_range (x := x) (a := cLt tail x) hs).2 ⟨Nat.le_refl _, by omega⟩
    have hrh := rd_fn (v := head) (x := cLt tail x) (by omega)
    refine ⟨⟨cLt tail x, hr, hrh⟩, ?_⟩
    rintro y ⟨a, ha, hy⟩
    have h3 := (cLt_range hs).1 ha
    by_cases hca : cLt tail x = a
    · subst hca; rw [hrh] at hy; cases hy; exact Nat.le_refl _
    · rcases u.sorted.2 _ a x x _ y (by omega) hr ha hrh hy with h | ⟨_, h⟩ <;> omega

end RK
