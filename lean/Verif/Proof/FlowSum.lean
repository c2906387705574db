import Verif.Proof.Bfs
import Mathlib.Algebra.BigOperators.Group.Finset.Basic
import Mathlib.Algebra.Order.BigOperators.Group.Finset
/-! # The flow across a set of nodes -/
namespace RK
open Spec Nd BitVector

/-- 1 for the nodes of `S`, 0 for the others. -/
def ind (S : Nat → Bool) (x : Nat) : Int := if S x then 1 else 0

/-- What an arc contributes to the flow out of `S` if it is saturated. -/
def crossing (f : GraphFragment) (S : Nat → Bool) (a : Nat) : Int :=
  match rd f.tail a, rd f.head a with
  | some x, some y => ind S x - ind S y
  | _, _ => 0

theorem crossing_eq {f : GraphFragment} {S : Nat → Bool} {a x y : Nat} (h : FragArc f a x y) :
    crossing f S a = ind S x - ind S y := by
  have h1 : rd f.tail a = some x := h.1
  have h2 : rd f.head a = some y := h.2
  unfold crossing
  rw [h1, h2]

/-- The saturated arcs that leave `S` minus those that enter it. -/
def flowOut (f : GraphFragment) (sat : List Bool) (S : Nat → Bool) : Int :=
  ∑ a ∈ Finset.range f.arcCount, if at' sat a then crossing f S a else 0

/-- The number of arcs that leave `S`. -/
def leavingSum (f : GraphFragment) (S : Nat → Bool) : Int :=
  ∑ a ∈ Finset.range f.arcCount, if crossing f S a = 1 then 1 else 0

theorem fragArc_exists {f : GraphFragment} (o : FragmentOk f) {a : Nat} (h : a < f.arcCount) :
    ∃ x y, FragArc f a x y := by
  have h' : a < f.tail.length := h
  obtain ⟨x, hx⟩ := rd_isSome (v := f.tail) h'
  obtain ⟨y, hy⟩ := rd_isSome (v := f.head) (i := a) (by rw [o.head_len]; exact h')
  exact ⟨x, y, hx, hy⟩

theorem fragArc_arc_lt {f : GraphFragment} {a x y : Nat} (h : FragArc f a x y) : a < f.arcCount :=
  rd_some_lt (v := f.tail) h.1

theorem flowOut_set {f : GraphFragment} {sat : List Bool} {S : Nat → Bool} {a : Nat} {b : Bool}
    (ha : a < f.arcCount) (hl : sat.length = f.arcCount) :
    flowOut f (sat.set a b) S = flowOut f sat S + (if b then crossing f S a else 0) -
      (if at' sat a then crossing f S a else 0) := by
  unfold flowOut
  have hm : a ∈ Finset.range f.arcCount := Finset.mem_range.2 ha
  rw [← Finset.add_sum_erase _ _ hm, ← Finset.add_sum_erase (Finset.range f.arcCount)
    (fun a => if at' sat a then crossing f S a else 0) hm]
  have h1 : ∑ x ∈ (Finset.range f.arcCount).erase a, (if at' (sat.set a b) x then crossing f S x else 0) =
      ∑ x ∈ (Finset.range f.arcCount).erase a, (if at' sat x then crossing f S x else 0) := by
    apply Finset.sum_congr rfl
    intro x hx
    rw [at_set (by omega), if_neg (Finset.ne_of_mem_erase hx)]
  rw [h1, at_set (by omega), if_pos rfl]
  omega

theorem ind_cases (S : Nat → Bool) (x : Nat) : (ind S x = 0 ∧ S x = false) ∨ (ind S x = 1 ∧ S x = true) := by
  unfold ind
  cases S x <;> simp

theorem crossing_le {f : GraphFragment} (o : FragmentOk f) (S : Nat → Bool) {a : Nat} (h : a < f.arcCount) :
    crossing f S a = -1 ∨ crossing f S a = 0 ∨ crossing f S a = 1 := by
  obtain ⟨x, y, hA⟩ := fragArc_exists o h
  rw [crossing_eq hA]
  rcases ind_cases S x with h1 | h1 <;> rcases ind_cases S y with h2 | h2 <;> omega

/-- Weak duality: the flow out of a set is at most the number of arcs that leave it. -/
theorem flowOut_le {f : GraphFragment} (o : FragmentOk f) (sat : List Bool) (S : Nat → Bool) :
    flowOut f sat S ≤ leavingSum f S := by
  unfold flowOut leavingSum
  apply Finset.sum_le_sum
  intro a ha
  have := crossing_le o S (Finset.mem_range.1 ha)
  split <;> split <;> omega

/-- A set that no unsaturated arc leaves: the flow out of it is the number of arcs that leave it. -/
theorem flowOut_closed {f : GraphFragment} (o : FragmentOk f) {sat : List Bool} {S : Nat → Bool}
    (hc : ∀ a x y, FragArc f a x y → S x = true → at' sat a = false → S y = true)
    (hanti : ∀ a b, rd f.backArc a = some b → at' sat a = true → at' sat b = true → False) :
    flowOut f sat S = leavingSum f S := by
  unfold flowOut leavingSum
  apply Finset.sum_congr rfl
  intro a ha
  obtain ⟨x, y, hA⟩ := fragArc_exists o (Finset.mem_range.1 ha)
  rw [crossing_eq hA]
  rcases ind_cases S x with ⟨h1, h1'⟩ | ⟨h1, h1'⟩ <;> rcases ind_cases S y with ⟨h2, h2'⟩ | ⟨h2, h2'⟩ <;>
    rw [h1, h2]
  · simp
  · -- entering arc: it is not saturated
    cases hs : at' sat a with
    | false => simp
    | true =>
      exfalso
      obtain ⟨b, hb, hB⟩ := fragArc_back o hA
      have : at' sat b = false := by
        cases h : at' sat b with
        | false => rfl
        | true => exact (hanti a b hb hs h).elim
      have := hc b y x hB.2 h2' this
      rw [h1'] at this
      cases this
  · cases hs : at' sat a with
    | true => simp
    | false =>
      have := hc a x y hA h1' hs
      rw [h2'] at this
      cases this
  · simp

theorem leavingSum_le {f : GraphFragment} (S : Nat → Bool) : leavingSum f S ≤ f.arcCount := by
  unfold leavingSum
  calc _ ≤ ∑ _a ∈ Finset.range f.arcCount, (1 : Int) := by
        apply Finset.sum_le_sum
        intro a _
        split <;> omega
    _ = f.arcCount := by simp

end RK
