import Verif.Proof.InverseVector
/-! # Property theorems C08 (inverse_vector.h) -/
namespace RK.Props
open Spec

/-- C08. `invert_vector(v,n)` has `n+1` entries and `[index[i], index[i+1])` are exactly the
positions of `i` in the sorted vector `v`. -/
theorem C08_invert_vector (v : List Nat) (n : Nat) (hs : v.Pairwise (· ≤ ·))
    (hn : ∀ x ∈ v, x < n) :
    ∃ index, invertVector v n = some index ∧ index.length = n + 1 ∧
      index[0]? = some 0 ∧ index[n]? = some v.length ∧ index.Pairwise (· ≤ ·) ∧
      ∀ i, i < n → ∃ b e, index[i]? = some b ∧ index[i + 1]? = some e ∧
        ∀ j : Nat, v[j]? = some i ↔ (b ≤ j ∧ j < e) := by
  obtain ⟨idx, e, h1, h2⟩ := invertVector_spec hs hn
  refine ⟨idx, e, h1, ?_, ?_, ?_, ?_⟩
  · change rd idx 0 = _
    rw [h2 0 (by omega), cLt_zero]
  · change rd idx n = _
    rw [h2 n (Nat.le_refl _), cLt_all hn]
  · rw [List.pairwise_iff_getElem]
    intro i j hi hj hij
    have a1 := h2 i (by omega)
    have a2 := h2 j (by omega)
    rw [rd_lt hi] at a1
    rw [rd_lt hj] at a2
    injection a1 with a1
    injection a2 with a2
    rw [a1, a2]
    exact cLt_mono v (by omega)
  · intro i hi
    refine ⟨_, _, h2 i (by omega), h2 (i + 1) (by omega), ?_⟩
    intro j
    constructor
    · intro hj
      have a1 := sorted_cLt (k := i) hs (v := v) hj
      have a2 := sorted_cLt (k := i + 1) hs (v := v) hj
      omega
    · rintro ⟨h3, h4⟩
      have := cLt_le_length v (i + 1)
      obtain ⟨x, hx⟩ := rd_isSome (v := v) (i := j) (by omega)
      have a1 := sorted_cLt (k := i) hs hx
      have a2 := sorted_cLt (k := i + 1) hs hx
      have : x = i := by omega
      rw [← this]; exact hx

example : invertVector [0, 0, 2, 3] 5 = some [0, 2, 2, 3, 4, 4] := by decide

/-- C08. `invert_inverse_vector` undoes `invert_vector`. -/
theorem C08_invert_inverse_vector_left_inverse (v : List Nat) (n : Nat) (hs : v.Pairwise (· ≤ ·))
    (hn : ∀ x ∈ v, x < n) :
    (invertVector v n).bind invertInverseVector = some v := by
  obtain ⟨idx, e, h1, h2⟩ := invertVector_spec hs hn
  have h0 : rd idx 0 = some 0 := by rw [h2 0 (by omega), cLt_zero]
  have hp : idx.Pairwise (· ≤ ·) := by
    obtain ⟨idx', e', _, _, _, h, _⟩ := C08_invert_vector v n hs hn
    rw [e] at e'; cases e'; exact h
  obtain ⟨w, last, e2, h3, h4, h5⟩ := invertInverseVector_spec h0 hp
  rw [e, Option.bind_some, e2]
  have hlast : last = v.length := by
    rw [h1, show n + 1 - 1 = n by omega, h2 n (Nat.le_refl _), cLt_all hn] at h3
    injection h3 with h3; omega
  congr 1
  apply list_ext_rd (by omega)
  intro j hj
  obtain ⟨x, hx⟩ := rd_isSome (v := v) (i := j) (by omega)
  have hxn := hn x (List.mem_of_getElem? hx)
  have a1 := sorted_cLt (k := x) hs hx
  have a2 := sorted_cLt (k := x + 1) hs hx
  rw [hx]
  exact h5 x _ _ j (h2 x (by omega)) (h2 (x + 1) (by omega)) (by omega) (by omega)

/-- C08. `invert_vector` undoes `invert_inverse_vector`. -/
theorem C08_invert_inverse_vector_right_inverse (s : List Nat) (h0 : s[0]? = some 0)
    (hs : s.Pairwise (· ≤ ·)) :
    ∃ v, invertInverseVector s = some v ∧ invertVector v (s.length - 1) = some s := by
  obtain ⟨v, last, e, h1, h2, h3⟩ := invertInverseVector_spec h0 hs
  have hlen := rd_some_lt (v := s) h0
  have mono : ∀ i j b e, rd s i = some b → rd s j = some e → i ≤ j → b ≤ e := by
    intro i j b e hb he hij
    rcases Nat.lt_or_eq_of_le hij with h | rfl
    · obtain ⟨h1, h2⟩ := rd_eq_some.1 hb
      obtain ⟨h3, h4⟩ := rd_eq_some.1 he
      have := List.pairwise_iff_getElem.1 hs i j h1 h3 h
      omega
    · rw [hb] at he; cases he; exact Nat.le_refl _
  -- an element of v is smaller than k iff its position is below s[k]
  have key : ∀ j x k c, rd v j = some x → rd s k = some c → (x < k ↔ j < c) := by
    intro j x k c hx hc
    have hj := rd_some_lt hx
    obtain ⟨i, b, e, hi, hb, he, hbj, hje⟩ := exists_range h0 h1 (show j < last by omega)
    have := h3 i b e j hb he hbj hje
    rw [hx] at this; cases this
    constructor
    · intro hxk
      have := mono (x + 1) k e c he hc (by omega)
      omega
    · intro hjc
      by_contra hlt
      have := mono k x c b hc hb (by omega)
      omega
  have hvlt : ∀ x ∈ v, x < s.length - 1 := by
    intro x hx
    obtain ⟨j, hj, ej⟩ := List.getElem_of_mem hx
    have hjx : rd v j = some x := by rw [rd_lt hj, ej]
    exact (key j x (s.length - 1) last hjx h1).2 (by omega)
  have hvs : v.Pairwise (· ≤ ·) := by
    rw [List.pairwise_iff_getElem]
    intro i j hi hj hij
    have hx := rd_lt hi
    have hy := rd_lt hj
    have hlt := hvlt v[j] (List.getElem_mem hj)
    obtain ⟨c, hc⟩ := rd_isSome (v := s) (i := v[j] + 1) (by omega)
    have a1 := (key j _ (v[j] + 1) c hy hc).1 (by omega)
    have a2 := (key i _ (v[j] + 1) c hx hc).2 (by omega)
    omega
  obtain ⟨idx, e', h4, h5⟩ := invertVector_spec hvs hvlt
  refine ⟨v, e, ?_⟩
  rw [e']
  congr 1
  apply list_ext_rd (by omega)
  intro i hi
  rw [h5 i (by omega)]
  obtain ⟨c, hc⟩ := rd_isSome (v := s) (i := i) (by omega)
  rw [hc]
  congr 1
  have hcl : c ≤ v.length := by
    have := mono i (s.length - 1) c last hc h1 (by omega)
    omega
  have hcl2 := cLt_le_length v i
  by_contra hne
  rcases Nat.lt_or_gt_of_ne hne with h | h
  · obtain ⟨x, hx⟩ := rd_isSome (v := v) (i := cLt v i) (by omega)
    have a1 := sorted_cLt (k := i) hvs hx
    have a2 := key _ x i c hx hc
    omega
  · obtain ⟨x, hx⟩ := rd_isSome (v := v) (i := c) (by omega)
    have a1 := sorted_cLt (k := i) hvs hx
    have a2 := key _ x i c hx hc
    omega

example : invertInverseVector [0, 2, 2, 3, 4, 4] = some [0, 0, 2, 3] := by decide

end RK.Props
