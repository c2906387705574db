import Verif.Model.InverseVector
import Verif.Proof.Sort
/-! Helper lemmas for inverse_vector.h -/
namespace RK
open Spec

theorem sorted_cLt {k : Nat} : ∀ {v : List Nat}, v.Pairwise (· ≤ ·) → ∀ {j x : Nat},
    rd v j = some x → (x < k ↔ j < cLt v k)
  | [], _, j, x, h => by simp [rd] at h
  | y :: l, hs, j, x, h => by
    rw [List.pairwise_cons] at hs
    have ih := fun j x h => sorted_cLt (k := k) hs.2 (j := j) (x := x) h
    by_cases hy : y < k
    · have hc : cLt (y :: l) k = cLt l k + 1 := by simp [cLt, hy]
      rw [hc]
      cases j with
      | zero =>
        simp [rd] at h
        subst h; simp [hy]
      | succ j =>
        have := ih j x (by simpa [rd] using h)
        omega
    · have hc : cLt (y :: l) k = 0 := by
        simp only [cLt, List.countP_eq_zero]
        intro z hz
        rcases List.mem_cons.1 hz with rfl | hz
        · simpa using hy
        · have := hs.1 z hz
          simp; omega
      rw [hc]
      have hyx : y ≤ x := by
        have hm := List.mem_of_getElem? h
        rcases List.mem_cons.1 hm with rfl | hz
        · exact Nat.le_refl _
        · exact hs.1 x hz
      omega

theorem cLt_le_length (v : List Nat) (k : Nat) : cLt v k ≤ v.length := List.countP_le_length

theorem cLt_mono (v : List Nat) {a b : Nat} (h : a ≤ b) : cLt v a ≤ cLt v b := by
  rcases Nat.lt_or_eq_of_le h with h | rfl
  · have := cLt_add v h; omega
  · exact Nat.le_refl _

theorem cLt_all {v : List Nat} {k : Nat} (h : ∀ x ∈ v, x < k) : cLt v k = v.length := by
  unfold cLt
  rw [List.countP_eq_length]
  intro x hx; simpa using h x hx

theorem advanceWhileLess_spec {v : List Nat} (hs : v.Pairwise (· ≤ ·)) {i : Nat} :
    ∀ {n pos : Nat}, pos + n = v.length → pos ≤ cLt v i →
      advanceWhileLess v i n pos = some (cLt v i)
  | 0, pos, h, hle => by
    have := cLt_le_length v i
    simp only [advanceWhileLess, Option.some.injEq]; omega
  | n + 1, pos, h, hle => by
    unfold advanceWhileLess
    obtain ⟨x, hx⟩ := rd_isSome (v := v) (i := pos) (by omega)
    simp only [hx, Option.bind_eq_bind, Option.bind_some]
    have hc := sorted_cLt (k := i) hs hx
    by_cases hxi : x < i
    · rw [if_pos hxi]
      exact advanceWhileLess_spec hs (by omega) (by omega)
    · rw [if_neg hxi]
      congr 1; omega

theorem invertVector_spec {v : List Nat} {n : Nat} (hs : v.Pairwise (· ≤ ·))
    (hn : ∀ x ∈ v, x < n) :
    ∃ idx, invertVector v n = some idx ∧ idx.length = n + 1 ∧
      ∀ i, i ≤ n → rd idx i = some (cLt v i) := by
  unfold invertVector
  by_cases hv : v = []
  · rw [if_pos hv]
    subst hv
    refine ⟨_, rfl, by simp, ?_⟩
    intro i hi
    rw [rd_replicate (by omega)]; simp [cLt]
  · rw [if_neg hv]
    have c1 := (isSortedUsingLess_iff v).2 hs
    have c2 : (v.all fun x => decide (x < n)) = true := by simpa using hn
    simp only [c1, c2, check_true, Option.bind_eq_bind, Option.bind_some,
      wr_lt (v := List.replicate (n + 1) 0) (i := 0) (x := 0) (by simp)]
    obtain ⟨⟨idx, pos⟩, e, h1, h2, h3⟩ := forRange_inv (lo := 0) (hi := n)
      (s := ((List.replicate (n + 1) 0).set 0 0, 0))
      (f := fun (s : List Nat × Nat) i => (advanceWhileLess v i (v.length - s.2) s.2).bind fun pos =>
        (wr s.1 i pos).bind fun idx => some (idx, pos))
      (fun i s => s.1.length = n + 1 ∧ s.2 ≤ cLt v i ∧
        ∀ j, j < i → rd s.1 j = some (cLt v j)) (by omega)
      ⟨by simp, by simp, by intro j hj; omega⟩
      (by
        rintro i ⟨idx, pos⟩ _ hi ⟨hl, hp, hr⟩
        simp only at hl hp hr ⊢
        have hlt : i < idx.length := by omega
        have hple := cLt_le_length v i
        refine ⟨(idx.set i (cLt v i), cLt v i), ?_, by simpa using hl, cLt_mono v (by omega), ?_⟩
        · rw [advanceWhileLess_spec hs (by omega) hp]
          simp [wr_lt hlt]
        · intro j hj
          simp only [rd_set hlt]
          split
          · rename_i h; rw [h]
          · exact hr j (by omega))
    simp only at h1 h2 h3
    have hlt : n < idx.length := by omega
    refine ⟨idx.set n v.length, ?_, by simpa using h1, ?_⟩
    · have := congrArg (fun o => Option.bind o (fun r : List Nat × Nat => wr r.1 n v.length)) e
      refine Eq.trans this ?_
      simp [wr_lt hlt]
    · intro i hi
      rw [rd_set hlt]
      split
      · rename_i h; rw [h, cLt_all hn]
      · exact h3 i (by omega)

theorem fill_range {x : Nat} : ∀ {n b : Nat} {v : List Nat}, b + n ≤ v.length →
    ∃ r, forN (fun v j => wr v j x) b n v = some r ∧ r.length = v.length ∧
      ∀ j, rd r j = if b ≤ j ∧ j < b + n then some x else rd v j
  | 0, b, v, _ => ⟨v, rfl, rfl, fun j => by rw [if_neg (by omega)]⟩
  | n + 1, b, v, h => by
    have hlt : b < v.length := by omega
    obtain ⟨r, e, h1, h2⟩ := fill_range (x := x) (n := n) (b := b + 1) (v := v.set b x)
      (by simp; omega)
    refine ⟨r, by simp [forN, wr_lt hlt, e], by simpa using h1, ?_⟩
    intro j
    rw [h2 j, rd_set hlt]
    by_cases hj : j = b
    · subst hj; simp
    · by_cases hj2 : b + 1 ≤ j ∧ j < b + 1 + n
      · rw [if_pos hj2, if_pos (by omega)]
      · rw [if_neg hj2, if_neg hj, if_neg (by omega)]

/-- An index vector: starts with 0, non-decreasing. -/
theorem invertInverseVector_spec {s : List Nat} (h0 : rd s 0 = some 0)
    (hs : s.Pairwise (· ≤ ·)) :
    ∃ v last, invertInverseVector s = some v ∧ rd s (s.length - 1) = some last ∧ v.length = last ∧
      ∀ i b e j, rd s i = some b → rd s (i + 1) = some e → b ≤ j → j < e → rd v j = some i := by
  have hlen := rd_some_lt h0
  obtain ⟨last, hlast⟩ := rd_isSome (v := s) (i := s.length - 1) (by omega)
  have hgl : s.getLast? = some last := by
    rw [List.getLast?_eq_getElem?]; exact hlast
  have mono : ∀ i j b e, rd s i = some b → rd s j = some e → i ≤ j → b ≤ e := by
    intro i j b e hb he hij
    rcases Nat.lt_or_eq_of_le hij with h | rfl
    · obtain ⟨h1, h2⟩ := rd_eq_some.1 hb
      obtain ⟨h3, h4⟩ := rd_eq_some.1 he
      have := List.pairwise_iff_getElem.1 hs i j h1 h3 h
      omega
    · rw [hb] at he; cases he; exact Nat.le_refl _
  unfold invertInverseVector
  simp only [hgl, Option.bind_eq_bind, Option.bind_some]
  obtain ⟨v, e, h1, h2⟩ := forRange_inv (lo := 0) (hi := s.length - 1)
    (s := List.replicate last 0)
    (f := fun (v : List Nat) i => (rd s i).bind fun b => (rd s (i + 1)).bind fun e =>
      forRange b e v fun v j => wr v j i)
    (fun k v => v.length = last ∧ ∀ i b e j, i < k → rd s i = some b → rd s (i + 1) = some e →
      b ≤ j → j < e → rd v j = some i) (by omega)
    ⟨by simp, by intro i b e j h; omega⟩
    (by
      rintro k v _ hk ⟨hl, hv⟩
      obtain ⟨b, hb⟩ := rd_isSome (v := s) (i := k) (by omega)
      obtain ⟨e, he⟩ := rd_isSome (v := s) (i := k + 1) (by omega)
      have hbe := mono k (k + 1) b e hb he (by omega)
      have hel := mono (k + 1) (s.length - 1) e last he hlast (by omega)
      obtain ⟨r, er, hr1, hr2⟩ := fill_range (x := k) (n := e - b) (b := b) (v := v) (by omega)
      refine ⟨r, by simp only [hb, he, Option.bind_some, forRange]; exact er, by omega, ?_⟩
      intro i b' e' j hi hb' he' hj1 hj2
      rw [hr2 j]
      by_cases hik : i = k
      · subst hik
        rw [hb] at hb'; cases hb'
        rw [he] at he'; cases he'
        rw [if_pos (by omega)]
      · have := mono (i + 1) k e' b he' hb (by omega)
        rw [if_neg (by omega)]
        exact hv i b' e' j (by omega) hb' he' hj1 hj2)
  refine ⟨v, last, e, hlast, h1, ?_⟩
  intro i b e' j hb he
  have := rd_some_lt he
  exact h2 i b e' j (by omega) hb he

/-- a position below the last index belongs to some range -/
theorem exists_range {s : List Nat} (h0 : rd s 0 = some 0) {last j : Nat}
    (hlast : rd s (s.length - 1) = some last) (hj : j < last) :
    ∃ i b e, i < s.length - 1 ∧ rd s i = some b ∧ rd s (i + 1) = some e ∧ b ≤ j ∧ j < e := by
  by_contra hcon
  have key : ∀ i, i ≤ s.length - 1 → ∃ b, rd s i = some b ∧ b ≤ j := by
    intro i
    induction i with
    | zero => intro _; exact ⟨0, h0, by omega⟩
    | succ i ih =>
      intro hi
      obtain ⟨b, hb, hbj⟩ := ih (by omega)
      obtain ⟨e, he⟩ := rd_isSome (v := s) (i := i + 1) (by omega)
      refine ⟨e, he, ?_⟩
      by_contra hlt
      exact hcon ⟨i, b, e, by omega, hb, he, hbj, by omega⟩
  obtain ⟨b, hb, hbj⟩ := key (s.length - 1) (Nat.le_refl _)
  rw [hb] at hlast; cases hlast
  omega

end RK
