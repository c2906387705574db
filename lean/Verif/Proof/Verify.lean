import Verif.Model.Verify
import Verif.Spec.Verify
import Verif.Proof.ChCheck
/-! Helper lemmas: verify.cpp. -/
namespace RK
open Spec

/-- The outcome of a check: no undefined behaviour, and accepted exactly if `P` holds. -/
def Tests (r : Res Unit) (P : Prop) : Prop := (r = .ok () ∧ P) ∨ (r = .error ∧ ¬ P)

theorem Tests.congr {r : Res Unit} {P Q : Prop} (h : Tests r P) (e : P ↔ Q) : Tests r Q := by
  unfold Tests at *; rwa [← e]

theorem Tests.require {b : Bool} {P : Prop} (h : b = true ↔ P) : Tests (Res.require b) P := by
  cases b with
  | true => exact Or.inl ⟨rfl, h.1 rfl⟩
  | false => exact Or.inr ⟨rfl, fun hp => by simpa using h.2 hp⟩

theorem Tests.decide {P : Prop} [Decidable P] : Tests (Res.require (decide P)) P := Tests.require (by simp)

theorem Tests.bind {r : Res Unit} {f : Unit → Res Unit} {P Q : Prop} (h : Tests r P) (h' : P → Tests (f ()) Q) : Tests (r >>= f) (P ∧ Q) := by
  rcases h with ⟨rfl, hp⟩ | ⟨rfl, hp⟩
  · rcases h' hp with ⟨e, hq⟩ | ⟨e, hq⟩
    · exact Or.inl ⟨by rw [Res.ok_bind, e], hp, hq⟩
    · exact Or.inr ⟨by rw [Res.ok_bind, e], fun h => hq h.2⟩
  · exact Or.inr ⟨rfl, fun h => hp h.1⟩

theorem throwIfAny_spec (bad : Nat → Bool) : ∀ l : List Nat, Tests (throwIfAny bad l) (∀ x ∈ l, bad x = false)
  | [] => Or.inl ⟨rfl, by simp⟩
  | x :: l => by
    refine Tests.congr (Tests.bind (Tests.require (P := bad x = false) (by simp)) fun _ => throwIfAny_spec bad l) (by simp)

theorem checkEach_spec {f : Nat → Res Unit} {P : Nat → Prop} : ∀ (count first : Nat),
    (∀ i, first ≤ i → i < first + count → Tests (f i) (P i)) →
    Tests (checkEach f count first) (∀ i, first ≤ i → i < first + count → P i)
  | 0, first, _ => Or.inl ⟨rfl, fun i h1 h2 => by omega⟩
  | count + 1, first, h => by
    refine Tests.congr (Tests.bind (h first (Nat.le_refl _) (by omega)) fun _ =>
      checkEach_spec count (first + 1) fun i h1 h2 => h i (by omega) (by omega)) ⟨?_, ?_⟩
    · rintro ⟨h1, h2⟩ i h3 h4
      rcases Nat.eq_or_lt_of_le h3 with rfl | h5
      · exact h1
      · exact h2 i h5 (by omega)
    · intro h1
      exact ⟨h1 first (Nat.le_refl _) (by omega), fun i h2 h3 => h1 i (by omega) (by omega)⟩

theorem checkIfGraphIsValid_spec {fo hd : List Nat} (hne : fo ≠ []) :
    Tests (checkIfGraphIsValid fo hd) (IsCSR (fo.length - 1) fo hd) := by
  have hl : fo.length = (fo.length - 1) + 1 := by
    have := List.length_pos_of_ne_nil hne; omega
  obtain ⟨z, hz⟩ : ∃ z, fo.head? = some z := Option.isSome_iff_exists.1 (by simpa using hne)
  obtain ⟨l, hl'⟩ : ∃ z, fo.getLast? = some z := Option.isSome_iff_exists.1 (by simpa using hne)
  unfold checkIfGraphIsValid
  rw [hz, hl', Res.ofOption_some, Res.ofOption_some, Res.ok_bind]
  simp only [Res.ok_bind]
  refine Tests.congr (Tests.bind Tests.decide fun _ => Tests.bind Tests.decide fun _ =>
    Tests.bind (Tests.require (isSortedUsingLess_iff fo)) fun _ => throwIfAny_spec _ _) ?_
  rw [csr_iff hl, hz, hl']
  simp only [Option.some.injEq, decide_eq_false_iff_not, Nat.not_le, ge_iff_le]
  tauto

theorem subrange_spec {v : List Nat} {b e : Nat} (h1 : b ≤ e) (h2 : e ≤ v.length) :
    ∃ r, subrange v b e = some r ∧ (r.Pairwise (· ≤ ·) ↔
      ∀ i j t t' : Nat, b ≤ i → i < j → j < e → v[i]? = some t → v[j]? = some t' → t ≤ t') := by
  refine ⟨_, by unfold subrange; rw [if_pos ⟨h1, h2⟩], ?_⟩
  have hlen : ((v.take e).drop b).length = e - b := by simp; omega
  have hget : ∀ k, k < e - b → ((v.take e).drop b)[k]? = v[b + k]? := by
    intro k hk
    rw [List.getElem?_drop, List.getElem?_take, if_pos (by omega)]
  rw [List.pairwise_iff_getElem]
  constructor
  · intro h i j t t' hi hij hj ht ht'
    have e1 := hget (i - b) (by omega)
    have e2 := hget (j - b) (by omega)
    rw [show b + (i - b) = i by omega, ht, List.getElem?_eq_getElem (by omega)] at e1
    rw [show b + (j - b) = j by omega, ht', List.getElem?_eq_getElem (by omega)] at e2
    injection e1 with e1
    injection e2 with e2
    have := h (i - b) (j - b) (by omega) (by omega) (by omega)
    omega
  · intro h i j hi hj hij
    rw [hlen] at hi hj
    refine h (b + i) (b + j) _ _ (by omega) (by omega) (by omega) ?_ ?_
    · rw [← hget i hi, List.getElem?_eq_getElem (by omega)]
    · rw [← hget j hj, List.getElem?_eq_getElem (by omega)]

theorem checkIfArcIppAreValid_spec {period : Nat} {fi dep tr : List Nat} (hne : fi ≠ []) :
    Tests (checkIfArcIppAreValid period fi dep tr) (IsProfiles period (fi.length - 1) fi dep tr) := by
  have hl : fi.length = (fi.length - 1) + 1 := by
    have := List.length_pos_of_ne_nil hne; omega
  obtain ⟨z, hz⟩ : ∃ z, fi.head? = some z := Option.isSome_iff_exists.1 (by simpa using hne)
  obtain ⟨l, hl'⟩ : ∃ z, fi.getLast? = some z := Option.isSome_iff_exists.1 (by simpa using hne)
  have z1 : fi[0]? = some z := by rw [← List.head?_eq_getElem?]; exact hz
  have l1 : fi[fi.length - 1]? = some l := by rw [← List.getLast?_eq_getElem?]; exact hl'
  unfold checkIfArcIppAreValid
  rw [hz, hl', Res.ofOption_some, Res.ofOption_some, Res.ok_bind]
  simp only [Res.ok_bind]
  refine Tests.congr (P := z = 0 ∧ l = dep.length ∧ fi.Pairwise (· ≤ ·) ∧
      (∀ i, 1 ≤ i → i < 1 + (fi.length - 1) → ∀ a b, fi[i - 1]? = some a → fi[i]? = some b → a ≠ b) ∧ tr.length = dep.length ∧
      (∀ a, 0 ≤ a → a < 0 + (fi.length - 1) → ∀ b e, fi[a]? = some b → fi[a + 1]? = some e →
        ∀ i j t t' : Nat, b ≤ i → i < j → j < e → dep[i]? = some t → dep[j]? = some t' → t ≤ t') ∧
      ∀ x ∈ dep, decide (x ≥ period) = false)
    (Tests.bind Tests.decide fun _ => Tests.bind Tests.decide fun hlast =>
      Tests.bind (Tests.require (isSortedUsingLess_iff fi)) fun hsort => Tests.bind (checkEach_spec _ _ ?_) fun _ =>
      Tests.bind Tests.decide fun _ => Tests.bind (checkEach_spec _ _ ?_) fun _ => throwIfAny_spec _ _) ?_
  · intro i h1 h2
    obtain ⟨a, ha⟩ := rd_isSome (v := fi) (i := i - 1) (by omega)
    obtain ⟨b, hb⟩ := rd_isSome (v := fi) (i := i) (by omega)
    rw [ha, hb, Res.ofOption_some, Res.ofOption_some]
    simp only [Res.ok_bind]
    refine Tests.congr Tests.decide ?_
    constructor
    · intro h x y hx hy
      rw [show x = a from rd_congr_some hx ha, show y = b from rd_congr_some hy hb]; exact h
    · intro h; exact h a b ha hb
  · intro a h1 h2
    obtain ⟨b, hb⟩ := rd_isSome (v := fi) (i := a) (by omega)
    obtain ⟨e, he⟩ := rd_isSome (v := fi) (i := a + 1) (by omega)
    have hp := List.pairwise_iff_getElem.1 hsort
    have mono : ∀ i j x y : Nat, i ≤ j → fi[i]? = some x → fi[j]? = some y → x ≤ y := by
      intro i j x y hij hx hy
      rcases Nat.eq_or_lt_of_le hij with rfl | hij
      · exact Nat.le_of_eq (rd_congr_some hx hy)
      · have i1 := rd_some_lt (v := fi) hx
        have i2 := rd_some_lt (v := fi) hy
        have := hp i j i1 i2 hij
        rw [List.getElem?_eq_getElem i1] at hx
        rw [List.getElem?_eq_getElem i2] at hy
        injection hx with hx; injection hy with hy
        omega
    have hbe : b ≤ e := mono a (a + 1) b e (by omega) hb he
    have hel : e ≤ dep.length := by rw [← hlast]; exact mono (a + 1) (fi.length - 1) e l (by omega) he l1
    obtain ⟨r, er, hr⟩ := subrange_spec hbe hel
    rw [hb, he, Res.ofOption_some, Res.ofOption_some]
    simp only [Res.ok_bind, er, Res.ofOption_some]
    refine Tests.congr (Tests.require (isSortedUsingLess_iff r)) (hr.trans ⟨?_, ?_⟩)
    · intro h b' e' hb' he' i j
      rw [show b' = b from rd_congr_some hb' hb, show e' = e from rd_congr_some he' he]
      exact h i j
    · intro h; exact h b e hb he
  · constructor
    · rintro ⟨rfl, rfl, h3, h4, h5, h6, h7⟩
      refine ⟨hl, z1, l1, ?_, h5, ?_, ?_⟩
      · intro a b e hb he
        have i1 := rd_some_lt (v := fi) he
        have i0 := rd_some_lt (v := fi) hb
        have g1 := h4 (a + 1) (by omega) (by omega) b e hb he
        have g2 := List.pairwise_iff_getElem.1 h3 a (a + 1) i0 i1 (by omega)
        rw [List.getElem?_eq_getElem i0] at hb
        rw [List.getElem?_eq_getElem i1] at he
        injection hb with hb; injection he with he
        omega
      · intro a b e i j t t' hb he
        have i1 := rd_some_lt (v := fi) he
        exact h6 a (by omega) (by omega) b e hb he i j t t'
      · intro t ht
        have := h7 t ht
        simpa using this
    · intro h
      have h0 : z = 0 := rd_congr_some z1 h.start
      have h1 : l = dep.length := rd_congr_some l1 h.last
      refine ⟨h0, h1, ?_, ?_, h.travel, ?_, ?_⟩
      · rw [List.pairwise_iff_getElem]
        have key : ∀ (k i b e : Nat), fi[i]? = some b → fi[i + k]? = some e → b ≤ e := by
          intro k
          induction k with
          | zero => intro i b e h1 h2; exact Nat.le_of_eq (rd_congr_some h1 h2)
          | succ k ih =>
            intro i b e h1 h2
            obtain ⟨d, hd⟩ := rd_isSome (v := fi) (i := i + k) (by have := rd_some_lt (v := fi) h2; omega)
            have g1 := ih i b d h1 hd
            have g2 := h.points (i + k) d e hd h2
            omega
        intro i j hi hj hij
        exact key (j - i) i _ _ (List.getElem?_eq_getElem hi) (by rw [show i + (j - i) = j by omega]; exact List.getElem?_eq_getElem hj)
      · intro i h1 h2 a b ha hb
        have := h.points (i - 1) a b ha (by rw [show i - 1 + 1 = i by omega]; exact hb)
        omega
      · intro a _ _ b e hb he i j t t'
        exact h.increasing a b e i j t t' hb he
      · intro x hx
        have := h.within x hx
        simpa using this

theorem checkIfTdGraphIsValid_spec {period : Nat} {fo hd fi dep tr : List Nat} (hne : fo ≠ []) (hm : hd.length < 2 ^ 64 - 1)
    (hfi : fi.length < 2 ^ 64) :
    Tests (checkIfTdGraphIsValid period fo hd fi dep tr) (IsCSR (fo.length - 1) fo hd ∧ IsProfiles period hd.length fi dep tr) := by
  unfold checkIfTdGraphIsValid
  by_cases hfe : fi = []
  · subst hfe
    refine Tests.congr (Tests.bind (Q := False) (checkIfGraphIsValid_spec hne) fun _ => ?_) ?_
    · rw [show decide (hd.length = (([] : List Nat).length + 18446744073709551615) % 18446744073709551616) = false from by
        simp only [List.length_nil, decide_eq_false_iff_not]; omega]
      exact Or.inr ⟨rfl, id⟩
    · constructor
      · rintro ⟨_, h⟩; exact h.elim
      · rintro ⟨_, h⟩
        have := h.length
        simp at this
  · have hpos := List.length_pos_of_ne_nil hfe
    refine Tests.congr (Tests.bind (checkIfGraphIsValid_spec hne) fun _ => Tests.bind Tests.decide fun _ =>
      checkIfArcIppAreValid_spec hfe) ?_
    have e : (fi.length + 18446744073709551615) % 18446744073709551616 = fi.length - 1 := by omega
    rw [e]
    constructor
    · rintro ⟨h1, h2, h3⟩
      rw [h2]; exact ⟨h1, h3⟩
    · rintro ⟨h1, h2⟩
      have := h2.length
      have e2 : hd.length = fi.length - 1 := by omega
      exact ⟨h1, e2, by rw [← e2]; exact h2⟩

theorem checkIfSstQueriesAreValid_spec (period n : Nat) (src tm tgt rank : List Nat) :
    Tests (checkIfSstQueriesAreValid period n src tm tgt rank) (IsTimedQueries period n src tm tgt rank) := by
  unfold checkIfSstQueriesAreValid
  refine Tests.congr (Tests.bind (throwIfAny_spec _ _) fun _ => Tests.bind (throwIfAny_spec _ _) fun _ =>
    Tests.bind (throwIfAny_spec _ _) fun _ => Tests.bind Tests.decide fun _ => Tests.bind Tests.decide fun _ => Tests.decide) ?_
  simp only [decide_eq_false_iff_not, ge_iff_le, Nat.not_le]
  constructor
  · rintro ⟨h1, h2, h3, h4, h5, h6⟩; exact ⟨h1, h2, h3, h4, h5, h6⟩
  · rintro ⟨h1, h2, h3, h4, h5, h6⟩; exact ⟨h1, h2, h3, h4, h5, h6⟩

end RK
