import Verif.Model.MinMax
import Mathlib.Order.Defs.LinearOrder
/-! # Proofs about minima, maxima and the comparison of vectors -/
namespace RK

/-- The position of the first best element, where `b y x` means that `y` is better than `x`. -/
theorem firstBest {α : Type} {b : α → α → Bool} (hirr : ∀ x, b x x = false) (htr : ∀ x y z, b x y = true → b y z = true → b x z = true)
    (hneg : ∀ x y z, b x y = false → b y z = false → b x z = false) {v : List α} (hv : v ≠ []) :
    ∃ p x, forRange 1 v.length 0 (fun pos i => do
      let a ← rd v i
      let c ← rd v pos
      some (if b a c then i else pos)) = some p ∧ v[p]? = some x ∧ (∀ (j : Nat) y, v[j]? = some y → b y x = false) ∧
      ∀ (j : Nat) y, j < p → v[j]? = some y → b x y = true := by
  have hlen : 0 < v.length := List.length_pos_iff.2 hv
  obtain ⟨p, e, hp, x, hx, hm, hf⟩ := forRange_inv (f := fun pos i => do
      let a ← rd v i
      let c ← rd v pos
      some (if b a c then i else pos)) (fun i pos => pos < i ∧ ∃ x, v[pos]? = some x ∧ (∀ (j : Nat) y, j < i → v[j]? = some y → b y x = false) ∧
      ∀ (j : Nat) y, j < pos → v[j]? = some y → b x y = true) (lo := 1) (hi := v.length) (s := 0) (by omega)
    (by
      refine ⟨by omega, v[0], List.getElem?_eq_getElem hlen, ?_, by omega⟩
      intro j y hj hy
      have : j = 0 := by omega
      subst this
      rw [List.getElem?_eq_getElem hlen] at hy
      cases hy
      exact hirr _)
    (by
      rintro i pos h1 h2 ⟨hp, x, hx, hm, hf⟩
      have hi := List.getElem?_eq_getElem h2
      refine ⟨_, by simp only [rd, hi, hx, Option.bind_eq_bind, Option.bind_some]; rfl, ?_⟩
      split
      · rename_i hb
        refine ⟨by omega, v[i], hi, ?_, ?_⟩
        · intro j y hj hy
          by_cases e : j = i
          · subst e; rw [hi] at hy; cases hy; exact hirr _
          · by_contra hc
            have := hm j y (by omega) hy
            rw [htr _ _ _ (by simpa using hc) hb] at this
            cases this
        · intro j y hj hy
          by_contra hc
          rw [hneg _ _ _ (by simpa using hc) (hm j y (by omega) hy)] at hb
          cases hb
      · rename_i hb
        refine ⟨by omega, x, hx, ?_, hf⟩
        intro j y hj hy
        by_cases e : j = i
        · subst e; rw [hi] at hy; cases hy; simpa using hb
        · exact hm j y (by omega) hy)
  refine ⟨p, x, e, hx, ?_, hf⟩
  intro j y hy
  exact hm j y (List.getElem?_eq_some_iff.1 hy).1 hy

theorem firstMinPos_eq {α : Type} [LinearOrder α] {v : List α} (hv : v ≠ []) :
    ∃ p x, firstMinPos (fun a b => decide (a < b)) v = some p ∧ v[p]? = some x ∧ (∀ (j : Nat) y, v[j]? = some y → x ≤ y) ∧
      ∀ (j : Nat) y, j < p → v[j]? = some y → x < y := by
  obtain ⟨p, x, e, hx, h1, h2⟩ := firstBest (b := fun a b => decide (a < b)) (v := v) (by simp) (by simpa using fun x y z => lt_trans)
    (by simpa using fun x y z h1 h2 => le_trans h2 h1) hv
  refine ⟨p, x, ?_, hx, by simpa using h1, by simpa using h2⟩
  unfold firstMinPos
  simp only [check, hv, ne_eq, not_false_eq_true, decide_true, ↓reduceIte, Option.bind_eq_bind, Option.bind_some]
  exact e

theorem firstMaxPos_eq {α : Type} [LinearOrder α] {v : List α} (hv : v ≠ []) :
    ∃ p x, firstMaxPos (fun a b => decide (a < b)) v = some p ∧ v[p]? = some x ∧ (∀ (j : Nat) y, v[j]? = some y → y ≤ x) ∧
      ∀ (j : Nat) y, j < p → v[j]? = some y → y < x := by
  obtain ⟨p, x, e, hx, h1, h2⟩ := firstBest (b := fun a b => decide (b < a)) (v := v) (by simp) (by simpa using fun x y z h1 h2 => lt_trans h2 h1)
    (by simpa using fun x y z => le_trans) hv
  refine ⟨p, x, ?_, hx, by simpa using h1, by simpa using h2⟩
  unfold firstMaxPos
  simp only [check, hv, ne_eq, not_false_eq_true, decide_true, ↓reduceIte, Option.bind_eq_bind, Option.bind_some]
  exact e

/-- The loop of the comparison. -/
theorem compare_loop {α : Type} {lt ne : α → α → Bool} {v w : List α} (hl : v.length = w.length) :
    ∃ s, forRange 0 v.length ⟨0, 0, 4294967295⟩ (compareStep lt ne v w) = some s ∧
      s.smaller1 = (v.zip w).countP (fun p => lt p.1 p.2) ∧ s.smaller2 = (v.zip w).countP (fun p => lt p.2 p.1) ∧
      (v.length < 4294967296 →
        (s.first = 4294967295 ∧ ∀ (j : Nat) a b, v[j]? = some a → w[j]? = some b → ne a b = false) ∨
        (s.first < v.length ∧ (∃ a b, v[s.first]? = some a ∧ w[s.first]? = some b ∧ ne a b = true) ∧
          ∀ (j : Nat) a b, j < s.first → v[j]? = some a → w[j]? = some b → ne a b = false)) := by
  obtain ⟨s, e, h⟩ := forRange_inv (f := compareStep lt ne v w) (fun i s => 
      s.smaller1 = ((v.zip w).take i).countP (fun p => lt p.1 p.2) ∧ s.smaller2 = ((v.zip w).take i).countP (fun p => lt p.2 p.1) ∧
      (v.length < 4294967296 →
        (s.first = 4294967295 ∧ ∀ (j : Nat) a b, j < i → v[j]? = some a → w[j]? = some b → ne a b = false) ∨
        (s.first < i ∧ (∃ a b, v[s.first]? = some a ∧ w[s.first]? = some b ∧ ne a b = true) ∧
          ∀ (j : Nat) a b, j < s.first → v[j]? = some a → w[j]? = some b → ne a b = false)))
    (lo := 0) (hi := v.length) (s := ⟨0, 0, 4294967295⟩) (by omega) ⟨rfl, rfl, fun _ => Or.inl ⟨rfl, by omega⟩⟩
    (by
      rintro i ⟨s1, s2, f⟩ - hi ⟨h1, h2, h3⟩
      have hv := List.getElem?_eq_getElem hi
      have hw := List.getElem?_eq_getElem (l := w) (i := i) (by omega)
      have hz : (v.zip w).take (i + 1) = (v.zip w).take i ++ [(v[i], w[i])] := by
        rw [List.take_add_one, List.getElem?_eq_getElem (by rw [List.length_zip]; omega)]
        simp
      refine ⟨_, by simp only [compareStep, rd, hv, hw, Option.bind_eq_bind, Option.bind_some]; rfl, ?_⟩
      refine ⟨?_, ?_, ?_⟩
      · rw [hz, List.countP_append]
        simp only at h1
        simp only [List.countP_cons, List.countP_nil, ← h1]
        split <;> simp
      · rw [hz, List.countP_append]
        simp only at h2
        simp only [List.countP_cons, List.countP_nil, ← h2]
        split <;> simp
      · intro hlt
        simp only
        have hstep : ∀ (j : Nat) a b, j < i + 1 → v[j]? = some a → w[j]? = some b → j = i ∧ a = v[i] ∧ b = w[i] ∨ j < i := by
          intro j a b hj ha hb
          by_cases e : j = i
          · subst e; rw [hv] at ha; rw [hw] at hb; cases ha; cases hb; exact Or.inl ⟨rfl, rfl, rfl⟩
          · exact Or.inr (by omega)
        rcases h3 hlt with ⟨hf, hall⟩ | ⟨hf, hex, hall⟩
        · simp only at hf
          subst hf
          cases hn : ne v[i] w[i] with
          | true =>
            simp only [decide_true, Bool.and_self, ↓reduceIte]
            exact Or.inr ⟨by omega, ⟨_, _, hv, hw, hn⟩, hall⟩
          | false =>
            simp only [decide_true, Bool.and_true, Bool.false_eq_true, ↓reduceIte, true_and]
            refine Or.inl fun j a b hj ha hb => ?_
            rcases hstep j a b hj ha hb with ⟨_, rfl, rfl⟩ | h
            · exact hn
            · exact hall j a b h ha hb
        · simp only at hf hex hall
          have hne : f ≠ 4294967295 := by omega
          simp only [hne, decide_false, Bool.and_false, Bool.false_eq_true, ↓reduceIte]
          exact Or.inr ⟨by omega, hex, hall⟩)
  refine ⟨s, e, ?_⟩
  rw [List.take_of_length_le (by rw [List.length_zip]; omega)] at h
  obtain ⟨h1, h2, h3⟩ := h
  refine ⟨h1, h2, fun hlt => ?_⟩
  rcases h3 hlt with ⟨hf, hall⟩ | h
  · exact Or.inl ⟨hf, fun j a b ha hb => hall j a b (List.getElem?_eq_some_iff.1 ha).1 ha hb⟩
  · exact Or.inr h

theorem countP_zip_add {α : Type} [LinearOrder α] : ∀ (v w : List α), v.length = w.length →
    (v.zip w).countP (fun p => decide (p.1 < p.2)) + (v.zip w).countP (fun p => decide (p.2 < p.1)) + (v.zip w).countP (fun p => decide (p.1 = p.2)) = v.length
  | [], [], _ => rfl
  | a :: v, b :: w, h => by
    have ih := countP_zip_add v w (by simpa using h)
    simp only [List.zip_cons_cons, List.countP_cons, List.length_cons]
    rcases lt_trichotomy a b with h | h | h
    · simp only [h, not_lt_of_gt h, ne_of_lt h, decide_true, decide_false, Bool.false_eq_true, ↓reduceIte]; omega
    · subst h; simp only [lt_irrefl, decide_true, decide_false, Bool.false_eq_true, ↓reduceIte]; omega
    · simp only [h, not_lt_of_gt h, ne_of_gt h, decide_true, decide_false, Bool.false_eq_true, ↓reduceIte]; omega

theorem countP_zip_eq {α : Type} [DecidableEq α] : ∀ (v w : List α), v.length = w.length →
    ((v.zip w).countP (fun p => decide (p.1 = p.2)) = v.length ↔ v = w)
  | [], [], _ => by simp
  | a :: v, b :: w, h => by
    have hl : v.length = w.length := by simpa using h
    have ih := countP_zip_eq v w hl
    have hle : (v.zip w).countP (fun p => decide (p.1 = p.2)) ≤ v.length := by
      refine Nat.le_trans List.countP_le_length ?_
      rw [List.length_zip]; omega
    simp only [List.zip_cons_cons, List.countP_cons, List.length_cons, List.cons.injEq]
    by_cases e : a = b
    · simp only [e, decide_true, ↓reduceIte, true_and, ← ih]; omega
    · simp only [e, decide_false, Bool.false_eq_true, ↓reduceIte, false_and, iff_false]; omega

theorem compareString_loop {α : Type} {eq : α → α → Bool} {v w : List α} (hl : v.length = w.length) :
    forRange 0 v.length 0 (fun n i => do
      let a ← rd v i
      let b ← rd w i
      some (if eq a b then n + 1 else n)) = some ((v.zip w).countP (fun p => eq p.1 p.2)) := by
  obtain ⟨s, e, h⟩ := forRange_inv (f := fun n i => do
      let a ← rd v i
      let b ← rd w i
      some (if eq a b then n + 1 else n)) (fun i s => s = ((v.zip w).take i).countP (fun p => eq p.1 p.2))
    (lo := 0) (hi := v.length) (s := 0) (by omega) rfl
    (by
      rintro i s - hi h1
      have hv := List.getElem?_eq_getElem hi
      have hw := List.getElem?_eq_getElem (l := w) (i := i) (by omega)
      have hz : (v.zip w).take (i + 1) = (v.zip w).take i ++ [(v[i], w[i])] := by
        rw [List.take_add_one, List.getElem?_eq_getElem (by rw [List.length_zip]; omega)]
        simp
      refine ⟨_, by simp only [rd, hv, hw, Option.bind_eq_bind, Option.bind_some]; rfl, ?_⟩
      rw [hz, List.countP_append]
      simp only [List.countP_cons, List.countP_nil, ← h1]
      split <;> simp)
  rw [List.take_of_length_le (by rw [List.length_zip]; omega)] at h
  rw [e, h]

end RK
