import Verif.Proof.MinMax
import Verif.Spec.MinMax
import Verif.Model.Tools
import Mathlib.Order.Nat
/-! # C72: extreme elements and comparison of vectors -/
namespace RK.Props
open RK _root_.Spec

variable {α : Type} [LinearOrder α]

/-- The operator `<` of the element type. -/
abbrev less (a b : α) : Bool := decide (a < b)
/-- The operator `!=` of the element type. -/
abbrev unequal (a b : α) : Bool := decide (a ≠ b)

/-- `first_min_element_position_of` and `min_element_of` for a vector that is not empty. -/
theorem C72_first_min {v : List α} (hv : v ≠ []) (other : α) :
    ∃ p x, firstMinPos less v = some p ∧ IsFirstMin v p x ∧ minElementOf less v = some x ∧ minElementOr less v other = some x := by
  obtain ⟨p, x, e, hx, h1, h2⟩ := firstMinPos_eq hv
  have hm : minElementOf less v = some x := by
    unfold minElementOf less
    rw [e]
    simpa [rd] using hx
  refine ⟨p, x, e, ⟨hx, ?_, fun q y hq hy => ne_of_gt (h2 q y hq hy)⟩, hm, by rw [minElementOr, if_neg hv, hm]⟩
  intro y hy
  obtain ⟨j, hj⟩ := List.mem_iff_getElem?.1 hy
  exact h1 j y hj

/-- `first_max_element_position_of` and `max_element_of` for a vector that is not empty. -/
theorem C72_first_max {v : List α} (hv : v ≠ []) (other : α) :
    ∃ p x, firstMaxPos less v = some p ∧ IsFirstMax v p x ∧ maxElement less v = some x ∧ maxElementOr less v other = some x := by
  obtain ⟨p, x, e, hx, h1, h2⟩ := firstMaxPos_eq hv
  have hm : maxElement less v = some x := by
    unfold maxElement less
    rw [e]
    simpa [rd] using hx
  refine ⟨p, x, e, ⟨hx, ?_, fun q y hq hy => ne_of_lt (h2 q y hq hy)⟩, hm, by rw [maxElementOr, if_neg hv, hm]⟩
  intro y hy
  obtain ⟨j, hj⟩ := List.mem_iff_getElem?.1 hy
  exact h1 j y hj

/-- For an empty vector the given value is returned; without such a value it is an error to call the functions. -/
theorem C72_empty (other : α) : minElementOr less [] other = some other ∧ maxElementOr less [] other = some other ∧
    firstMinPos less ([] : List α) = none ∧ minElementOf less ([] : List α) = none ∧
    firstMaxPos less ([] : List α) = none ∧ maxElement less ([] : List α) = none :=
  ⟨rfl, rfl, rfl, rfl, rfl, rfl⟩

/-- `min_to` and `max_to` store the smaller and the larger value. -/
theorem C72_min_to (x y : α) : minToValue less x y = min x y ∧ maxToValue less x y = max x y := by
  unfold minToValue maxToValue less
  refine ⟨?_, ?_⟩
  · by_cases h : y < x
    · rw [if_pos (by simpa using h), min_eq_right (le_of_lt h)]
    · rw [if_neg (by simpa using h), min_eq_left (le_of_not_gt h)]
  · by_cases h : x < y
    · rw [if_pos (by simpa using h), max_eq_right (le_of_lt h)]
    · rw [if_neg (by simpa using h), max_eq_left (le_of_not_gt h)]

/-- The tool for comparison reports that vectors are the same if and only if they are equal.
Partial: totally ordered element types, see `C72_nan`. -/
theorem C72_same_iff_partial (v w : List α) (n : Nat) : compareNumData less unequal v w = some (.same n) ↔ v = w ∧ n = v.length := by
  unfold compareNumData
  split
  · rename_i h
    constructor
    · intro e; cases e
    · rintro ⟨rfl, _⟩; omega
  split
  · rename_i h
    constructor
    · intro e; cases e
    · rintro ⟨rfl, _⟩; omega
  have hl : v.length = w.length := by omega
  obtain ⟨s, e, h1, h2, _⟩ := compare_loop (lt := less) (ne := unequal) hl
  have hs := countP_zip_add v w hl
  have hq := countP_zip_eq v w hl
  rw [e]
  simp only [Option.bind_eq_bind, Option.bind_some]
  rw [← hq]
  unfold less at h1 h2
  split
  · rename_i h
    simp only [Option.some.injEq, CompareReport.same.injEq]
    omega
  · rename_i h
    constructor
    · intro e; cases e
    · rintro ⟨h, _⟩; omega

/-- For vectors of the same size that differ, all numbers of the report are right. -/
theorem C72_differ {v w : List α} (hl : v.length = w.length) (hb : v.length < 4294967296) (hne : v ≠ w) :
    ∃ p, IsFirstDifference v w p ∧
      compareNumData less unequal v w = some (.differ (positions (· < ·) v w) (positions (fun a b => b < a) v w)
        (positions (· = ·) v w) (positions (· ≠ ·) v w) v.length p) := by
  obtain ⟨s, e, h1, h2, h3⟩ := compare_loop (lt := less) (ne := unequal) hl
  have hs := countP_zip_add v w hl
  have hq := countP_zip_eq v w hl
  have e1 : positions (· < ·) v w = (v.zip w).countP (fun p => decide (p.1 < p.2)) := rfl
  have e2 : positions (fun a b => b < a) v w = (v.zip w).countP (fun p => decide (p.2 < p.1)) := rfl
  have e3 : positions (· = ·) v w = (v.zip w).countP (fun p => decide (p.1 = p.2)) := rfl
  have e4 : positions (· ≠ ·) v w = (v.zip w).countP (fun p => decide (p.1 ≠ p.2)) := rfl
  have hd : positions (· ≠ ·) v w = positions (· < ·) v w + positions (fun a b => b < a) v w := by
    have : ∀ l : List (α × α), l.countP (fun p => decide (p.1 = p.2)) + l.countP (fun p => decide (p.1 ≠ p.2)) = l.length := by
      intro l
      induction l with
      | nil => rfl
      | cons p l ih =>
        simp only [List.countP_cons, List.length_cons]
        by_cases h : p.1 = p.2
        · simp only [h, decide_true, ne_eq, not_true_eq_false, decide_false, Bool.false_eq_true, ↓reduceIte] at ih ⊢
          omega
        · simp only [h, decide_true, ne_eq, not_false_eq_true, decide_false, Bool.false_eq_true, ↓reduceIte] at ih ⊢
          omega
    have h4 := this (v.zip w)
    rw [List.length_zip] at h4
    rw [e1, e2, e4]
    omega
  have hneq : (v.zip w).countP (fun p => decide (p.1 = p.2)) ≠ v.length := fun h => hne (hq.1 h)
  have hget : ∀ j : Nat, (∀ a b, v[j]? = some a → w[j]? = some b → unequal a b = false) → v[j]? = w[j]? := by
    intro j h
    by_cases hj : j < v.length
    · have hv := List.getElem?_eq_getElem hj
      have hw := List.getElem?_eq_getElem (l := w) (i := j) (by omega)
      have := h _ _ hv hw
      rw [hv, hw]
      simpa [unequal] using this
    · rw [List.getElem?_eq_none (by omega), List.getElem?_eq_none (by omega)]
  refine ⟨s.first, ?_, ?_⟩
  · rcases h3 hb with ⟨_, h⟩ | ⟨h4, ⟨a, b, ha, hb', hab⟩, h5⟩
    · exact absurd (List.ext_getElem? fun j => hget j (h j)) hne
    · refine ⟨h4, ?_, fun q hq' => hget q fun a b => h5 q a b hq'⟩
      rw [ha, hb']
      simpa [unequal] using hab
  · unfold compareNumData
    rw [if_neg (by omega), if_neg (by omega), e]
    simp only [Option.bind_eq_bind, Option.bind_some]
    unfold less at h1 h2
    rw [if_neg (by omega), hd, e1, e2, e3, h1, h2, Nat.mod_eq_of_lt (b := u32) (by unfold u32; omega),
      show ∀ n a b c : Nat, a + b + c = n → n < 4294967296 → (n + 2 * 2 ^ 64 - a - b) % 2 ^ 64 = c by intros; omega]
    · exact hs
    · exact hb

/-- Vectors of different sizes are reported with their sizes. -/
theorem C72_sizes (v w : List α) : (v.length < w.length → compareNumData less unequal v w = some (.shorter1 v.length w.length)) ∧
    (w.length < v.length → compareNumData less unequal v w = some (.shorter2 w.length v.length)) := by
  unfold compareNumData
  exact ⟨fun h => by rw [if_pos h], fun h => by rw [if_neg (by omega), if_pos h]⟩

/-- The comparison of vectors of strings. -/
theorem C72_strings {β : Type} [DecidableEq β] (v w : List β) :
    compareStringData (fun a b => decide (a = b)) v w = some (
      if v.length < w.length then .shorter1 v.length w.length
      else if w.length < v.length then .shorter2 w.length v.length
      else if v = w then .same v.length
      else .differ (positions (· = ·) v w) (v.length - positions (· = ·) v w) v.length) := by
  unfold compareStringData
  by_cases h1 : v.length < w.length
  · rw [if_pos h1, if_pos h1]
  by_cases h2 : w.length < v.length
  · rw [if_neg h1, if_pos h2, if_neg h1, if_pos h2]
  have hl : v.length = w.length := by omega
  rw [if_neg h1, if_neg h2, if_neg h1, if_neg h2, compareString_loop hl]
  simp only [Option.bind_eq_bind, Option.bind_some]
  have hq := countP_zip_eq v w hl
  by_cases h : v = w
  · rw [if_pos (hq.2 h), if_pos h]
  · rw [if_neg (fun e => h (hq.1 e)), if_neg h]
    rfl

/-- Floating point numbers, as far as comparisons are concerned: `none` is NaN, which compares unequal to everything. -/
def floatLess : Option Int → Option Int → Bool
  | some a, some b => decide (a < b)
  | _, _ => false

/-- See `floatLess`. -/
def floatUnequal : Option Int → Option Int → Bool
  | some a, some b => decide (a ≠ b)
  | _, _ => true

/-- Finding: elements that are not numbers (NaN) count as equal to everything in the decision whether vectors are the same, and
hide the extreme elements that follow. -/
theorem C72_nan : compareNumData floatLess floatUnequal [some 1, none, some 3] [some 1, some 2, some 3] = some (.same 3) ∧
    compareNumData floatLess floatUnequal [none, some 1] [some 2, some 3] = some (.differ 1 0 1 1 2 0) ∧
    minElementOf floatLess [none, some 1] = some none ∧ minElementOf floatLess [some 1, none] = some (some 1) := by decide +kernel

theorem foldl_max (l : List Nat) (x : Nat) : (∀ y ∈ x :: l, y ≤ l.foldl (fun m y => if y > m then y else m) x) ∧
    l.foldl (fun m y => if y > m then y else m) x ∈ x :: l := by
  induction l generalizing x with
  | nil => simp
  | cons z l ih =>
    obtain ⟨h1, h2⟩ := ih (if z > x then z else x)
    refine ⟨?_, ?_⟩
    · intro y hy
      have h3 := h1 _ (List.mem_cons_self ..)
      simp only [List.mem_cons] at hy h1
      rw [List.foldl_cons]
      rcases hy with rfl | rfl | hy
      · exact Nat.le_trans (by split <;> omega) h3
      · exact Nat.le_trans (by split <;> omega) h3
      · exact h1 y (Or.inr hy)
    · rw [List.foldl_cons]
      rcases List.mem_cons.1 h2 with h | h
      · rw [h]; split <;> simp
      · simp [h]

/-- The model of `max_element_of` that is used for the command line tools (C68) is the same function. -/
theorem C72_max_of_tools (v : List Nat) : maxElementOf v = maxElement less v := by
  cases v with
  | nil => rfl
  | cons x l =>
    obtain ⟨p, m, _, ⟨h1, h2, _⟩, e, _⟩ := C72_first_max (v := x :: l) (by simp) 0
    rw [e]
    obtain ⟨h3, h4⟩ := foldl_max l x
    unfold maxElementOf
    have := h3 m (List.mem_of_getElem? h1)
    have := h2 _ h4
    exact congrArg some (Nat.le_antisymm ‹_› ‹_›)

/-! ### Examples -/

example : ([3, 1, 2, 1] : List Nat) ≠ [] ∧ firstMinPos less [3, 1, 2, 1] = some 1 ∧ firstMaxPos less [3, 1, 3, 1] = some 0 := by decide

example : compareNumData less unequal [1, 5, 3] [1, 4, 4] = some (.differ 1 1 1 2 3 1) ∧ IsFirstDifference [1, 5, 3] [1, 4, 4] 1 :=
  ⟨by decide, by decide, by decide, by
    intro q hq
    have : q = 0 := by omega
    subst this
    rfl⟩

example : compareStringData (fun a b => decide (a = b)) [[1], [2]] [[1], [3]] = some (.differ 1 1 2) := by decide

end RK.Props
