import Verif.Model.TextIO
import Verif.Spec.Dimacs
/-! # Reading words, numbers and lines -/
namespace RK
open Spec

theorem isSpace_iff {c : Char} : isSpace c = true ↔ IsBlank c ∨ c = '\n' := by
  simp only [isSpace, IsBlank, Bool.or_eq_true, decide_eq_true_eq]
  tauto

theorem isBlank_isSpace {c : Char} (h : IsBlank c) : isSpace c = true := isSpace_iff.2 (Or.inl h)

theorem dropWhile_append_of {p : Char → Bool} : ∀ {a b : List Char}, (∀ c ∈ a, p c = true) → (∀ c, b.head? = some c → p c = false) →
    (a ++ b).dropWhile p = b
  | [], [], _, _ => rfl
  | [], c :: b, _, h => by simp [List.dropWhile_cons, h c rfl]
  | c :: a, b, h1, h2 => by
    rw [List.cons_append, List.dropWhile_cons, if_pos (h1 c (List.mem_cons_self ..))]
    exact dropWhile_append_of (fun d hd => h1 d (List.mem_cons_of_mem _ hd)) h2

theorem takeWhile_append_of {p : Char → Bool} : ∀ {a b : List Char}, (∀ c ∈ a, p c = true) → (∀ c, b.head? = some c → p c = false) →
    (a ++ b).takeWhile p = a
  | [], [], _, _ => rfl
  | [], c :: b, _, h => by simp [List.takeWhile_cons, h c rfl]
  | c :: a, b, h1, h2 => by
    rw [List.cons_append, List.takeWhile_cons, if_pos (h1 c (List.mem_cons_self ..)),
      takeWhile_append_of (fun d hd => h1 d (List.mem_cons_of_mem _ hd)) h2]

theorem isWords_no_newline {text : List Char} {ws : List (List Char)} (h : IsWords text ws) : '\n' ∉ text := by
  have hb : ¬ IsBlank '\n' := by unfold IsBlank; decide
  induction h with
  | nil gap hg => exact fun hm => hb (hg _ hm)
  | cons gap w rest ws hg _ hw _ _ ih =>
    intro hm
    rcases List.mem_append.1 hm with hm | hm
    · rcases List.mem_append.1 hm with hm | hm
      · exact hb (hg _ hm)
      · exact (hw _ hm).2 rfl
    · exact ih hm

theorem isWords_cons {text w : List Char} {ws : List (List Char)} (h : IsWords text (w :: ws)) :
    w ≠ [] ∧ (∀ c ∈ w, isSpace c = false) ∧ ∃ rest, text.dropWhile isSpace = w ++ rest ∧ IsWords rest ws ∧
      ∀ c, rest.head? = some c → isSpace c = true := by
  cases h with
  | cons gap _ rest _ hg hne hw hr hws =>
    have hw' : ∀ c ∈ w, isSpace c = false := by
      intro c hc
      rw [Bool.eq_false_iff]
      intro hs
      rcases isSpace_iff.1 hs with hs | hs
      · exact (hw c hc).1 hs
      · exact (hw c hc).2 hs
    refine ⟨hne, hw', rest, ?_, hws, fun c hc => isBlank_isSpace (hr c hc)⟩
    rw [List.append_assoc]
    refine dropWhile_append_of (fun c hc => isBlank_isSpace (hg c hc)) ?_
    intro c hc
    obtain ⟨d, w', rfl⟩ := List.exists_cons_of_ne_nil hne
    simp only [List.cons_append, List.head?_cons, Option.some.injEq] at hc
    exact hw' c (hc ▸ List.mem_cons_self ..)

theorem readWord_words {text w : List Char} {ws : List (List Char)} (h : IsWords text (w :: ws)) :
    ∃ rest, readWord text = some (w, rest) ∧ IsWords rest ws := by
  obtain ⟨hne, hw, rest, hd, hws, hr⟩ := isWords_cons h
  refine ⟨rest, ?_, hws⟩
  have h1 : (w ++ rest).takeWhile (fun c => !isSpace c) = w :=
    takeWhile_append_of (fun c hc => by simp [hw c hc]) (fun c hc => by simp [hr c hc])
  have h2 : (w ++ rest).dropWhile (fun c => !isSpace c) = rest :=
    dropWhile_append_of (fun c hc => by simp [hw c hc]) (fun c hc => by simp [hr c hc])
  simp only [readWord, hd, h1, h2, if_neg hne]

theorem isSpace_not_isDigit {c : Char} (h : isSpace c = true) : c.isDigit = false := by
  simp only [isSpace, Bool.or_eq_true, decide_eq_true_eq] at h
  rcases h with ((((rfl | rfl) | rfl) | rfl) | rfl) | rfl <;> decide

theorem readSign_other {c : Char} {s : List Char} (h1 : c ≠ '-') (h2 : c ≠ '+') : readSign (c :: s) = (false, c :: s) := by
  unfold readSign
  split
  · rename_i h; injection h with h _; exact absurd h h1
  · rename_i h; injection h with h _; exact absurd h h2
  · rfl

theorem readDecimal_words {text w : List Char} {ws : List (List Char)} {v : Nat} (h : IsWords text (w :: ws)) (hv : IsDecimal w v) :
    ∃ rest, readDecimal text = some (false, v, rest) ∧ IsWords rest ws := by
  obtain ⟨hne, hw, rest, hd, hws, hr⟩ := isWords_cons h
  refine ⟨rest, ?_, hws⟩
  have h1 : (w ++ rest).takeWhile Char.isDigit = w :=
    takeWhile_append_of hv.2.1 (fun c hc => isSpace_not_isDigit (hr c hc))
  have h2 : (w ++ rest).dropWhile Char.isDigit = rest :=
    dropWhile_append_of hv.2.1 (fun c hc => isSpace_not_isDigit (hr c hc))
  have h3 : readSign (w ++ rest) = (false, w ++ rest) := by
    obtain ⟨d, w', rfl⟩ := List.exists_cons_of_ne_nil hne
    have hdd := hv.2.1 d (List.mem_cons_self ..)
    exact readSign_other (fun e => by subst e; exact absurd hdd (by decide)) (fun e => by subst e; exact absurd hdd (by decide))
  simp only [readDecimal, hd, h3, h1, h2, if_neg hne, hv.2.2]

theorem readUnsigned_words {text w : List Char} {ws : List (List Char)} {v : Nat} (h : IsWords text (w :: ws)) (hv : IsDecimal w v) :
    ∃ rest, readUnsigned text = (if v < u32 then some (v, rest) else none) ∧ IsWords rest ws := by
  obtain ⟨rest, e, hws⟩ := readDecimal_words h hv
  refine ⟨rest, ?_, hws⟩
  simp only [readUnsigned, e, Option.bind_eq_bind, Option.bind_some]
  by_cases hlt : v < u32
  · rw [if_pos hlt, if_pos hlt]; rfl
  · rw [if_neg hlt, if_neg hlt]

/-- A word that starts neither with a digit nor with a sign is not a number. -/
theorem readUnsigned_letter {text w : List Char} {ws : List (List Char)} {c : Char} (h : IsWords text (w :: ws)) (hc : w.head? = some c)
    (h1 : c ≠ '-') (h2 : c ≠ '+') (h3 : c.isDigit = false) : readUnsigned text = none := by
  obtain ⟨hne, hw, rest, hd, hws, hr⟩ := isWords_cons h
  obtain ⟨d, w', rfl⟩ := List.exists_cons_of_ne_nil hne
  simp only [List.head?_cons, Option.some.injEq] at hc
  subst hc
  have h4 : (d :: (w' ++ rest)).takeWhile Char.isDigit = [] := by simp [List.takeWhile_cons, h3]
  simp only [readUnsigned, readDecimal, hd, List.cons_append, readSign_other h1 h2, h4, if_true]
  rfl

theorem readUnsigned_lt {s r : Text} {v : Nat} (h : readUnsigned s = some (v, r)) : v < u32 := by
  simp only [readUnsigned, Option.bind_eq_bind, Option.bind_eq_some_iff] at h
  obtain ⟨⟨neg, x, r'⟩, _, h⟩ := h
  simp only at h
  by_cases hlt : x < u32
  · rw [if_pos hlt] at h
    cases h
    cases neg
    · simpa using hlt
    · simp only [if_true]; exact Nat.mod_lt _ (by unfold u32; omega)
  · rw [if_neg hlt] at h; cases h

theorem getLinesFrom_line : ∀ {t : Text} {cur rest : Text}, '\n' ∉ t → getLinesFrom cur (t ++ '\n' :: rest) = (cur ++ t) :: getLines rest
  | [], cur, rest, _ => by simp [getLinesFrom, getLines]
  | c :: t, cur, rest, h => by
    rw [List.cons_append, getLinesFrom, if_neg (fun e : c = '\n' => h (by rw [e]; exact List.mem_cons_self ..)),
      getLinesFrom_line (fun hm => h (List.mem_cons_of_mem _ hm))]
    simp

theorem getLinesFrom_last : ∀ {t : Text} {cur : Text}, '\n' ∉ t → getLinesFrom cur t = if cur ++ t = [] then [] else [cur ++ t]
  | [], cur, _ => by simp [getLinesFrom]
  | c :: t, cur, h => by
    rw [getLinesFrom, if_neg (fun e : c = '\n' => h (by rw [e]; exact List.mem_cons_self ..)), getLinesFrom_last (fun hm => h (List.mem_cons_of_mem _ hm))]
    simp

theorem getLines_line {t rest : Text} (h : '\n' ∉ t) : getLines (t ++ '\n' :: rest) = t :: getLines rest := by
  have := getLinesFrom_line (cur := []) (rest := rest) h
  simpa [getLines] using this

theorem getLines_last {t : Text} (h : '\n' ∉ t) : getLines t = if t = [] then [] else [t] := by
  have := getLinesFrom_last (cur := []) h
  simpa [getLines] using this

end RK
