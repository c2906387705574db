import Verif.Spec.FirstWords
import Verif.Proof.DimacsCoord
import Verif.Proof.VectorText
/-! # What is known about accepted lines -/
namespace RK
open Spec

theorem readWord_split {t w r : List Char} (h : readWord t = some (w, r)) (hn : '\n' ∉ t) :
    ∃ gap, t = gap ++ w ++ r ∧ (∀ c ∈ gap, IsBlank c) ∧ w ≠ [] ∧ (∀ c ∈ w, ¬ IsBlank c ∧ c ≠ '\n') ∧
      (∀ c, r.head? = some c → IsBlank c) ∧ '\n' ∉ r := by
  unfold readWord at h
  simp only at h
  by_cases hw : (t.dropWhile isSpace).takeWhile (fun c => !isSpace c) = []
  · rw [if_pos hw] at h; cases h
  · rw [if_neg hw] at h
    cases h
    have hsplit : t = t.takeWhile isSpace ++ (t.dropWhile isSpace).takeWhile (fun c => !isSpace c) ++
        (t.dropWhile isSpace).dropWhile (fun c => !isSpace c) := by
      rw [List.append_assoc, List.takeWhile_append_dropWhile, List.takeWhile_append_dropWhile]
    have hsub : ∀ c ∈ (t.dropWhile isSpace).dropWhile (fun c => !isSpace c), c ∈ t := fun c hc =>
      (List.dropWhile_suffix _).subset ((List.dropWhile_suffix _).subset hc)
    refine ⟨t.takeWhile isSpace, hsplit, ?_, hw, ?_, ?_, fun hc => hn (hsub _ hc)⟩
    · intro c hc
      rcases isSpace_iff.1 (mem_takeWhile hc) with h1 | rfl
      · exact h1
      · exact absurd (List.takeWhile_subset _ hc) hn
    · intro c hc
      have h1 := mem_takeWhile hc
      simp only [Bool.not_eq_true'] at h1
      refine ⟨fun h2 => ?_, fun h2 => ?_⟩
      · rw [isBlank_isSpace h2] at h1; cases h1
      · rw [isSpace_iff.2 (Or.inr h2)] at h1; cases h1
    · intro c hc
      have h1 := head_dropWhile hc
      simp only [Bool.not_eq_false'] at h1
      rcases isSpace_iff.1 h1 with h2 | rfl
      · exact h2
      · exact absurd (hsub _ (List.mem_of_mem_head? hc)) hn

theorem firstWords_readWord {t w r : List Char} {ws : List (List Char)} (h : readWord t = some (w, r)) (hn : '\n' ∉ t)
    (hr : '\n' ∉ r → FirstWords r ws) : FirstWords t (w :: ws) := by
  obtain ⟨gap, rfl, h1, h2, h3, h4, h5⟩ := readWord_split h hn
  exact .cons gap w r ws h1 h2 h3 h4 (hr h5)

theorem isWords_readWord {t w r : List Char} {ws : List (List Char)} (h : readWord t = some (w, r)) (hn : '\n' ∉ t)
    (hr : '\n' ∉ r → IsWords r ws) : IsWords t (w :: ws) := by
  obtain ⟨gap, rfl, h1, h2, h3, h4, h5⟩ := readWord_split h hn
  exact .cons gap w r ws h1 h2 h3 h4 (hr h5)

theorem isWords_none {t : List Char} (h : readWord t = none) (hn : '\n' ∉ t) : IsWords t [] := by
  unfold readWord at h
  simp only at h
  by_cases hw : (t.dropWhile isSpace).takeWhile (fun c => !isSpace c) = []
  · refine .nil t fun c hc => ?_
    have hd : t.dropWhile isSpace = [] := by
      cases e : t.dropWhile isSpace with
      | nil => rfl
      | cons d l =>
        have h1 : isSpace d = false := head_dropWhile (l := t) (by rw [e]; rfl)
        rw [e, List.takeWhile_cons, h1] at hw
        cases hw
    have h2 : t.takeWhile isSpace = t := by
      have := List.takeWhile_append_dropWhile (p := isSpace) (l := t)
      rwa [hd, List.append_nil] at this
    rw [← h2] at hc
    rcases isSpace_iff.1 (mem_takeWhile hc) with h1 | rfl
    · exact h1
    · rw [h2] at hc; exact absurd hc hn
  · rw [if_neg hw] at h; cases h

/-- A number that is followed by nothing is a word. -/
theorem isWords_number {t r : List Char} {n : Nat} (h : readUnsigned t = some (n, r)) (he : readWord r = none) (hn : '\n' ∉ t) :
    ∃ a v, IsWords t [a] ∧ IsInteger a v ∧ -4294967296 < v ∧ v < 4294967296 := by
  unfold readUnsigned at h
  simp only [Option.bind_eq_bind, Option.bind_eq_some_iff] at h
  obtain ⟨⟨neg, k, r'⟩, h1, h2⟩ := h
  by_cases hk : k < u32
  · simp only [if_pos hk, Option.some.injEq, Prod.mk.injEq] at h2
    obtain ⟨_, rfl⟩ := h2
    obtain ⟨sign, hs, hsg⟩ := readSign_split (t.dropWhile isSpace)
    unfold readDecimal at h1
    simp only at h1
    by_cases hd : (readSign (t.dropWhile isSpace)).2.takeWhile Char.isDigit = []
    · rw [if_pos hd] at h1; cases h1
    · rw [if_neg hd] at h1
      cases h1
      have hsplit : t = t.takeWhile isSpace ++ (sign ++ (readSign (t.dropWhile isSpace)).2.takeWhile Char.isDigit) ++
          (readSign (t.dropWhile isSpace)).2.dropWhile Char.isDigit := by
        conv => lhs; rw [← List.takeWhile_append_dropWhile (p := isSpace) (l := t), hs,
          ← List.takeWhile_append_dropWhile (p := Char.isDigit) (l := (readSign (t.dropWhile isSpace)).2)]
        simp only [List.append_assoc]
      have hsub : ∀ c ∈ (readSign (t.dropWhile isSpace)).2.dropWhile Char.isDigit, c ∈ t := by
        intro c hc
        rw [hsplit]
        exact List.mem_append_right _ hc
      have hend := isWords_none he (fun hc => hn (hsub _ hc))
      have hdig : IsDecimal ((readSign (t.dropWhile isSpace)).2.takeWhile Char.isDigit)
          (Nat.ofDigitChars 10 ((readSign (t.dropWhile isSpace)).2.takeWhile Char.isDigit) 0) := ⟨hd, fun c hc => mem_takeWhile hc, rfl⟩
      generalize (readSign (t.dropWhile isSpace)).2.takeWhile Char.isDigit = digits at *
      generalize (readSign (t.dropWhile isSpace)).2.dropWhile Char.isDigit = rest at *
      have hw : IsWords t [sign ++ digits] := by
        rw [hsplit]
        refine .cons _ _ _ _ ?_ ?_ ?_ ?_ hend
        · intro c hc
          rcases isSpace_iff.1 (mem_takeWhile hc) with h1 | rfl
          · exact h1
          · exact absurd (List.takeWhile_subset _ hc) hn
        · intro e
          exact hd (List.append_eq_nil_iff.1 e).2
        · intro c hc
          rcases List.mem_append.1 hc with hc | hc
          · have : c = '-' ∨ c = '+' := by
              rcases hsg with ⟨_, rfl⟩ | ⟨_, rfl | rfl⟩
              · exact Or.inl (by simpa using hc)
              · simp at hc
              · exact Or.inr (by simpa using hc)
            rcases this with rfl | rfl <;> (unfold IsBlank; decide)
          · exact isDecimal_word hdig c hc
        · cases hend with
          | nil _ hg => exact fun c hc => hg c (List.mem_of_mem_head? hc)
      have hk' : Nat.ofDigitChars 10 digits 0 < 4294967296 := hk
      rcases hsg with ⟨_, rfl⟩ | ⟨_, rfl | rfl⟩
      · exact ⟨_, -(_ : Int), hw, ⟨digits, _, hdig, Or.inr (Or.inr ⟨rfl, rfl⟩)⟩, by omega, by omega⟩
      · exact ⟨_, ((_ : Nat) : Int), hw, ⟨digits, _, hdig, Or.inl ⟨rfl, rfl⟩⟩, by omega, by omega⟩
      · exact ⟨_, ((_ : Nat) : Int), hw, ⟨digits, _, hdig, Or.inr (Or.inl ⟨rfl, rfl⟩)⟩, by omega, by omega⟩
  · simp only [if_neg hk] at h2
    cases h2

theorem coordHeaderFields_words {t : List Char} {n : Nat} (h : coordHeaderFields t = some n) (hn : '\n' ∉ t) :
    ∃ a v, IsWords t [['p'], ['a', 'u', 'x'], ['s', 'p'], ['c', 'o'], a] ∧ IsInteger a v ∧ -4294967296 < v ∧ v < 4294967296 := by
  unfold coordHeaderFields at h
  simp only [Option.bind_eq_bind, Option.bind_eq_some_iff, check_eq_some, decide_eq_true_eq, Option.some.injEq, Prod.exists] at h
  obtain ⟨b1, s1, e1, _, rfl, b2, s2, e2, _, rfl, b3, s3, e3, _, rfl, b4, s4, e4, _, rfl, n', s5, e5, _, hnone, rfl⟩ := h
  obtain ⟨_, r1, _, _, _, _, n1⟩ := readWord_split e1 hn
  obtain ⟨_, r2, _, _, _, _, n2⟩ := readWord_split e2 n1
  obtain ⟨_, r3, _, _, _, _, n3⟩ := readWord_split e3 n2
  obtain ⟨_, r4, _, _, _, _, n4⟩ := readWord_split e4 n3
  obtain ⟨a, v, h1, h2⟩ := isWords_number e5 (by simpa using hnone) n4
  exact ⟨a, v, isWords_readWord e1 hn fun _ => isWords_readWord e2 n1 fun _ => isWords_readWord e3 n2 fun _ =>
    isWords_readWord e4 n3 fun _ => h1, h2⟩

theorem coordFields_words {t : List Char} {r : Nat × Int × Int} (h : coordFields t = some r) (hn : '\n' ∉ t) : FirstWords t [['v']] := by
  unfold coordFields at h
  simp only [Option.bind_eq_bind, Option.bind_eq_some_iff, check_eq_some, decide_eq_true_eq, Prod.exists] at h
  obtain ⟨b1, s1, e1, _, rfl, _⟩ := h
  exact firstWords_readWord e1 hn fun _ => .nil _

theorem dimacsHeader_words {t : List Char} {s : DimacsState} (h : dimacsHeader t = .ok s) (hn : '\n' ∉ t) :
    FirstWords t [['p'], ['s', 'p']] := by
  unfold dimacsHeader at h
  cases e : dimacsHeaderFields t with
  | none => rw [e] at h; cases h
  | some f =>
    obtain ⟨p, sp, n, m⟩ := f
    rw [e] at h
    simp only at h
    by_cases hp : p = ['p'] ∧ sp = ['s', 'p']
    · obtain ⟨rfl, rfl⟩ := hp
      unfold dimacsHeaderFields at e
      simp only [Option.bind_eq_bind, Option.bind_eq_some_iff, Prod.exists, Option.some.injEq, Prod.mk.injEq] at e
      obtain ⟨_, s1, e1, _, s2, e2, _, _, _, _, _, _, rfl, rfl, _⟩ := e
      exact firstWords_readWord e1 hn fun n1 => firstWords_readWord e2 n1 fun _ => .nil _
    · rw [if_neg hp] at h; cases h

theorem dimacsArc_words {t : List Char} {s s' : DimacsState} {n m : Nat} (h : dimacsArc s n m t = .ok s') (hn : '\n' ∉ t) :
    FirstWords t [['a']] := by
  unfold dimacsArc at h
  cases e : dimacsArcFields t with
  | none => rw [e] at h; cases h
  | some f =>
    obtain ⟨a, x, y, w⟩ := f
    rw [e] at h
    simp only at h
    by_cases ha : a = ['a']
    · subst ha
      unfold dimacsArcFields at e
      simp only [Option.bind_eq_bind, Option.bind_eq_some_iff, Prod.exists, Option.some.injEq, Prod.mk.injEq] at e
      obtain ⟨_, s1, e1, _, _, _, _, _, _, _, _, _, rfl, _⟩ := e
      exact firstWords_readWord e1 hn fun _ => .nil _
    · rw [if_pos (Or.inl ha)] at h; cases h

/-- Splits an accepted fold into comments, the header, and the lines after it. -/
theorem accepted_lines {σ : Type} {step : σ → Text → Res σ} {fresh : σ → Prop} {H L : Text → Prop}
    (hcomment : ∀ s t, IsCommentText t → step s t = .ok s)
    (hhead : ∀ s t s', fresh s → ¬ IsCommentText t → '\n' ∉ t → step s t = .ok s' → H t ∧ ¬ fresh s')
    (hline : ∀ s t s', ¬ fresh s → ¬ IsCommentText t → '\n' ∉ t → step s t = .ok s' → L t ∧ ¬ fresh s') :
    ∀ (ls : List Text) (s s' : σ), (∀ l ∈ ls, '\n' ∉ l) → ls.foldlM step s = .ok s' →
      (¬ fresh s → ¬ fresh s' ∧ ∀ l ∈ ls, IsCommentText l ∨ L l) ∧
      (fresh s → fresh s' ∨ ∃ before header after, ls = before ++ header :: after ∧ (∀ l ∈ before, IsCommentText l) ∧ H header ∧
        ∀ l ∈ after, IsCommentText l ∨ L l)
  | [], s, s', _, h => by
    cases h
    exact ⟨fun h => ⟨h, by simp⟩, fun h => Or.inl h⟩
  | l :: ls, s, s', hn, h => by
    rw [List.foldlM_cons] at h
    have hn' : ∀ l ∈ ls, '\n' ∉ l := fun x hx => hn x (List.mem_cons_of_mem _ hx)
    by_cases hc : IsCommentText l
    · rw [hcomment s l hc, Res.ok_bind] at h
      obtain ⟨h1, h2⟩ := accepted_lines hcomment hhead hline ls s s' hn' h
      refine ⟨fun hf => ⟨(h1 hf).1, fun x hx => ?_⟩, fun hf => ?_⟩
      · rcases List.mem_cons.1 hx with rfl | hx
        · exact Or.inl hc
        · exact (h1 hf).2 x hx
      · rcases h2 hf with h3 | ⟨b, hd, a, rfl, h3, h4, h5⟩
        · exact Or.inl h3
        · refine Or.inr ⟨l :: b, hd, a, rfl, fun x hx => ?_, h4, h5⟩
          rcases List.mem_cons.1 hx with rfl | hx
          · exact hc
          · exact h3 x hx
    · cases e : step s l with
      | error => rw [e] at h; cases h
      | ub => rw [e] at h; cases h
      | ok s1 =>
        rw [e, Res.ok_bind] at h
        obtain ⟨h1, _⟩ := accepted_lines hcomment hhead hline ls s1 s' hn' h
        refine ⟨fun hf => ?_, fun hf => ?_⟩
        · obtain ⟨g1, g2⟩ := hline s l s1 hf hc (hn l (List.mem_cons_self ..)) e
          refine ⟨(h1 g2).1, fun x hx => ?_⟩
          rcases List.mem_cons.1 hx with rfl | hx
          · exact Or.inr g1
          · exact (h1 g2).2 x hx
        · obtain ⟨g1, g2⟩ := hhead s l s1 hf hc (hn l (List.mem_cons_self ..)) e
          exact Or.inr ⟨[], l, ls, rfl, by simp, g1, (h1 g2).2⟩

theorem coordLine_fresh {α : Type} {conv : Int → α} {zero : α} (s : CoordState α) (t : Text) (s' : CoordState α) (hs : s.nodeCount = none)
    (hc : ¬ IsCommentText t) (hn : '\n' ∉ t) (h : coordLine conv zero s t = .ok s') :
    (∃ a v, IsWords t [['p'], ['a', 'u', 'x'], ['s', 'p'], ['c', 'o'], a] ∧ IsInteger a v ∧ -4294967296 < v ∧ v < 4294967296) ∧ ¬ s'.nodeCount = none := by
  unfold coordLine at h
  unfold IsCommentText at hc
  rw [if_neg hc, hs] at h
  simp only [coordHeader] at h
  cases e : coordHeaderFields t with
  | none => rw [e] at h; cases h
  | some n =>
    rw [e] at h
    cases h
    exact ⟨coordHeaderFields_words e hn, fun h => by cases h⟩

theorem coordStore_nodeCount {α : Type} {conv : Int → α} {s s' : CoordState α} {n node : Nat} {lon lat : Int}
    (h : coordStore conv s n node lon lat = .ok s') : s'.nodeCount = s.nodeCount := by
  unfold coordStore at h
  by_cases h1 : node < n
  · simp only [h1, decide_true, Res.require, if_true, Res.ok_bind] at h
    cases h2 : rd s.seen node with
    | none => rw [h2] at h; cases h
    | some b =>
      rw [h2] at h
      cases b with
      | true => cases h
      | false =>
        simp only [Res.ofOption, Res.ok_bind, Bool.not_false, if_true] at h
        cases h3 : wr s.seen node true with
        | none => rw [h3] at h; cases h
        | some x =>
          cases h4 : wr s.longitude node (conv lon) with
          | none => rw [h3, h4] at h; cases h
          | some y =>
            cases h5 : wr s.latitude node (conv lat) with
            | none => rw [h3, h4, h5] at h; cases h
            | some z =>
              rw [h3, h4, h5] at h
              cases h
              rfl
  · simp only [h1, decide_false, Res.require] at h
    cases h

theorem coordLine_later {α : Type} {conv : Int → α} {zero : α} (s : CoordState α) (t : Text) (s' : CoordState α) (hs : ¬ s.nodeCount = none)
    (hc : ¬ IsCommentText t) (hn : '\n' ∉ t) (h : coordLine conv zero s t = .ok s') : FirstWords t [['v']] ∧ ¬ s'.nodeCount = none := by
  unfold coordLine at h
  unfold IsCommentText at hc
  rw [if_neg hc] at h
  cases e : s.nodeCount with
  | none => exact absurd e hs
  | some n =>
    rw [e] at h
    simp only [coordPoint] at h
    cases e' : coordFields t with
    | none => rw [e'] at h; cases h
    | some f =>
      obtain ⟨node, lon, lat⟩ := f
      rw [e'] at h
      refine ⟨coordFields_words e' hn, ?_⟩
      simp only at h
      rw [coordStore_nodeCount h, e]
      exact fun h => by cases h

theorem dimacsLine_fresh (s : DimacsState) (t : Text) (s' : DimacsState) (hs : s.header = none) (hc : ¬ IsCommentText t) (hn : '\n' ∉ t)
    (h : dimacsLine s t = .ok s') : FirstWords t [['p'], ['s', 'p']] ∧ ¬ s'.header = none := by
  unfold dimacsLine at h
  unfold IsCommentText at hc
  rw [if_neg hc, hs] at h
  refine ⟨dimacsHeader_words h hn, ?_⟩
  simp only [dimacsHeader] at h
  cases e : dimacsHeaderFields t with
  | none => rw [e] at h; cases h
  | some f =>
    obtain ⟨p, sp, n, m⟩ := f
    rw [e] at h
    simp only at h
    by_cases hp : p = ['p'] ∧ sp = ['s', 'p']
    · rw [if_pos hp] at h; cases h; exact fun h => by cases h
    · rw [if_neg hp] at h; cases h

theorem dimacsLine_later (s : DimacsState) (t : Text) (s' : DimacsState) (hs : ¬ s.header = none) (hc : ¬ IsCommentText t) (hn : '\n' ∉ t)
    (h : dimacsLine s t = .ok s') : FirstWords t [['a']] ∧ ¬ s'.header = none := by
  unfold dimacsLine at h
  unfold IsCommentText at hc
  rw [if_neg hc] at h
  cases e : s.header with
  | none => exact absurd e hs
  | some x =>
    obtain ⟨n, m⟩ := x
    rw [e] at h
    simp only at h
    refine ⟨dimacsArc_words h hn, ?_⟩
    simp only [dimacsArc] at h
    cases e1 : dimacsArcFields t with
    | none => rw [e1] at h; cases h
    | some f =>
      obtain ⟨a, tl, hd, w⟩ := f
      rw [e1] at h
      simp only at h
      by_cases h1 : a ≠ ['a'] ∨ n ≤ dec32 hd ∨ n ≤ dec32 tl
      · rw [if_pos h1] at h; cases h
      · rw [if_neg h1] at h
        by_cases h2 : s.nextArc < m
        · rw [if_pos h2] at h
          cases h3 : wr s.head s.nextArc (dec32 hd) with
          | none => rw [h3] at h; cases h
          | some x =>
            cases h4 : wr s.tail s.nextArc (dec32 tl) with
            | none => rw [h3, h4] at h; cases h
            | some y =>
              cases h5 : wr s.weight s.nextArc w with
              | none => rw [h3, h4, h5] at h; cases h
              | some z =>
                rw [h3, h4, h5] at h
                cases h
                simp [e]
        · rw [if_neg h2] at h; cases h; simp [e]

/-- The lines of an accepted coordinate file. -/
theorem convertCoordinates_lines {α : Type} {conv : Int → α} {zero : α} {ls : List Text} {text : Text} {r : List α × List α} (hl : LinesOf ls text)
    (h : convertCoordinates conv zero text = .ok r) :
    ∃ before header after, ls = before ++ header :: after ∧ (∀ l ∈ before, IsCommentText l) ∧
      (∃ a v, IsWords header [['p'], ['a', 'u', 'x'], ['s', 'p'], ['c', 'o'], a] ∧ IsInteger a v ∧ -4294967296 < v ∧ v < 4294967296) ∧
      ∀ l ∈ after, IsCommentText l ∨ FirstWords l [['v']] := by
  unfold convertCoordinates at h
  rw [getLines_of hl] at h
  cases e : ls.foldlM (coordLine conv zero) ⟨none, [], [], []⟩ with
  | error => rw [e] at h; cases h
  | ub => rw [e] at h; cases h
  | ok s' =>
    rw [e, Res.ok_bind] at h
    rcases (accepted_lines (step := coordLine conv zero) (fresh := fun s => s.nodeCount = none) (fun s t hc => by unfold coordLine; exact if_pos hc)
      coordLine_fresh coordLine_later ls _ s' hl.1 e).2 rfl with h1 | h1
    · unfold coordFinish at h
      rw [h1] at h
      cases h
    · exact h1

/-- The lines of an accepted graph file. -/
theorem convertDimacs_lines {ls : List Text} {text : Text} {r : List Nat × List Nat × List Nat} (hl : LinesOf ls text)
    (h : convertDimacs text = .ok r) :
    ∃ before header after, ls = before ++ header :: after ∧ (∀ l ∈ before, IsCommentText l) ∧ FirstWords header [['p'], ['s', 'p']] ∧
      ∀ l ∈ after, IsCommentText l ∨ FirstWords l [['a']] := by
  unfold convertDimacs at h
  rw [getLines_of hl] at h
  cases e : ls.foldlM dimacsLine ⟨none, [], [], [], 0⟩ with
  | error => rw [e] at h; cases h
  | ub => rw [e] at h; cases h
  | ok s' =>
    rw [e, Res.ok_bind] at h
    rcases (accepted_lines (step := dimacsLine) (fresh := fun s => s.header = none) (fun s t hc => by unfold dimacsLine; exact if_pos hc)
      dimacsLine_fresh dimacsLine_later ls _ s' hl.1 e).2 rfl with h1 | h1
    · unfold dimacsFinish at h
      rw [h1] at h
      cases h
    · exact h1

end RK
