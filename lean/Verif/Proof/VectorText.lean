import Verif.Model.VectorText
import Verif.Spec.VectorText
import Verif.Proof.DimacsExport
/-! # Vectors as text -/
namespace RK
open Spec

theorem getLines_of {ls : List (List Char)} {text : List Char} (h : LinesOf ls text) : getLines text = ls := by
  have key : ∀ (init : List (List Char)) (rest : List Char), (∀ l ∈ init, '\n' ∉ l) →
      getLines (init.flatMap (· ++ ['\n']) ++ rest) = init ++ getLines rest := by
    intro init rest hn
    induction init with
    | nil => rfl
    | cons l init ih =>
      have h1 := getLines_line (t := l) (rest := init.flatMap (· ++ ['\n']) ++ rest) (hn l (List.mem_cons_self ..))
      rw [ih (fun l' hl => hn l' (List.mem_cons_of_mem _ hl))] at h1
      rw [List.cons_append, ← h1]
      simp
  obtain ⟨hn, rfl | ⟨init, last, rfl, hne, rfl⟩⟩ := h
  · have := key ls [] hn
    simpa [getLines, getLinesFrom] using this
  · rw [key init last (fun l hl => hn l (List.mem_append_left _ hl)),
      getLines_last (hn last (List.mem_append_right _ (List.mem_singleton.2 rfl))), if_neg hne]

theorem isDigit_not_isSpace {c : Char} (h : c.isDigit = true) : isSpace c = false := by
  rw [Bool.eq_false_iff]
  intro hs
  rw [isSpace_not_isDigit hs] at h
  cases h

theorem readDecimal_of_starts {l : List Char} {x : Int} (h : StartsWithNumber l x) :
    ∃ neg v rest, readDecimal l = some (neg, v, rest) ∧ x = if neg then -(v : Int) else v := by
  obtain ⟨gap, sign, digits, rest, v, rfl, hg, hd, hr, hs⟩ := h
  have hne := hd.1
  have ht : (digits ++ rest).takeWhile Char.isDigit = digits := takeWhile_append_of hd.2.1 (fun c hc => by simpa using hr c hc)
  have hdw : (digits ++ rest).dropWhile Char.isDigit = rest := dropWhile_append_of hd.2.1 (fun c hc => by simpa using hr c hc)
  obtain ⟨d, ds, rfl⟩ := List.exists_cons_of_ne_nil hne
  have hdd := hd.2.1 d (List.mem_cons_self ..)
  have hskip : (gap ++ sign ++ (d :: ds) ++ rest).dropWhile isSpace = sign ++ ((d :: ds) ++ rest) := by
    rw [List.append_assoc, List.append_assoc]
    refine dropWhile_append_of (fun c hc => isBlank_isSpace (hg c hc)) ?_
    intro c hc
    rcases hs with ⟨rfl, _⟩ | ⟨rfl | rfl, _⟩
    · cases hc; decide
    · cases hc; exact isDigit_not_isSpace hdd
    · cases hc; decide
  rcases hs with ⟨rfl, rfl⟩ | ⟨rfl | rfl, rfl⟩
  · refine ⟨true, v, rest, ?_, rfl⟩
    have hsg : readSign (['-'] ++ ((d :: ds) ++ rest)) = (true, (d :: ds) ++ rest) := rfl
    simp only [readDecimal, hskip, hsg, ht, hdw, if_neg hne, hd.2.2]
  · refine ⟨false, v, rest, ?_, rfl⟩
    have hsg : readSign ([] ++ ((d :: ds) ++ rest)) = (false, (d :: ds) ++ rest) :=
      readSign_other (fun e => by subst e; exact absurd hdd (by decide)) (fun e => by subst e; exact absurd hdd (by decide))
    simp only [readDecimal, hskip, hsg, ht, hdw, if_neg hne, hd.2.2]
  · refine ⟨false, v, rest, ?_, rfl⟩
    have hsg : readSign (['+'] ++ ((d :: ds) ++ rest)) = (false, (d :: ds) ++ rest) := rfl
    simp only [readDecimal, hskip, hsg, ht, hdw, if_neg hne, hd.2.2]

theorem readSign_split (s : Text) : ∃ sign, s = sign ++ (readSign s).2 ∧ (((readSign s).1 = true ∧ sign = ['-']) ∨
    ((readSign s).1 = false ∧ (sign = [] ∨ sign = ['+']))) := by
  unfold readSign
  split
  · exact ⟨['-'], rfl, Or.inl ⟨rfl, rfl⟩⟩
  · exact ⟨['+'], rfl, Or.inr ⟨rfl, Or.inr rfl⟩⟩
  · exact ⟨[], rfl, Or.inr ⟨rfl, Or.inl rfl⟩⟩

theorem mem_takeWhile {p : Char → Bool} : ∀ {l : List Char} {c : Char}, c ∈ l.takeWhile p → p c = true
  | [], c, h => by simp at h
  | d :: l, c, h => by
    rw [List.takeWhile_cons] at h
    by_cases hd : p d = true
    · rw [if_pos hd] at h
      rcases List.mem_cons.1 h with rfl | h
      · exact hd
      · exact mem_takeWhile h
    · rw [if_neg hd] at h; cases h

theorem head_dropWhile {p : Char → Bool} : ∀ {l : List Char} {c : Char}, (l.dropWhile p).head? = some c → p c = false
  | [], c, h => by simp at h
  | d :: l, c, h => by
    rw [List.dropWhile_cons] at h
    by_cases hd : p d = true
    · rw [if_pos hd] at h; exact head_dropWhile h
    · rw [if_neg hd] at h
      cases h
      simpa using hd

theorem starts_of_readDecimal {l : List Char} (hl : '\n' ∉ l) {neg : Bool} {v : Nat} {rest : Text} (h : readDecimal l = some (neg, v, rest)) :
    StartsWithNumber l (if neg then -(v : Int) else v) := by
  obtain ⟨sign, hs, hsg⟩ := readSign_split (l.dropWhile isSpace)
  unfold readDecimal at h
  simp only at h
  by_cases hd : (readSign (l.dropWhile isSpace)).2.takeWhile Char.isDigit = []
  · rw [if_pos hd] at h; cases h
  · rw [if_neg hd] at h
    cases h
    refine ⟨l.takeWhile isSpace, sign, _, (readSign (l.dropWhile isSpace)).2.dropWhile Char.isDigit, _, ?_, ?_,
      ⟨hd, fun c hc => mem_takeWhile hc, rfl⟩, ?_, ?_⟩
    · rw [List.append_assoc, List.append_assoc, List.takeWhile_append_dropWhile, ← hs, List.takeWhile_append_dropWhile]
    · intro c hc
      rcases isSpace_iff.1 (mem_takeWhile hc) with h1 | rfl
      · exact h1
      · exact absurd (List.takeWhile_subset _ hc) hl
    · intro c hc
      simpa using head_dropWhile hc
    · rcases hsg with ⟨h1, rfl⟩ | ⟨h1, h2⟩
      · exact Or.inl ⟨rfl, by rw [h1]; rfl⟩
      · exact Or.inr ⟨h2, by rw [h1]; rfl⟩

theorem stoll_number {l : List Char} {x : Int} (h : StartsWithNumber l x) :
    stoll l = if -9223372036854775808 ≤ x ∧ x < 9223372036854775808 then .ok x else .error := by
  obtain ⟨neg, v, rest, e, rfl⟩ := readDecimal_of_starts h
  unfold stoll
  rw [e]
  cases neg
  · simp only [Bool.false_eq_true, if_false]
    by_cases hv : v < 9223372036854775808
    · rw [if_pos hv, if_pos (by omega)]
    · rw [if_neg hv, if_neg (by omega)]
  · simp only [if_true]
    by_cases hv : v ≤ 9223372036854775808
    · rw [if_pos hv, if_pos (by omega)]
    · rw [if_neg hv, if_neg (by omega)]

theorem stoll_none {l : List Char} (hl : '\n' ∉ l) (h : ∀ x, ¬ StartsWithNumber l x) : stoll l = .error := by
  unfold stoll
  cases e : readDecimal l with
  | none => rfl
  | some r =>
    obtain ⟨neg, v, rest⟩ := r
    exact absurd (starts_of_readDecimal hl e) (h _)

theorem stoull_number {l : List Char} {x : Int} (h : StartsWithNumber l x) :
    stoull l = if -18446744073709551616 < x ∧ x < 18446744073709551616 then .ok (x % 18446744073709551616).toNat else .error := by
  obtain ⟨neg, v, rest, e, rfl⟩ := readDecimal_of_starts h
  unfold stoull
  rw [e]
  simp only
  cases neg
  · simp only [Bool.false_eq_true, if_false]
    by_cases hv : v < 18446744073709551616
    · rw [if_pos hv, if_pos (by omega)]; congr 1; omega
    · rw [if_neg hv, if_neg (by omega)]
  · simp only [if_true]
    by_cases hv : v < 18446744073709551616
    · rw [if_pos hv, if_pos (by omega)]; congr 1; omega
    · rw [if_neg hv, if_neg (by omega)]

theorem stoull_none {l : List Char} (hl : '\n' ∉ l) (h : ∀ x, ¬ StartsWithNumber l x) : stoull l = .error := by
  unfold stoull
  cases e : readDecimal l with
  | none => rfl
  | some r =>
    obtain ⟨neg, v, rest⟩ := r
    exact absurd (starts_of_readDecimal hl e) (h _)

theorem encodeIntLines_spec {lo hi : Int} (hlo : -9223372036854775808 ≤ lo) (hhi : hi < 9223372036854775808) :
    ∀ (ls : List Text) (xs v : List Int), ls.length = xs.length → (∀ (i : Nat) l x, ls[i]? = some l → xs[i]? = some x → StartsWithNumber l x) →
      encodeIntLines lo hi v ls = if ∀ x ∈ xs, lo ≤ x ∧ x ≤ hi then .ok (v ++ xs) else .error
  | [], [], v, _, _ => by simp [encodeIntLines]
  | [], x :: xs, v, h, _ => by simp at h
  | l :: ls, [], v, h, _ => by simp at h
  | l :: ls, x :: xs, v, hlen, h => by
    have hx := stoll_number (h 0 l x rfl rfl)
    have ih := encodeIntLines_spec hlo hhi ls xs (v ++ [x]) (by simpa using hlen) (fun i l x h1 h2 => h (i + 1) l x (by simpa using h1) (by simpa using h2))
    unfold encodeIntLines
    rw [hx]
    by_cases hr : lo ≤ x ∧ x ≤ hi
    · rw [if_pos (by omega), Res.ok_bind, decide_eq_true (by omega), decide_eq_true (by omega), Res.require_true, Res.ok_bind, Res.ok_bind, ih]
      have hiff : (∀ y ∈ x :: xs, lo ≤ y ∧ y ≤ hi) ↔ ∀ y ∈ xs, lo ≤ y ∧ y ≤ hi := by
        simp only [List.mem_cons, forall_eq_or_imp]
        exact ⟨fun h => h.2, fun h => ⟨hr, h⟩⟩
      simp only [hiff, List.append_assoc, List.singleton_append]
    · rw [if_neg (fun hall : ∀ y ∈ x :: xs, lo ≤ y ∧ y ≤ hi => hr (hall x (List.mem_cons_self ..)))]
      by_cases hb : -9223372036854775808 ≤ x ∧ x < 9223372036854775808
      · rw [if_pos hb, Res.ok_bind]
        by_cases h1 : x < lo
        · rw [decide_eq_false (by omega)]; rfl
        · rw [decide_eq_true h1, decide_eq_false (by omega)]; rfl
      · rw [if_neg hb]; rfl

theorem encodeIntLines_bad {lo hi : Int} : ∀ (ls : List Text) (v : List Int), (∀ l ∈ ls, '\n' ∉ l) → (∃ l ∈ ls, ∀ x, ¬ StartsWithNumber l x) →
    encodeIntLines lo hi v ls = .error
  | [], v, _, h => by obtain ⟨l, hl, _⟩ := h; cases hl
  | l :: ls, v, hn, h => by
    unfold encodeIntLines
    by_cases hb : ∀ x, ¬ StartsWithNumber l x
    · rw [stoll_none (hn l (List.mem_cons_self ..)) hb]; rfl
    · have ih := fun v => encodeIntLines_bad (lo := lo) (hi := hi) ls v (fun l' hl => hn l' (List.mem_cons_of_mem _ hl)) (by
        obtain ⟨l', hl', h'⟩ := h
        rcases List.mem_cons.1 hl' with rfl | hl'
        · exact absurd h' hb
        · exact ⟨l', hl', h'⟩)
      cases hs : stoll l with
      | error => rfl
      | ub =>
        unfold stoll at hs
        split at hs
        · cases hs
        · split at hs <;> split at hs <;> cases hs
      | ok x =>
        rw [Res.ok_bind]
        by_cases h1 : x < lo
        · rw [decide_eq_false (by omega)]; rfl
        · rw [decide_eq_true h1, Res.require_true, Res.ok_bind]
          by_cases h2 : hi < x
          · rw [decide_eq_false (by omega)]; rfl
          · rw [decide_eq_true h2, Res.require_true, Res.ok_bind]
            exact ih _

theorem encodeUInt64Lines_spec : ∀ (ls : List Text) (xs : List Int) (v : List Nat), ls.length = xs.length →
    (∀ (i : Nat) l x, ls[i]? = some l → xs[i]? = some x → StartsWithNumber l x) →
      encodeUInt64Lines v ls = if ∀ x ∈ xs, -18446744073709551616 < x ∧ x < 18446744073709551616 then
        .ok (v ++ xs.map fun x => (x % 18446744073709551616).toNat) else .error
  | [], [], v, _, _ => by simp [encodeUInt64Lines]
  | [], x :: xs, v, h, _ => by simp at h
  | l :: ls, [], v, h, _ => by simp at h
  | l :: ls, x :: xs, v, hlen, h => by
    have hx := stoull_number (h 0 l x rfl rfl)
    unfold encodeUInt64Lines
    rw [hx]
    by_cases hr : -18446744073709551616 < x ∧ x < 18446744073709551616
    · have ih := encodeUInt64Lines_spec ls xs (v ++ [(x % 18446744073709551616).toNat]) (by simpa using hlen)
        (fun i l x h1 h2 => h (i + 1) l x (by simpa using h1) (by simpa using h2))
      rw [if_pos hr, Res.ok_bind, ih]
      have hiff : (∀ y ∈ x :: xs, -18446744073709551616 < y ∧ y < 18446744073709551616) ↔ ∀ y ∈ xs, -18446744073709551616 < y ∧ y < 18446744073709551616 := by
        simp only [List.mem_cons, forall_eq_or_imp]
        exact ⟨fun h => h.2, fun h => ⟨hr, h⟩⟩
      simp only [hiff, List.append_assoc, List.singleton_append, List.map_cons]
    · rw [if_neg hr, if_neg (fun hall => hr (hall x (List.mem_cons_self ..)))]; rfl

/-! ### Printing -/

theorem printNat_starts (v : Nat) : StartsWithNumber (printNat v) v :=
  ⟨[], [], printNat v, [], v, by simp, by simp, isDecimal_printNat v, by simp, Or.inr ⟨Or.inl rfl, rfl⟩⟩

theorem printInt_starts (x : Int) : StartsWithNumber (printInt x) x := by
  unfold printInt
  by_cases hx : x < 0
  · rw [if_pos hx]
    exact ⟨[], ['-'], printNat x.natAbs, [], x.natAbs, by simp, by simp, isDecimal_printNat _, by simp, Or.inl ⟨rfl, by omega⟩⟩
  · rw [if_neg hx]
    exact ⟨[], [], printNat x.natAbs, [], x.natAbs, by simp, by simp, isDecimal_printNat _, by simp, Or.inr ⟨Or.inl rfl, by omega⟩⟩

theorem printNat_no_newline (v : Nat) : '\n' ∉ printNat v := fun h => (isDecimal_word (isDecimal_printNat v) _ h).2 rfl

theorem printInt_no_newline (x : Int) : '\n' ∉ printInt x := by
  unfold printInt
  by_cases hx : x < 0
  · rw [if_pos hx]
    intro h
    rcases List.mem_cons.1 h with h | h
    · exact absurd h (by decide)
    · exact printNat_no_newline _ h
  · rw [if_neg hx]; exact printNat_no_newline _

theorem linesOf_map {α : Type} {f : α → List Char} (h : ∀ x, '\n' ∉ f x) (v : List α) : LinesOf (v.map f) (v.flatMap fun x => f x ++ ['\n']) := by
  refine ⟨fun l hl => ?_, Or.inl ?_⟩
  · obtain ⟨x, _, rfl⟩ := List.mem_map.1 hl
    exact h x
  · rw [List.flatMap_map]

/-! ### Strings -/

theorem replace_backslash (s : Text) : replaceAll s ['\\'] ['\\', '\\'] = s.flatMap fun c => if c = '\\' then ['\\', '\\'] else [c] := by
  unfold replaceAll
  induction s with
  | nil => rfl
  | cons c s ih =>
    unfold replaceFrom
    rw [List.flatMap_cons]
    by_cases hc : c = '\\'
    · subst hc
      simp only [List.isPrefixOf, beq_self_eq_true, Bool.true_and, if_true, List.length_singleton, Nat.sub_self, ih]
    · have : (['\\'].isPrefixOf (c :: s)) = false := by simp [List.isPrefixOf]; exact fun h => hc h.symm
      rw [this, if_neg hc]
      simp [ih]

theorem replace_newline (s : Text) : replaceAll s ['\n'] ['\\', 'n'] = s.flatMap fun c => if c = '\n' then ['\\', 'n'] else [c] := by
  unfold replaceAll
  induction s with
  | nil => rfl
  | cons c s ih =>
    unfold replaceFrom
    rw [List.flatMap_cons]
    by_cases hc : c = '\n'
    · subst hc
      simp only [List.isPrefixOf, beq_self_eq_true, Bool.true_and, if_true, List.length_singleton, Nat.sub_self, ih]
    · have : (['\n'].isPrefixOf (c :: s)) = false := by simp [List.isPrefixOf]; exact fun h => hc h.symm
      rw [this, if_neg hc]
      simp [ih]

theorem escapeLine_eq (s : Text) :
    escapeLine s = s.flatMap fun c => if c = '\\' then ['\\', '\\'] else if c = '\n' then ['\\', 'n'] else [c] := by
  unfold escapeLine
  rw [replace_backslash, replace_newline, List.flatMap_assoc]
  congr 1
  funext c
  by_cases hc : c = '\\'
  · subst hc; decide
  · rw [if_neg hc, if_neg hc]; simp

theorem escapeLine_no_newline (s : Text) : '\n' ∉ escapeLine s := by
  rw [escapeLine_eq]
  intro h
  obtain ⟨c, _, hc⟩ := List.mem_flatMap.1 h
  split at hc
  · revert hc; decide
  · split at hc
    · revert hc; decide
    · rename_i h1
      exact h1 (List.mem_singleton.1 hc).symm

theorem replaceFrom_match {search rep s : Text} {c : Char} (h : search.isPrefixOf (c :: s) = true) :
    replaceFrom search rep 0 (c :: s) = rep ++ replaceFrom search rep (search.length - 1) s := by
  rw [replaceFrom, if_pos h]

theorem replaceFrom_other {search rep s : Text} {c : Char} (h : ¬ search.isPrefixOf (c :: s) = true) :
    replaceFrom search rep 0 (c :: s) = c :: replaceFrom search rep 0 s := by
  rw [replaceFrom, if_neg h]

theorem replaceFrom_skip {search rep s : Text} {c : Char} {k : Nat} :
    replaceFrom search rep (k + 1) (c :: s) = replaceFrom search rep k s := by
  rw [replaceFrom]

theorem prefix_two {a b : Char} {s : Text} : ([a, b].isPrefixOf s) = true ↔ ∃ r, s = a :: b :: r := by
  rw [List.isPrefixOf_iff_prefix]
  constructor
  · rintro ⟨r, rfl⟩; exact ⟨r, rfl⟩
  · rintro ⟨r, rfl⟩; exact ⟨r, rfl⟩

theorem replaceFrom_two {a b : Char} {rep s : Text} : replaceFrom [a, b] rep 0 (a :: b :: s) = rep ++ replaceFrom [a, b] rep 0 s := by
  rw [replaceFrom_match (prefix_two.2 ⟨s, rfl⟩)]
  exact congrArg (rep ++ ·) (replaceFrom_skip (k := 0))

/-- The first replacement of the encoder undoes the doubling of backslashes. -/
theorem unescape_first (s : Text) : replaceAll (escapeLine s) ['\\', '\\'] ['\\'] = s.flatMap fun c => if c = '\n' then ['\\', 'n'] else [c] := by
  rw [escapeLine_eq]
  unfold replaceAll
  induction s with
  | nil => rfl
  | cons c s ih =>
    rw [List.flatMap_cons, List.flatMap_cons]
    generalize (s.flatMap fun c => if c = '\\' then ['\\', '\\'] else if c = '\n' then ['\\', 'n'] else [c]) = E at ih ⊢
    generalize (s.flatMap fun c => if c = '\n' then ['\\', 'n'] else [c]) = D at ih ⊢
    by_cases hc : c = '\\'
    · subst hc
      rw [if_pos rfl, if_neg (by decide)]
      show replaceFrom _ _ 0 ('\\' :: '\\' :: E) = '\\' :: D
      rw [replaceFrom_two, ih]; rfl
    · rw [if_neg hc]
      by_cases hn : c = '\n'
      · subst hn
        simp only [if_true]
        show replaceFrom _ _ 0 ('\\' :: 'n' :: E) = '\\' :: 'n' :: D
        rw [replaceFrom_other, replaceFrom_other, ih]
        · intro h; obtain ⟨r, e⟩ := prefix_two.1 h
          injection e with e _; exact absurd e (by decide)
        · intro h; obtain ⟨r, e⟩ := prefix_two.1 h
          injection e with _ e; injection e with e _; exact absurd e (by decide)
      · simp only [if_neg hn]
        show replaceFrom _ _ 0 (c :: E) = c :: D
        rw [replaceFrom_other, ih]
        intro h; obtain ⟨r, e⟩ := prefix_two.1 h
        injection e with e _; exact hc e

/-- The second replacement turns the escaped line breaks and every backslash followed by `n` into line breaks. -/
theorem unescape_second : ∀ (k : Nat) (s : Text), s.length ≤ k →
    replaceFrom ['\\', 'n'] ['\n'] 0 (s.flatMap fun c => if c = '\n' then ['\\', 'n'] else [c]) = replaceFrom ['\\', 'n'] ['\n'] 0 s
  | _, [], _ => rfl
  | 0, c :: s, h => by simp at h
  | k + 1, c :: s, h => by
    have hk : s.length ≤ k := by simpa using h
    have ih := unescape_second k s hk
    rw [List.flatMap_cons]
    by_cases hn : c = '\n'
    · subst hn
      rw [if_pos rfl]
      generalize (s.flatMap fun c => if c = '\n' then ['\\', 'n'] else [c]) = D at ih ⊢
      show replaceFrom _ _ 0 ('\\' :: 'n' :: D) = _
      rw [replaceFrom_two, replaceFrom_other, ih]
      · rfl
      · intro h; obtain ⟨r, e⟩ := prefix_two.1 h
        injection e with e _; exact absurd e (by decide)
    · rw [if_neg hn]
      by_cases hp : (['\\', 'n'].isPrefixOf (c :: s)) = true
      · obtain ⟨r, e⟩ := prefix_two.1 hp
        injection e with e1 e2
        subst e1; subst e2
        have hr : r.length ≤ k := by simp at hk; omega
        have ih2 := unescape_second k r hr
        rw [List.flatMap_cons, if_neg (by decide)]
        generalize (r.flatMap fun c => if c = '\n' then ['\\', 'n'] else [c]) = D at ih2 ⊢
        show replaceFrom _ _ 0 ('\\' :: 'n' :: D) = _
        rw [replaceFrom_two, replaceFrom_two, ih2]
      · rw [List.singleton_append, replaceFrom_other hp, replaceFrom_other, ih]
        intro hp2
        obtain ⟨r, e⟩ := prefix_two.1 hp2
        injection e with e1 e2
        subst e1
        cases s with
        | nil => simp at e2
        | cons d s =>
          rw [List.flatMap_cons] at e2
          by_cases hd : d = '\n'
          · rw [if_pos hd] at e2
            injection e2 with e2 _
            exact absurd e2 (by decide)
          · rw [if_neg hd] at e2
            injection e2 with e2 _
            subst e2
            exact hp (prefix_two.2 ⟨s, rfl⟩)

theorem unescape_escape (s : Text) : unescapeLine (escapeLine s) = replaceAll s ['\\', 'n'] ['\n'] := by
  unfold unescapeLine
  rw [unescape_first]
  exact unescape_second s.length s (Nat.le_refl _)

theorem replace_bn_none : ∀ {s : Text}, ¬ ['\\', 'n'] <:+: s → replaceFrom ['\\', 'n'] ['\n'] 0 s = s
  | [], _ => rfl
  | c :: s, h => by
    rw [replaceFrom_other, replace_bn_none (fun hi => h (hi.trans (List.suffix_cons c s).isInfix))]
    intro hp
    exact h (List.isPrefixOf_iff_prefix.1 hp).isInfix

theorem replace_bn_length : ∀ (k : Nat) (s : Text), s.length ≤ k → (replaceFrom ['\\', 'n'] ['\n'] 0 s).length ≤ s.length ∧
    (['\\', 'n'] <:+: s → (replaceFrom ['\\', 'n'] ['\n'] 0 s).length < s.length)
  | _, [], _ => ⟨Nat.le_refl _, fun h => absurd h.length_le (by simp)⟩
  | 0, c :: s, h => by simp at h
  | k + 1, c :: s, h => by
    have hk : s.length ≤ k := by simpa using h
    by_cases hp : (['\\', 'n'].isPrefixOf (c :: s)) = true
    · obtain ⟨r, e⟩ := prefix_two.1 hp
      injection e with e1 e2
      subst e1; subst e2
      have hr : r.length ≤ k := by simp at hk; omega
      have ih := (replace_bn_length k r hr).1
      rw [replaceFrom_two]
      simp only [List.length_append, List.length_cons, List.length_nil]
      exact ⟨by omega, fun _ => by omega⟩
    · rw [replaceFrom_other hp]
      have ih := replace_bn_length k s hk
      simp only [List.length_cons]
      refine ⟨by omega, fun hi => ?_⟩
      rcases List.infix_cons_iff.1 hi with h1 | h1
      · exact absurd (List.isPrefixOf_iff_prefix.2 h1) hp
      · have := ih.2 h1; omega

/-- Which strings survive. -/
theorem unescape_escape_iff (s : Text) : unescapeLine (escapeLine s) = s ↔ ¬ ['\\', 'n'] <:+: s := by
  rw [unescape_escape]
  constructor
  · intro h hi
    have := (replace_bn_length s.length s (Nat.le_refl _)).2 hi
    unfold replaceAll at h
    rw [h] at this
    omega
  · exact replace_bn_none

end RK
