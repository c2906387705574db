import Verif.Proof.Dimacs
/-! # Import of arbitrary texts -/
namespace RK
open Spec

/-! ### Lines of a text -/

theorem isLine_of_mem : ∀ {text cur l : List Char}, '\n' ∉ cur → l ∈ getLinesFrom cur text →
    ∃ pre post, cur ++ text = pre ++ l ++ post ∧ '\n' ∉ l ∧ (pre = [] ∨ pre.getLast? = some '\n') ∧ (post = [] ∨ post.head? = some '\n')
  | [], cur, l, hc, h => by
    unfold getLinesFrom at h
    by_cases hn : cur = []
    · rw [if_pos hn] at h; cases h
    · rw [if_neg hn, List.mem_singleton] at h
      subst h
      exact ⟨[], [], by simp, hc, Or.inl rfl, Or.inl rfl⟩
  | c :: text, cur, l, hc, h => by
    unfold getLinesFrom at h
    by_cases hn : c = '\n'
    · subst hn
      rw [if_pos rfl] at h
      rcases List.mem_cons.1 h with rfl | h
      · exact ⟨[], '\n' :: text, by simp, hc, Or.inl rfl, Or.inr rfl⟩
      · obtain ⟨pre, post, e, h1, h2, h3⟩ := isLine_of_mem (cur := []) (by simp) h
        refine ⟨cur ++ '\n' :: pre, post, by simp only [List.nil_append] at e; simp [e], h1, Or.inr ?_, h3⟩
        rcases h2 with rfl | h2
        · simp
        · rw [List.getLast?_append, List.getLast?_cons, h2]; rfl
    · rw [if_neg hn] at h
      have hc' : '\n' ∉ cur ++ [c] := by
        intro hm
        rcases List.mem_append.1 hm with hm | hm
        · exact hc hm
        · exact hn (List.mem_singleton.1 hm).symm
      obtain ⟨pre, post, e, h1⟩ := isLine_of_mem hc' h
      exact ⟨pre, post, by rw [← e]; simp, h1⟩

theorem isLine_of_mem_getLines {text l : List Char} (h : l ∈ getLines text) : IsLine text l := by
  obtain ⟨pre, post, e, h1⟩ := isLine_of_mem (cur := []) (by simp) h
  exact ⟨pre, post, by simpa using e, h1⟩

theorem mem_getLinesFrom_split : ∀ {a cur b l : List Char}, l ∈ getLines b → l ∈ getLinesFrom cur (a ++ '\n' :: b)
  | [], cur, b, l, h => by simp only [List.nil_append, getLinesFrom, if_true]; exact List.mem_cons_of_mem _ h
  | c :: a, cur, b, l, h => by
    rw [List.cons_append, getLinesFrom]
    by_cases hn : c = '\n'
    · rw [if_pos hn]; exact List.mem_cons_of_mem _ (mem_getLinesFrom_split (cur := []) h)
    · rw [if_neg hn]; exact mem_getLinesFrom_split h

theorem mem_getLines_of_isLine {text l : List Char} (h : IsLine text l) (hl : l ≠ []) : l ∈ getLines text := by
  obtain ⟨pre, post, rfl, h1, h2, h3⟩ := h
  have key : l ∈ getLines (l ++ post) := by
    rcases h3 with rfl | h3
    · rw [List.append_nil, getLines_last h1, if_neg hl]; exact List.mem_singleton.2 rfl
    · cases post with
      | nil => simp at h3
      | cons c post =>
        simp only [List.head?_cons, Option.some.injEq] at h3
        subst h3
        rw [getLines_line h1]; exact List.mem_cons_self ..
  rcases h2 with rfl | h2
  · simpa using key
  · obtain ⟨a, rfl⟩ : ∃ a, pre = a ++ ['\n'] := by
      have hne : pre ≠ [] := by rintro rfl; simp at h2
      refine ⟨pre.dropLast, ?_⟩
      rw [List.getLast?_eq_some_getLast hne] at h2
      injection h2 with h2
      rw [← h2, List.dropLast_append_getLast]
    rw [show a ++ ['\n'] ++ l ++ post = a ++ '\n' :: (l ++ post) by simp]
    exact mem_getLinesFrom_split key

/-! ### The reading loop -/

/-- The variables of the reading loop after the header. -/
structure DimacsAny (n m : Nat) (s : DimacsState) : Prop where
  header : s.header = some (n, m)
  small : n < u32
  smallArcs : m < u32
  tailLen : s.tail.length = m
  headLen : s.head.length = m
  weightLen : s.weight.length = m
  next : s.nextArc < u32
  slots : ∀ j, j < m → j < s.nextArc → ∃ t h w, rd s.tail j = some t ∧ rd s.head j = some h ∧ rd s.weight j = some w ∧
    t < n ∧ h < n ∧ w < u32

instance (l : Text) : Decidable (IsCommentText l) := inferInstanceAs (Decidable (_ ∨ _))

theorem dimacsLine_header {s : DimacsState} {line : Text} (hs : s.header = none) (hc : ¬ IsCommentText line) :
    dimacsLine s line = .error ∨ ∃ s' n m p sp, dimacsLine s line = .ok s' ∧ DimacsAny n m s' ∧ dimacsHeaderFields line = some (p, sp, n, m) := by
  unfold IsCommentText at hc
  unfold dimacsLine
  rw [if_neg hc, hs]
  simp only [dimacsHeader]
  cases hf : dimacsHeaderFields line with
  | none => exact Or.inl rfl
  | some x =>
    obtain ⟨p, sp, n, m⟩ := x
    simp only
    by_cases hp : p = ['p'] ∧ sp = ['s', 'p']
    · rw [if_pos hp]
      have hnm : n < u32 ∧ m < u32 := by
        simp only [dimacsHeaderFields, Option.bind_eq_bind, Option.bind_eq_some_iff] at hf
        obtain ⟨_, _, _, _, ⟨n', r⟩, e1, ⟨m', r'⟩, e2, h⟩ := hf
        cases h
        exact ⟨readUnsigned_lt e1, readUnsigned_lt e2⟩
      exact Or.inr ⟨_, n, m, p, sp, rfl, ⟨rfl, hnm.1, hnm.2, by simp, by simp, by simp, by unfold u32; simp,
        fun j _ hj => absurd hj (by simp)⟩, rfl⟩
    · rw [if_neg hp]; exact Or.inl rfl

theorem dimacsLine_arc {s : DimacsState} {line : Text} {n m : Nat} (hs : DimacsAny n m s) :
    dimacsLine s line = .error ∨ ∃ s', dimacsLine s line = .ok s' ∧ DimacsAny n m s' := by
  unfold dimacsLine
  by_cases hc : line = [] ∨ line.head? = some 'c'
  · rw [if_pos hc]; exact Or.inr ⟨s, rfl, hs⟩
  · rw [if_neg hc, hs.header]
    simp only [dimacsArc]
    cases hf : dimacsArcFields line with
    | none => exact Or.inl rfl
    | some x =>
      obtain ⟨a, t, h, w⟩ := x
      simp only
      have hw : w < u32 := by
        simp only [dimacsArcFields, Option.bind_eq_bind, Option.bind_eq_some_iff] at hf
        obtain ⟨_, _, _, _, _, _, ⟨w', r'⟩, e2, h⟩ := hf
        cases h
        exact readUnsigned_lt e2
      by_cases hbad : a ≠ ['a'] ∨ n ≤ dec32 h ∨ n ≤ dec32 t
      · rw [if_pos hbad]; exact Or.inl rfl
      · rw [if_neg hbad]
        have hu : 0 < u32 := by unfold u32; omega
        have hsmall := hs.smallArcs
        have hnext := hs.next
        by_cases hlt : s.nextArc < m
        · have hadd : add32 s.nextArc 1 = s.nextArc + 1 := by unfold add32; exact Nat.mod_eq_of_lt (by omega)
          rw [if_pos hlt, wr_lt (by rw [hs.headLen]; exact hlt), wr_lt (by rw [hs.tailLen]; exact hlt), wr_lt (by rw [hs.weightLen]; exact hlt)]
          refine Or.inr ⟨_, rfl, ⟨hs.header, hs.small, hs.smallArcs, by simp [hs.tailLen], by simp [hs.headLen], by simp [hs.weightLen],
            Nat.mod_lt _ hu, ?_⟩⟩
          intro j hj hjn
          simp only [hadd] at hjn
          simp only [rd_set (show s.nextArc < s.tail.length by rw [hs.tailLen]; exact hlt),
            rd_set (show s.nextArc < s.head.length by rw [hs.headLen]; exact hlt),
            rd_set (show s.nextArc < s.weight.length by rw [hs.weightLen]; exact hlt)]
          by_cases hje : j = s.nextArc
          · simp only [if_pos hje]
            exact ⟨_, _, _, rfl, rfl, rfl, by omega, by omega, hw⟩
          · simp only [if_neg hje]
            exact hs.slots j hj (by omega)
        · rw [if_neg hlt]
          refine Or.inr ⟨_, rfl, ⟨hs.header, hs.small, hs.smallArcs, hs.tailLen, hs.headLen, hs.weightLen, Nat.mod_lt _ hu, ?_⟩⟩
          intro j hj _
          exact hs.slots j hj (by omega)

theorem fold_arcs {n m : Nat} : ∀ (lines : List Text) (s : DimacsState), DimacsAny n m s →
    lines.foldlM dimacsLine s = .error ∨ ∃ s', lines.foldlM dimacsLine s = .ok s' ∧ DimacsAny n m s'
  | [], s, hs => Or.inr ⟨s, rfl, hs⟩
  | l :: ls, s, hs => by
    rw [List.foldlM_cons]
    rcases dimacsLine_arc (line := l) hs with h | ⟨s', h, hs'⟩
    · rw [h]; exact Or.inl rfl
    · rw [h, Res.ok_bind]; exact fold_arcs ls s' hs'

/-- The outcomes of the reading loop. -/
theorem fold_lines : ∀ (lines : List Text) (s : DimacsState), s.header = none →
    ((∀ l ∈ lines, IsCommentText l) ∧ lines.foldlM dimacsLine s = .ok s) ∨
    ((∃ l ∈ lines, ¬ IsCommentText l) ∧ (lines.foldlM dimacsLine s = .error ∨
      ∃ s' n m l p sp, lines.foldlM dimacsLine s = .ok s' ∧ DimacsAny n m s' ∧ l ∈ lines ∧ dimacsHeaderFields l = some (p, sp, n, m)))
  | [], s, hs => Or.inl ⟨by simp, rfl⟩
  | l :: ls, s, hs => by
    rw [List.foldlM_cons]
    by_cases hc : IsCommentText l
    · have : dimacsLine s l = .ok s := by unfold dimacsLine; exact if_pos hc
      rw [this, Res.ok_bind]
      rcases fold_lines ls s hs with ⟨h1, h2⟩ | ⟨⟨l', hl', hn⟩, h⟩
      · refine Or.inl ⟨fun x hx => ?_, h2⟩
        rcases List.mem_cons.1 hx with rfl | hx
        · exact hc
        · exact h1 x hx
      · refine Or.inr ⟨⟨l', List.mem_cons_of_mem _ hl', hn⟩, ?_⟩
        rcases h with h | ⟨s', n, m, l2, p, sp, h1, h2, h3, h4⟩
        · exact Or.inl h
        · exact Or.inr ⟨s', n, m, l2, p, sp, h1, h2, List.mem_cons_of_mem _ h3, h4⟩
    · refine Or.inr ⟨⟨l, List.mem_cons_self .., hc⟩, ?_⟩
      rcases dimacsLine_header hs hc with h | ⟨s', n, m, p, sp, h, h2, h4⟩
      · rw [h]; exact Or.inl rfl
      · rw [h, Res.ok_bind]
        rcases fold_arcs ls s' h2 with h5 | ⟨s2, h5, h6⟩
        · exact Or.inl h5
        · exact Or.inr ⟨s2, n, m, l, p, sp, h5, h6, List.mem_cons_self .., h4⟩

theorem dimacsAny_final {n m : Nat} {s : DimacsState} (hs : DimacsAny n m s) (hc : s.nextArc = m) :
    ∃ arcs : List (Nat × Nat × Nat), s.tail = arcs.map (·.1) ∧ s.head = arcs.map (·.2.1) ∧ s.weight = arcs.map (·.2.2) ∧ arcs.length = m ∧
      ∀ a ∈ arcs, a.1 < n ∧ a.2.1 < n ∧ a.2.2 < u32 := by
  have h1 : s.tail.length = s.head.length := by rw [hs.tailLen, hs.headLen]
  have h2 : s.head.length = s.weight.length := by rw [hs.weightLen, hs.headLen]
  refine ⟨s.tail.zip (s.head.zip s.weight), ?_, ?_, ?_, ?_, ?_⟩
  · exact (List.map_fst_zip (by rw [List.length_zip]; omega)).symm
  · rw [show (fun x : Nat × Nat × Nat => x.2.1) = Prod.fst ∘ Prod.snd from rfl, ← List.map_map,
      List.map_snd_zip (by rw [List.length_zip]; omega), List.map_fst_zip (by omega)]
  · rw [show (fun x : Nat × Nat × Nat => x.2.2) = Prod.snd ∘ Prod.snd from rfl, ← List.map_map,
      List.map_snd_zip (by rw [List.length_zip]; omega), List.map_snd_zip (by omega)]
  · simp only [List.length_zip]; rw [hs.tailLen, hs.headLen, hs.weightLen]; omega
  · intro a ha
    obtain ⟨i, hi, rfl⟩ := List.getElem_of_mem ha
    simp only [List.length_zip] at hi
    obtain ⟨t, h, w, e1, e2, e3, h4⟩ := hs.slots i (by rw [hs.tailLen] at hi; omega) (by rw [hs.tailLen] at hi; omega)
    rw [rd_lt (by omega)] at e1 e2 e3
    injection e1 with e1; injection e2 with e2; injection e3 with e3
    simp only [List.getElem_zip, e1, e2, e3]
    exact h4

theorem orderArcs_largest {n : Nat} (hn : n + 1 = u32) {arcs : List (Nat × Nat × Nat)} (ha : ∀ a ∈ arcs, a.1 < n ∧ a.2.1 < n) :
    orderArcs n (arcs.map (·.1)) (arcs.map (·.2.1)) (arcs.map (·.2.2)) = if arcs = [] then some ([], [], []) else none := by
  have hT : ∀ x ∈ arcs.map (·.1), x < n := by
    intro x hx; obtain ⟨a, hm, rfl⟩ := List.mem_map.1 hx; exact (ha a hm).1
  have hH : ∀ x ∈ arcs.map (·.2.1), x < n := by
    intro x hx; obtain ⟨a, hm, rfl⟩ := List.mem_map.1 hx; exact (ha a hm).2
  obtain ⟨p, a1, q, T, r, r0, e1, e2, e3, e4, e5, hr, hinv, hlex, hTl, hTr⟩ :=
    lex_inverse (a := arcs.map (·.1)) (b := arcs.map (·.2.1)) (by simp) hT hH
  have hr0l : r0.length = arcs.length := by simpa using hlex.2.1
  have hrl : r.length = arcs.length := hinv.1 ▸ hr0l
  have hTl' : T.length = arcs.length := by simpa using hTl
  obtain ⟨H, eH, hHl, hHr⟩ := applyInversePermutation_spec (v := arcs.map (·.2.1)) (isPerm_iff_perm.2 hr) (by simpa using hrl)
  obtain ⟨W, eW, hWl, hWr⟩ := applyInversePermutation_spec (v := arcs.map (·.2.2)) (isPerm_iff_perm.2 hr) (by simpa using hrl)
  simp only [orderArcs, e1, e2, e3, e4, e5, eH, eW, invertVector32, if_pos hn, Option.bind_eq_bind, Option.bind_some]
  by_cases hnil : arcs = []
  · subst hnil
    rw [if_pos rfl, if_pos (List.eq_nil_of_length_eq_zero hTl')]
    rw [List.eq_nil_of_length_eq_zero (show H.length = 0 by simpa using hHl), List.eq_nil_of_length_eq_zero (show W.length = 0 by simpa using hWl)]
    rfl
  · rw [if_neg hnil, if_neg]
    · rfl
    · rintro rfl
      exact hnil (List.eq_nil_of_length_eq_zero (by simpa using hTl'.symm))

/-- The outcomes of the conversion of any text. -/
theorem convertDimacs_any (text : Text) :
    ((∀ l ∈ getLines text, IsCommentText l) ∧ convertDimacs text = .ub) ∨
    ((∃ l ∈ getLines text, ¬ IsCommentText l) ∧ (convertDimacs text = .error ∨
      (∃ n arcs fo hd w, convertDimacs text = .ok (fo, hd, w) ∧ n + 1 < u32 ∧ arcs.length < u32 ∧ IsGraphOf n arcs fo hd w ∧
        ∀ a ∈ arcs, a.1 < n ∧ a.2.1 < n ∧ a.2.2 < u32) ∨
      (∃ l ∈ getLines text, ∃ p sp m, dimacsHeaderFields l = some (p, sp, 4294967295, m) ∧
        convertDimacs text = if m = 0 then .ok ([], [], []) else .ub))) := by
  unfold convertDimacs
  rcases fold_lines (getLines text) ⟨none, [], [], [], 0⟩ rfl with ⟨h1, h2⟩ | ⟨h1, h⟩
  · rw [h2, Res.ok_bind]; exact Or.inl ⟨h1, rfl⟩
  · refine Or.inr ⟨h1, ?_⟩
    rcases h with h | ⟨s, n, m, l, p, sp, h2, hs, hl, hf⟩
    · rw [h]; exact Or.inl rfl
    · rw [h2, Res.ok_bind]
      unfold dimacsFinish
      rw [hs.header]
      simp only
      by_cases hc : s.nextArc = m
      · rw [if_neg (by simpa using hc)]
        obtain ⟨arcs, e1, e2, e3, hlen, hgood⟩ := dimacsAny_final hs hc
        rw [e1, e2, e3]
        have hn := hs.small
        by_cases hnl : n + 1 = u32
        · refine Or.inr (Or.inr ⟨l, hl, p, sp, m, ?_, ?_⟩)
          · rw [hf]; unfold u32 at hnl; rw [show n = 4294967295 by omega]
          · rw [orderArcs_largest hnl (fun a ha => ⟨(hgood a ha).1, (hgood a ha).2.1⟩)]
            by_cases hm : m = 0
            · rw [if_pos hm, if_pos (List.eq_nil_of_length_eq_zero (by omega))]; rfl
            · rw [if_neg hm, if_neg (by rintro rfl; exact hm hlen.symm)]; rfl
        · obtain ⟨fo, hd, w, e, hg⟩ := orderArcs_spec (n := n) (by omega) (arcs := arcs) (fun a ha => ⟨(hgood a ha).1, (hgood a ha).2.1⟩)
          exact Or.inr (Or.inl ⟨n, arcs, fo, hd, w, by rw [e]; rfl, by omega, by rw [hlen]; exact hs.smallArcs, hg, hgood⟩)
      · rw [if_pos hc]; exact Or.inl rfl

end RK
