import Verif.Model.Dimacs
import Verif.Proof.TextIO
import Verif.Proof.GraphUtil
import Verif.Proof.InverseVector
/-! # Import of DIMACS files -/
namespace RK
open Spec

/-! ### Lines -/

/-- What the reading loop does for a line with the given meaning. -/
def dimacsSem (s : DimacsState) (l : DimacsLine) : Res DimacsState :=
  match l, s.header with
  | .comment, _ => .ok s
  | .header n m, none => if n < u32 ∧ m < u32 then .ok ⟨some (n, m), List.replicate m 0, List.replicate m 0, List.replicate m 0, 0⟩ else .error
  | .header _ _, some _ => .error
  | .arc _ _ _, none => .error
  | .arc t h w, some (n, m) =>
    if t < u32 ∧ h < u32 ∧ w < u32 ∧ dec32 t < n ∧ dec32 h < n then
      if s.nextArc < m then
        Res.ofOption do
          let head ← wr s.head s.nextArc (dec32 h)
          let tail ← wr s.tail s.nextArc (dec32 t)
          let weight ← wr s.weight s.nextArc w
          some { s with tail := tail, head := head, weight := weight, nextArc := add32 s.nextArc 1 }
      else .ok { s with nextArc := add32 s.nextArc 1 }
    else .error

theorem words_not_comment {text w : List Char} {ws : List (List Char)} (h : IsWords text (w :: ws)) (hw : w.head? ≠ some 'c') :
    ¬ (text = [] ∨ text.head? = some 'c') := by
  cases h with
  | cons gap _ rest _ hg hne _ _ _ =>
    obtain ⟨d, w', rfl⟩ := List.exists_cons_of_ne_nil hne
    cases gap with
    | nil => simpa using hw
    | cons g gap =>
      have hb := hg g (List.mem_cons_self ..)
      rintro (h | h)
      · simp at h
      · simp only [List.cons_append, List.head?_cons, Option.some.injEq] at h
        subst h
        revert hb; unfold IsBlank; decide

theorem dimacsLine_reads {s : DimacsState} {l : DimacsLine} {t : List Char} (h : l.Reads t) : dimacsLine s t = dimacsSem s l := by
  cases l with
  | comment =>
    unfold dimacsLine
    rw [if_pos (show t = [] ∨ t.head? = some 'c' from h.1)]; rfl
  | header n m =>
    obtain ⟨a, b, hw, ha, hb⟩ := h
    unfold dimacsLine
    rw [if_neg (words_not_comment hw (by decide))]
    obtain ⟨r1, e1, hw1⟩ := readWord_words hw
    cases hs : s.header with
    | none =>
      obtain ⟨r2, e2, hw2⟩ := readWord_words hw1
      obtain ⟨r3, e3, hw3⟩ := readUnsigned_words hw2 ha
      obtain ⟨r4, e4, hw4⟩ := readUnsigned_words hw3 hb
      simp only [dimacsSem, hs, dimacsHeader, dimacsHeaderFields, e1, e2, e3, Option.bind_eq_bind, Option.bind_some]
      by_cases hn : n < u32
      · by_cases hm : m < u32
        · simp [hn, hm, e4]
        · simp [hn, hm, e4]
      · simp [hn]
    | some nm =>
      have e2 := readUnsigned_letter (c := 's') hw1 rfl (by decide) (by decide) (by decide)
      simp only [dimacsSem, hs, dimacsArc, dimacsArcFields, e1, e2, Option.bind_eq_bind, Option.bind_some, Option.bind_none]
  | arc tl hd w =>
    obtain ⟨a, b, c, hw, ha, hb, hc⟩ := h
    unfold dimacsLine
    rw [if_neg (words_not_comment hw (by decide))]
    obtain ⟨r1, e1, hw1⟩ := readWord_words hw
    cases hs : s.header with
    | none =>
      obtain ⟨r2, e2, hw2⟩ := readWord_words hw1
      simp only [dimacsSem, hs, dimacsHeader, dimacsHeaderFields, e1, e2, Option.bind_eq_bind, Option.bind_some]
      split
      · rfl
      · rename_i h
        simp only [Option.bind_eq_some_iff] at h
        obtain ⟨_, _, _, _, h⟩ := h
        cases h
        rw [if_neg (fun h => absurd h.1 (by decide))]
    | some nm =>
      obtain ⟨n, m⟩ := nm
      obtain ⟨r2, e2, hw2⟩ := readUnsigned_words hw1 ha
      obtain ⟨r3, e3, hw3⟩ := readUnsigned_words hw2 hb
      obtain ⟨r4, e4, hw4⟩ := readUnsigned_words hw3 hc
      simp only [dimacsSem, hs, dimacsArc, dimacsArcFields, e1, e2, Option.bind_eq_bind, Option.bind_some]
      by_cases h1 : tl < u32
      · by_cases h2 : hd < u32
        · by_cases h3 : w < u32
          · simp only [h1, h2, h3, e3, e4, if_true, Option.bind_some, true_and, ne_eq, not_true_eq_false, false_or]
            by_cases h4 : dec32 tl < n ∧ dec32 hd < n
            · rw [if_pos h4, if_neg (by omega)]
            · rw [if_neg h4, if_pos (by omega)]
          · simp [h1, h2, h3, e3, e4]
        · simp [h1, h2, e3]
      · simp [h1]

theorem reads_no_newline {l : DimacsLine} {t : List Char} (h : l.Reads t) : '\n' ∉ t := by
  cases l with
  | comment => exact h.2
  | header n m => obtain ⟨_, _, hw, _⟩ := h; exact isWords_no_newline hw
  | arc tl hd w => obtain ⟨_, _, _, hw, _⟩ := h; exact isWords_no_newline hw

theorem fold_fileOf {ls : List DimacsLine} {text : List Char} (h : FileOf ls text) : ∀ (s : DimacsState),
    (getLines text).foldlM dimacsLine s = ls.foldlM dimacsSem s := by
  induction h with
  | nil => intro s; rfl
  | last l t hr =>
    intro s
    rw [getLines_last (reads_no_newline hr)]
    by_cases ht : t = []
    · subst ht
      rw [if_pos rfl]
      have h1 : dimacsLine s [] = dimacsSem s l := dimacsLine_reads hr
      have h2 : dimacsLine s [] = .ok s := by simp [dimacsLine]
      simp only [List.foldlM_nil, List.foldlM_cons, ← h1, h2, Res.ok_bind]
    · rw [if_neg ht]
      simp only [List.foldlM_nil, List.foldlM_cons, dimacsLine_reads hr]
  | cons l ls t rest hr _ ih =>
    intro s
    rw [getLines_line (reads_no_newline hr), List.foldlM_cons, List.foldlM_cons, dimacsLine_reads hr]
    congr 1
    funext s'
    exact ih s'

theorem fold_comments {ls rest : List DimacsLine} (h : ∀ l ∈ ls, l = .comment) (s : DimacsState) :
    (ls ++ rest).foldlM dimacsSem s = rest.foldlM dimacsSem s := by
  induction ls with
  | nil => rfl
  | cons l ls ih =>
    rw [List.cons_append, List.foldlM_cons, h l (List.mem_cons_self ..)]
    exact ih (fun l' hl => h l' (List.mem_cons_of_mem _ hl))

theorem dec32_pos {x : Nat} (h0 : 1 ≤ x) (h : x < u32) : dec32 x = x - 1 := by
  unfold dec32 u32 at *; omega

theorem dec32_zero : dec32 0 = 4294967295 := by decide

theorem validArc_iff {n t h w : Nat} (hn : n < u32) :
    (t < u32 ∧ h < u32 ∧ w < u32 ∧ dec32 t < n ∧ dec32 h < n) ↔ ValidArc n (t, h, w) := by
  unfold ValidArc dec32 u32 at *
  constructor
  · intro h; simp only; omega
  · intro h; simp only at h; omega

/-- The variables after the arcs `done`. -/
structure DimacsInv (n m : Nat) (done : List (Nat × Nat × Nat)) (s : DimacsState) : Prop where
  header : s.header = some (n, m)
  tailLen : s.tail.length = m
  headLen : s.head.length = m
  weightLen : s.weight.length = m
  next : s.nextArc = done.length % u32
  slots : ∀ j, j < m → j < done.length % u32 → ∃ t h w, done[done.length / u32 * u32 + j]? = some (t, h, w) ∧
    rd s.tail j = some (t - 1) ∧ rd s.head j = some (h - 1) ∧ rd s.weight j = some w

theorem dimacsInv_arc {n m : Nat} {done : List (Nat × Nat × Nat)} {s : DimacsState} (hs : DimacsInv n m done s) (hn : n < u32) (hm : m < u32)
    {t h w : Nat} (hg : ValidArc n (t, h, w)) :
    ∃ s', dimacsSem s (.arc t h w) = .ok s' ∧ DimacsInv n m (done ++ [(t, h, w)]) s' := by
  have hu : 0 < u32 := by unfold u32; omega
  have hdt : dec32 t = t - 1 := dec32_pos hg.1 (by have := hg.2.1; simp only at this; omega)
  have hdh : dec32 h = h - 1 := dec32_pos hg.2.2.1 (by have := hg.2.2.2.1; simp only at this; omega)
  have hlen : (done ++ [(t, h, w)]).length = done.length + 1 := by simp
  have hnext : add32 s.nextArc 1 = (done ++ [(t, h, w)]).length % u32 := by
    rw [hlen, hs.next]; unfold add32; simp
  -- the old slots stay valid unless the counter wraps
  have hcase : (done.length + 1) % u32 = 0 ∨ ((done.length + 1) % u32 = done.length % u32 + 1 ∧ (done.length + 1) / u32 = done.length / u32) := by
    unfold u32; omega
  have hdm : done.length / u32 * u32 + done.length % u32 = done.length := by rw [Nat.mul_comm]; exact Nat.div_add_mod _ _
  simp only [dimacsSem, hs.header]
  rw [if_pos ((validArc_iff hn).2 hg)]
  by_cases hlt : s.nextArc < m
  · rw [if_pos hlt, wr_lt (by rw [hs.headLen]; exact hlt), wr_lt (by rw [hs.tailLen]; exact hlt), wr_lt (by rw [hs.weightLen]; exact hlt)]
    refine ⟨_, rfl, ⟨rfl, by simp [hs.tailLen], by simp [hs.headLen], by simp [hs.weightLen], hnext, ?_⟩⟩
    intro j hj hjl
    rw [hlen] at hjl ⊢
    rcases hcase with hc | ⟨hc1, hc2⟩
    · omega
    · rw [hc2]
      rw [rd_set (by rw [hs.tailLen]; exact hlt), rd_set (by rw [hs.headLen]; exact hlt), rd_set (by rw [hs.weightLen]; exact hlt)]
      by_cases hje : j = s.nextArc
      · rw [if_pos hje, if_pos hje, if_pos hje]
        refine ⟨t, h, w, ?_, by rw [hdt], by rw [hdh], rfl⟩
        rw [hje, hs.next, hdm]
        simp
      · rw [if_neg hje, if_neg hje, if_neg hje]
        have hjl' : j < done.length % u32 := by rw [hs.next] at hje; omega
        obtain ⟨t', h', w', e, e1, e2, e3⟩ := hs.slots j hj hjl'
        refine ⟨t', h', w', ?_, e1, e2, e3⟩
        rw [List.getElem?_append_left (by omega)]
        exact e
  · rw [if_neg hlt]
    refine ⟨_, rfl, ⟨rfl, hs.tailLen, hs.headLen, hs.weightLen, hnext, ?_⟩⟩
    intro j hj hjl
    rw [hlen] at hjl ⊢
    rcases hcase with hc | ⟨hc1, hc2⟩
    · omega
    · rw [hc2]
      have hjl' : j < done.length % u32 := by rw [hs.next] at hlt; omega
      obtain ⟨t', h', w', e, e1, e2, e3⟩ := hs.slots j hj hjl'
      refine ⟨t', h', w', ?_, e1, e2, e3⟩
      rw [List.getElem?_append_left (by omega)]
      exact e

theorem dimacsInv_fold {n m : Nat} (hn : n < u32) (hm : m < u32) : ∀ (ls : List DimacsLine) (done : List (Nat × Nat × Nat)) (s : DimacsState),
    DimacsInv n m done s → (∀ l ∈ ls, ∀ n' m', l ≠ .header n' m') →
    ((∀ a ∈ ls.filterMap DimacsLine.toArc, ValidArc n a) → ∃ s', ls.foldlM dimacsSem s = .ok s' ∧ DimacsInv n m (done ++ ls.filterMap DimacsLine.toArc) s') ∧
    (¬ (∀ a ∈ ls.filterMap DimacsLine.toArc, ValidArc n a) → ls.foldlM dimacsSem s = .error)
  | [], done, s, hs, _ => ⟨fun _ => ⟨s, rfl, by simpa using hs⟩, fun h => absurd (by simp) h⟩
  | l :: ls, done, s, hs, hh => by
    have hh' : ∀ l' ∈ ls, ∀ n' m', l' ≠ .header n' m' := fun l' hl => hh l' (List.mem_cons_of_mem _ hl)
    cases l with
    | comment =>
      have ih := dimacsInv_fold hn hm ls done s hs hh'
      have hf : (DimacsLine.comment :: ls).filterMap DimacsLine.toArc = ls.filterMap DimacsLine.toArc := rfl
      rw [hf, List.foldlM_cons]
      exact ih
    | header n' m' => exact absurd rfl (hh _ (List.mem_cons_self ..) n' m')
    | arc t h w =>
      have hf : (DimacsLine.arc t h w :: ls).filterMap DimacsLine.toArc = (t, h, w) :: ls.filterMap DimacsLine.toArc := rfl
      rw [hf, List.foldlM_cons]
      by_cases hg : ValidArc n (t, h, w)
      · obtain ⟨s1, e1, h1⟩ := dimacsInv_arc hs hn hm hg
        have ih := dimacsInv_fold hn hm ls _ s1 h1 hh'
        rw [e1, Res.ok_bind, show done ++ (t, h, w) :: ls.filterMap DimacsLine.toArc = done ++ [(t, h, w)] ++ ls.filterMap DimacsLine.toArc by simp]
        refine ⟨fun hall => ih.1 fun a ha => hall a (List.mem_cons_of_mem _ ha), fun hne => ih.2 fun hall => hne ?_⟩
        intro a ha
        rcases List.mem_cons.1 ha with rfl | ha
        · exact hg
        · exact hall a ha
      · refine ⟨fun hall => absurd (hall _ (List.mem_cons_self ..)) hg, fun _ => ?_⟩
        have : dimacsSem s (.arc t h w) = .error := by
          simp only [dimacsSem, hs.header]
          rw [if_neg (fun h => hg ((validArc_iff hn).1 h))]
        rw [this]; rfl

/-! ### Ordering the arcs -/

theorem orderArcs_spec {n : Nat} (hn : n + 1 < u32) {arcs : List (Nat × Nat × Nat)} (ha : ∀ a ∈ arcs, a.1 < n ∧ a.2.1 < n) :
    ∃ fo hd w, orderArcs n (arcs.map (·.1)) (arcs.map (·.2.1)) (arcs.map (·.2.2)) = some (fo, hd, w) ∧ IsGraphOf n arcs fo hd w := by
  have hT : ∀ x ∈ arcs.map (·.1), x < n := by
    intro x hx; obtain ⟨a, hm, rfl⟩ := List.mem_map.1 hx; exact (ha a hm).1
  have hH : ∀ x ∈ arcs.map (·.2.1), x < n := by
    intro x hx; obtain ⟨a, hm, rfl⟩ := List.mem_map.1 hx; exact (ha a hm).2
  obtain ⟨p, a1, q, T, r, r0, e1, e2, e3, e4, e5, hr, hinv, hlex, hTl, hTr⟩ :=
    lex_inverse (a := arcs.map (·.1)) (b := arcs.map (·.2.1)) (by simp) hT hH
  have hr0l : r0.length = arcs.length := by simpa using hlex.2.1
  have hrl : r.length = arcs.length := hinv.1 ▸ hr0l
  have hTl' : T.length = arcs.length := by simpa using hTl
  obtain ⟨H, eH, hHl, hHr⟩ := applyInversePermutation_spec (v := arcs.map (·.2.1)) (isPerm_iff_perm.2 hr) (by simpa using hrl)
  obtain ⟨W, eW, hWl, hWr⟩ := applyInversePermutation_spec (v := arcs.map (·.2.2)) (isPerm_iff_perm.2 hr) (by simpa using hrl)
  have hsort : T.Pairwise (· ≤ ·) := (isSortedUsingLess_iff _).1 (lex_sorted (by simp) hlex hTl hTr)
  have hTn : ∀ x ∈ T, x < n := mem_of_apply hT (by simpa using hr0l) hTl hTr
  obtain ⟨fo, ef, hfl, hf⟩ := invertVector_spec hsort hTn
  have hne : ¬ n + 1 = u32 := by omega
  refine ⟨fo, H, W, ?_, r0, hlex, by simpa using hHl, by simpa using hWl, hfl, ?_, ?_, ?_, ?_⟩
  · simp only [orderArcs, e1, e2, e3, e4, e5, eH, eW, invertVector32, if_neg hne, ef, Option.bind_eq_bind, Option.bind_some]
  · have := hf 0 (by omega)
    rw [show cLt T 0 = 0 by simp [cLt]] at this
    exact this
  · have := hf n (by omega)
    rw [cLt_all hTn, hTl'] at this
    exact this
  · rw [List.pairwise_iff_getElem]
    intro i j hi hj hij
    have h1 := hf i (by omega)
    have h2 := hf j (by omega)
    rw [rd_lt hi] at h1
    rw [rd_lt hj] at h2
    injection h1 with h1; injection h2 with h2
    rw [h1, h2]
    exact cLt_mono _ (by omega)
  · intro i a t h w hp harc
    have hra : rd r a = some i := (hinv.2 i a).1 hp
    have h1 := hHr a i hra
    have h2 := hWr a i hra
    have h3 := hTr i a hp
    have h4 : rd (arcs.map (·.1)) a = some t := by simp [rd, harc]
    have ht : t < n := (ha _ (List.mem_of_getElem? harc)).1
    rw [h4] at h3
    refine ⟨by simpa [rd, harc] using h1, by simpa [rd, harc] using h2, cLt T t, cLt T (t + 1), hf t (by omega), hf (t + 1) (by omega), ?_, ?_⟩
    · by_contra hc
      have := (sorted_cLt (k := t) hsort h3).2 (by omega)
      omega
    · exact (sorted_cLt (k := t + 1) hsort h3).1 (by omega)

/-- Arcs with nodes counted from 0. -/
def zeroBased (arcs : List (Nat × Nat × Nat)) : List (Nat × Nat × Nat) := arcs.map fun a => (a.1 - 1, a.2.1 - 1, a.2.2)

theorem dimacsInv_final {n m : Nat} {arcs : List (Nat × Nat × Nat)} {s : DimacsState} (hs : DimacsInv n m arcs s)
    (hc : arcs.length % u32 = m) :
    s.tail = (zeroBased (arcs.drop (arcs.length - m))).map (·.1) ∧ s.head = (zeroBased (arcs.drop (arcs.length - m))).map (·.2.1) ∧
      s.weight = (zeroBased (arcs.drop (arcs.length - m))).map (·.2.2) := by
  have hle : m ≤ arcs.length := hc ▸ Nat.mod_le _ _
  have hdm : arcs.length / u32 * u32 + m = arcs.length := by rw [Nat.mul_comm, ← hc]; exact Nat.div_add_mod _ _
  have hl : (arcs.drop (arcs.length - m)).length = m := by rw [List.length_drop]; omega
  have key : ∀ j, j < m → ∃ t h w, (arcs.drop (arcs.length - m))[j]? = some (t, h, w) ∧ rd s.tail j = some (t - 1) ∧
      rd s.head j = some (h - 1) ∧ rd s.weight j = some w := by
    intro j hj
    obtain ⟨t, h, w, e, e1⟩ := hs.slots j hj (by omega)
    refine ⟨t, h, w, ?_, e1⟩
    rw [List.getElem?_drop, ← e]
    congr 1
    omega
  refine ⟨list_ext_rd (by simp [zeroBased, hs.tailLen]; omega) ?_, list_ext_rd (by simp [zeroBased, hs.headLen]; omega) ?_,
    list_ext_rd (by simp [zeroBased, hs.weightLen]; omega) ?_⟩
  · intro j hj
    rw [hs.tailLen] at hj
    obtain ⟨t, h, w, e, e1, e2, e3⟩ := key j hj
    rw [e1]; simp [zeroBased, rd, e, -List.getElem?_drop, -List.map_drop]
  · intro j hj
    rw [hs.headLen] at hj
    obtain ⟨t, h, w, e, e1, e2, e3⟩ := key j hj
    rw [e2]; simp [zeroBased, rd, e, -List.getElem?_drop, -List.map_drop]
  · intro j hj
    rw [hs.weightLen] at hj
    obtain ⟨t, h, w, e, e1, e2, e3⟩ := key j hj
    rw [e3]; simp [zeroBased, rd, e, -List.getElem?_drop, -List.map_drop]

open Classical in
theorem convertDimacs_file {n m : Nat} {arcs : List (Nat × Nat × Nat)} {text : List Char} (h : IsDimacs n m arcs text) :
    convertDimacs text =
      if n < u32 ∧ m < u32 ∧ (∀ a ∈ arcs, ValidArc n a) ∧ arcs.length % u32 = m then
        Res.ofOption (orderArcs n ((zeroBased (arcs.drop (arcs.length - m))).map (·.1)) ((zeroBased (arcs.drop (arcs.length - m))).map (·.2.1))
          ((zeroBased (arcs.drop (arcs.length - m))).map (·.2.2)))
      else .error := by
  obtain ⟨before, after, hf, hb, ha, rfl⟩ := h
  unfold convertDimacs
  rw [fold_fileOf hf, fold_comments hb, List.foldlM_cons]
  simp only [dimacsSem]
  by_cases hnm : n < u32 ∧ m < u32
  · obtain ⟨hn, hm⟩ := hnm
    rw [if_pos ⟨hn, hm⟩, Res.ok_bind]
    have h0 : DimacsInv n m [] ⟨some (n, m), List.replicate m 0, List.replicate m 0, List.replicate m 0, 0⟩ :=
      ⟨rfl, by simp, by simp, by simp, rfl, fun j _ hj => by simp at hj⟩
    obtain ⟨hgood, hbad⟩ := dimacsInv_fold hn hm after [] _ h0 ha
    by_cases hall : ∀ a ∈ after.filterMap DimacsLine.toArc, ValidArc n a
    · obtain ⟨s, e, hs⟩ := hgood hall
      rw [e, Res.ok_bind]
      rw [List.nil_append] at hs
      unfold dimacsFinish
      rw [hs.header]
      simp only
      by_cases hc : (after.filterMap DimacsLine.toArc).length % u32 = m
      · rw [if_neg (by rw [hs.next]; simpa using hc), if_pos ⟨hn, hm, hall, hc⟩]
        obtain ⟨h1, h2, h3⟩ := dimacsInv_final hs hc
        rw [h1, h2, h3]
      · rw [if_pos (by rw [hs.next]; exact hc), if_neg (fun h => hc h.2.2.2)]
    · rw [hbad hall, if_neg (fun h => hall h.2.2.1)]; rfl
  · rw [if_neg hnm, if_neg (fun h => hnm ⟨h.1, h.2.1⟩)]; rfl

end RK
