import Verif.Proof.Dimacs
/-! # Export of DIMACS files -/
namespace RK
open Spec

/-! ### The text is a DIMACS file -/

theorem isDecimal_printNat (v : Nat) : IsDecimal (printNat v) v := by
  refine ⟨?_, fun c hc => Nat.isDigit_of_mem_toDigits (by omega) (by omega) hc, Nat.ofDigitChars_toDigits (by omega) (by omega)⟩
  exact List.ne_nil_of_length_pos Nat.length_toDigits_pos

theorem isDecimal_word {w : List Char} {v : Nat} (h : IsDecimal w v) : ∀ c ∈ w, ¬ IsBlank c ∧ c ≠ '\n' := by
  intro c hc
  have hd := h.2.1 c hc
  refine ⟨fun hb => ?_, fun hb => ?_⟩
  · rw [isSpace_not_isDigit (isSpace_iff.2 (Or.inl hb))] at hd; cases hd
  · rw [isSpace_not_isDigit (isSpace_iff.2 (Or.inr hb))] at hd; cases hd

theorem isWords_gaps : ∀ {ws : List (List Char)}, (∀ w ∈ ws, w ≠ [] ∧ ∀ c ∈ w, ¬ IsBlank c ∧ c ≠ '\n') →
    IsWords (ws.flatMap (' ' :: ·)) ws
  | [], _ => IsWords.nil [] (by simp)
  | w :: ws, h => by
    have hw := h w (List.mem_cons_self ..)
    have ih := isWords_gaps (ws := ws) (fun w' hw' => h w' (List.mem_cons_of_mem _ hw'))
    have := IsWords.cons [' '] w _ ws (by simp [IsBlank]) hw.1 hw.2 (by
      intro c hc
      cases ws with
      | nil => simp at hc
      | cons w' ws' =>
        simp only [List.flatMap_cons, List.cons_append, List.head?_cons, Option.some.injEq] at hc
        exact Or.inl hc.symm) ih
    simpa using this

theorem isWords_line {w : List Char} {ws : List (List Char)} (h : ∀ x ∈ w :: ws, x ≠ [] ∧ ∀ c ∈ x, ¬ IsBlank c ∧ c ≠ '\n') :
    IsWords (w ++ ws.flatMap (' ' :: ·)) (w :: ws) := by
  have hw := h w (List.mem_cons_self ..)
  have := IsWords.cons [] w _ ws (by simp) hw.1 hw.2 (by
      intro c hc
      cases ws with
      | nil => simp at hc
      | cons w' ws' =>
        simp only [List.flatMap_cons, List.cons_append, List.head?_cons, Option.some.injEq] at hc
        exact Or.inl hc.symm) (isWords_gaps (ws := ws) (fun w' hw' => h w' (List.mem_cons_of_mem _ hw')))
  simpa using this

theorem header_reads (n m : Nat) : (DimacsLine.header n m).Reads (['p', ' ', 's', 'p', ' '] ++ printNat n ++ [' '] ++ printNat m) := by
  refine ⟨printNat n, printNat m, ?_, isDecimal_printNat n, isDecimal_printNat m⟩
  have := isWords_line (w := ['p']) (ws := [['s', 'p'], printNat n, printNat m]) (by
    intro x hx
    simp only [List.mem_cons, List.not_mem_nil, or_false] at hx
    rcases hx with rfl | rfl | rfl | rfl
    · exact ⟨by simp, by unfold IsBlank; decide⟩
    · exact ⟨by simp, by unfold IsBlank; decide⟩
    · exact ⟨(isDecimal_printNat n).1, isDecimal_word (isDecimal_printNat n)⟩
    · exact ⟨(isDecimal_printNat m).1, isDecimal_word (isDecimal_printNat m)⟩)
  simpa using this

theorem arc_reads (t h w : Nat) : (DimacsLine.arc t h w).Reads (['a', ' '] ++ printNat t ++ [' '] ++ printNat h ++ [' '] ++ printNat w) := by
  refine ⟨printNat t, printNat h, printNat w, ?_, isDecimal_printNat t, isDecimal_printNat h, isDecimal_printNat w⟩
  have := isWords_line (w := ['a']) (ws := [printNat t, printNat h, printNat w]) (by
    intro x hx
    simp only [List.mem_cons, List.not_mem_nil, or_false] at hx
    rcases hx with rfl | rfl | rfl | rfl
    · exact ⟨by simp, by unfold IsBlank; decide⟩
    · exact ⟨(isDecimal_printNat t).1, isDecimal_word (isDecimal_printNat t)⟩
    · exact ⟨(isDecimal_printNat h).1, isDecimal_word (isDecimal_printNat h)⟩
    · exact ⟨(isDecimal_printNat w).1, isDecimal_word (isDecimal_printNat w)⟩)
  simpa using this

/-- Arcs with nodes counted from 1. -/
def oneBased (arcs : List (Nat × Nat × Nat)) : List (Nat × Nat × Nat) := arcs.map fun a => (a.1 + 1, a.2.1 + 1, a.2.2)

theorem fileOf_arcs {n : Nat} (hn : n + 1 < u32) : ∀ {arcs : List (Nat × Nat × Nat)}, (∀ a ∈ arcs, a.1 < n ∧ a.2.1 < n) →
    FileOf ((oneBased arcs).map fun a => .arc a.1 a.2.1 a.2.2) (arcs.flatMap fun a => dimacsArcText a.1 a.2.1 a.2.2)
  | [], _ => FileOf.nil
  | (t, h, w) :: arcs, ha => by
    have h1 := ha (t, h, w) (List.mem_cons_self ..)
    have e1 : add32 t 1 = t + 1 := by unfold add32; exact Nat.mod_eq_of_lt (by have := h1.1; simp only at this; omega)
    have e2 : add32 h 1 = h + 1 := by unfold add32; exact Nat.mod_eq_of_lt (by have := h1.2; simp only at this; omega)
    have ih := fileOf_arcs hn (arcs := arcs) (fun a hm => ha a (List.mem_cons_of_mem _ hm))
    have := FileOf.cons _ _ _ _ (arc_reads (t + 1) (h + 1) w) ih
    simpa [oneBased, dimacsArcText, e1, e2] using this

/-! ### The exporting loop -/

theorem isGraphFile_mono {n : Nat} {fo hd wt : List Nat} (h : IsGraphFile n fo hd wt) {i j b e : Nat} (hi : rd fo i = some b) (hj : rd fo j = some e)
    (hij : i ≤ j) : b ≤ e := by
  rcases Nat.lt_or_eq_of_le hij with hlt | rfl
  · obtain ⟨h1, rfl⟩ := rd_eq_some.1 hi
    obtain ⟨h2, rfl⟩ := rd_eq_some.1 hj
    exact List.pairwise_iff_getElem.1 h.mono i j h1 h2 hlt
  · rw [hi] at hj; injection hj with hj; omega

theorem exportDimacs_spec {n : Nat} {fo hd wt : List Nat} (hg : IsGraphFile n fo hd wt) (hne : hd ≠ []) (hn : n + 1 < u32) :
    ∃ text arcs, exportDimacs fo hd wt = .ok text ∧ IsArcList fo hd wt arcs ∧ IsDimacs n hd.length (oneBased arcs) text ∧
      arcs.map (·.2.1) = hd ∧ arcs.map (·.2.2) = wt ∧ ∀ i, i < hd.length → ∃ t b e, rd (arcs.map (·.1)) i = some t ∧ t < n ∧ rd fo t = some b ∧
        rd fo (t + 1) = some e ∧ b ≤ i ∧ i < e := by
  obtain ⟨tl, last, e1, e2, e3, e4⟩ := invertInverseVector_spec (s := fo) hg.first hg.mono
  have hl := hg.length
  have hlast : last = hd.length := by
    rw [hl, show n + 1 - 1 = n by omega] at e2
    have := hg.last
    unfold rd at e2
    rw [e2] at this
    injection this
  have htl : tl.length = hd.length := by omega
  have htails : ∀ i, i < hd.length → ∃ t b e, rd tl i = some t ∧ t < n ∧ rd fo t = some b ∧ rd fo (t + 1) = some e ∧ b ≤ i ∧ i < e := by
    intro i hi
    obtain ⟨t, b, e, h1, h2, h3, h4, h5⟩ := exists_range (s := fo) hg.first e2 (j := i) (by omega)
    exact ⟨t, b, e, e4 t b e i h2 h3 h4 h5, by omega, h2, h3, h4, h5⟩
  have hw := hg.weights
  have hm1 : (tl.zip (hd.zip wt)).map (·.1) = tl := List.map_fst_zip (by rw [List.length_zip]; omega)
  have hm2 : (tl.zip (hd.zip wt)).map (·.2.1) = hd := by
    rw [show (fun x : Nat × Nat × Nat => x.2.1) = Prod.fst ∘ Prod.snd from rfl, ← List.map_map,
      List.map_snd_zip (by rw [List.length_zip]; omega), List.map_fst_zip (by omega)]
  have hm3 : (tl.zip (hd.zip wt)).map (·.2.2) = wt := by
    rw [show (fun x : Nat × Nat × Nat => x.2.2) = Prod.snd ∘ Prod.snd from rfl, ← List.map_map,
      List.map_snd_zip (by rw [List.length_zip]; omega), List.map_snd_zip (by omega)]
  have harcs : (tl.zip (hd.zip wt)).length = hd.length := by simp only [List.length_zip]; omega
  generalize hA : tl.zip (hd.zip wt) = arcs at hm1 hm2 hm3 harcs
  have hrd : ∀ i t h w, rd tl i = some t → rd hd i = some h → rd wt i = some w → arcs[i]? = some (t, h, w) := by
    intro i t h w h1 h2 h3
    have hi : i < arcs.length := by have := rd_some_lt h2; omega
    rw [← hm1] at h1; rw [← hm2] at h2; rw [← hm3] at h3
    simp only [rd, List.getElem?_map, List.getElem?_eq_getElem hi, Option.map_some, Option.some.injEq] at h1 h2 h3
    rw [List.getElem?_eq_getElem hi, ← h1, ← h2, ← h3]
  have hgood : ∀ a ∈ arcs, a.1 < n ∧ a.2.1 < n := by
    intro a ha
    obtain ⟨i, hi, rfl⟩ := List.getElem_of_mem ha
    obtain ⟨t, b, e, h1, h2, _⟩ := htails i (by omega)
    refine ⟨?_, hg.heads _ ?_⟩
    · rw [← hm1] at h1
      simp only [rd, List.getElem?_map, List.getElem?_eq_getElem hi, Option.map_some, Option.some.injEq] at h1
      omega
    · rw [← hm2]; exact List.mem_map_of_mem (List.getElem_mem hi)
  let hdr : Text := ['p', ' ', 's', 'p', ' '] ++ printNat n ++ [' '] ++ printNat hd.length ++ ['\n']
  obtain ⟨out, eo, ho⟩ := forRange_inv (lo := 0) (hi := hd.length) (s := hdr)
    (f := fun out i => do
      let t ← rd tl i
      let h ← rd hd i
      let w ← rd wt i
      some (out ++ dimacsArcText t h w))
    (P := fun i out => out = hdr ++ (arcs.take i).flatMap fun a => dimacsArcText a.1 a.2.1 a.2.2) (Nat.zero_le _) (by simp) (by
      intro i out _ hi hout
      obtain ⟨t, ht⟩ := rd_isSome (v := tl) (i := i) (by omega)
      obtain ⟨h, hh⟩ := rd_isSome (v := hd) (i := i) hi
      obtain ⟨w, hw'⟩ := rd_isSome (v := wt) (i := i) (by omega)
      refine ⟨_, by simp only [ht, hh, hw', Option.bind_eq_bind, Option.bind_some]; rfl, ?_⟩
      rw [List.take_add_one, hrd i t h w ht hh hw', hout]
      simp)
  refine ⟨out, arcs, ?_, ?_, ?_, hm2, hm3, ?_⟩
  · have hfl : fo.length - 1 = n := by omega
    have hhead : fo.head? = some 0 := by rw [List.head?_eq_getElem?]; exact hg.first
    have hback : fo.getLast? = some hd.length := by rw [List.getLast?_eq_getElem?, hfl]; exact hg.last
    have hall : (hd.all fun x => decide (x < n)) = true := by
      rw [List.all_eq_true]; intro x hx; simpa using hg.heads x hx
    simp only [exportDimacs, e1, Res.ofOption_some, Res.ok_bind, hfl, hhead, hback, decide_true, Res.require_true, hall, hw, hne, ne_eq,
      not_false_eq_true]
    exact congrArg Res.ofOption eo
  · refine ⟨harcs, ?_⟩
    intro i x b e h w hb he h1 h2 h3 h4
    exact hrd i x h w (e4 x b e i hb he h1 h2) h3 h4
  · refine ⟨[], (oneBased arcs).map fun a => .arc a.1 a.2.1 a.2.2, ?_, by simp, ?_, ?_⟩
    · have := FileOf.cons _ _ _ _ (header_reads n hd.length) (fileOf_arcs hn hgood)
      rw [ho, List.take_of_length_le (by omega)]
      simpa [hdr] using this
    · intro l hl n' m' he
      obtain ⟨a, _, rfl⟩ := List.mem_map.1 hl
      cases he
    · rw [List.filterMap_map]
      have : (DimacsLine.toArc ∘ fun a : Nat × Nat × Nat => DimacsLine.arc a.1 a.2.1 a.2.2) = some := by funext a; rfl
      rw [this, List.filterMap_some]
  · intro i hi
    rw [hm1]; exact htails i hi

/-! ### Uniqueness -/

theorem lexSortPerm_unique {l r p q : List Nat} (hlr : l.length = r.length) (hp : LexSortPerm l r p) (hq : LexSortPerm l r q) : p = q := by
  have perm : p.Perm q := by
    have h1 := hp.1; have h2 := hq.1
    unfold IsPermutation at h1 h2
    rw [hp.2.1] at h1; rw [hq.2.1] at h2
    exact h1.trans h2.symm
  let R : Nat → Nat → Prop := fun a b => l.getD a 0 < l.getD b 0 ∨
    (l.getD a 0 = l.getD b 0 ∧ (r.getD a 0 < r.getD b 0 ∨ (r.getD a 0 = r.getD b 0 ∧ a < b)))
  have sorted : ∀ s, LexSortPerm l r s → s.Pairwise R := by
    intro s hr
    rw [List.pairwise_iff_getElem]
    intro i j hi hj hij
    have ha := (isPerm_iff_perm.2 hr.1).lt _ (List.getElem_mem hi)
    have hb := (isPerm_iff_perm.2 hr.1).lt _ (List.getElem_mem hj)
    rw [hr.2.1] at ha hb
    have ha' : s[i] < r.length := by omega
    have hb' : s[j] < r.length := by omega
    have := hr.2.2 i j s[i] s[j] l[s[i]] l[s[j]] r[s[i]] r[s[j]] hij (by simp [hi]) (by simp [hj])
      (by simp [ha]) (by simp [hb]) (by simp [ha']) (by simp [hb'])
    simpa [R, List.getD_eq_getElem?_getD, ha, hb, ha', hb'] using this
  refine List.Perm.eq_of_pairwise (le := R) ?_ (sorted p hp) (sorted q hq) perm
  intro a b _ _ h1 h2
  simp only [R] at h1 h2
  omega

/-- `first_out` is determined by the tails. -/
theorem firstOut_le {n m : Nat} {f g : List Nat} {T : Nat → Nat} (hf0 : f.length = n + 1) (hgn : g.length = n + 1) (hfm : f.Pairwise (· ≤ ·)) (hgm : g.Pairwise (· ≤ ·))
    (hfl : rd f n = some m)
    (hf : ∀ i, i < m → ∃ b e, rd f (T i) = some b ∧ rd f (T i + 1) = some e ∧ b ≤ i ∧ i < e)
    (hg : ∀ i, i < m → ∃ b e, rd g (T i) = some b ∧ rd g (T i + 1) = some e ∧ b ≤ i ∧ i < e) {x a b : Nat} (ha : rd f x = some a) (hb : rd g x = some b) :
    a ≤ b := by
  have mono : ∀ {v : List Nat}, v.Pairwise (· ≤ ·) → ∀ {i j b e : Nat}, rd v i = some b → rd v j = some e → i ≤ j → b ≤ e := by
    intro v hv i j b e hi hj hij
    rcases Nat.lt_or_eq_of_le hij with hlt | rfl
    · obtain ⟨h1, rfl⟩ := rd_eq_some.1 hi
      obtain ⟨h2, rfl⟩ := rd_eq_some.1 hj
      exact List.pairwise_iff_getElem.1 hv i j h1 h2 hlt
    · rw [hi] at hj; injection hj with hj; omega
  by_contra hlt
  have hx := rd_some_lt ha
  have ham := mono hfm ha hfl (by omega)
  obtain ⟨b1, e1, h1, h2, h3, h4⟩ := hf b (by omega)
  obtain ⟨b2, e2, h5, h6, h7, h8⟩ := hg b (by omega)
  by_cases ht : T b < x
  · have := mono hgm h6 hb (by omega)
    omega
  · have := mono hfm ha h1 (by omega)
    omega

theorem firstOut_unique {n m : Nat} {f g : List Nat} {T : Nat → Nat} (hf0 : f.length = n + 1) (hgn : g.length = n + 1) (hfm : f.Pairwise (· ≤ ·)) (hgm : g.Pairwise (· ≤ ·))
    (hfl : rd f n = some m) (hgl : rd g n = some m)
    (hf : ∀ i, i < m → ∃ b e, rd f (T i) = some b ∧ rd f (T i + 1) = some e ∧ b ≤ i ∧ i < e)
    (hg : ∀ i, i < m → ∃ b e, rd g (T i) = some b ∧ rd g (T i + 1) = some e ∧ b ≤ i ∧ i < e) : f = g := by
  refine list_ext_rd (by omega) ?_
  intro x hx
  obtain ⟨a, ha⟩ := rd_isSome hx
  obtain ⟨b, hb⟩ := rd_isSome (v := g) (i := x) (by omega)
  have h1 := firstOut_le hf0 hgn hfm hgm hfl hf hg ha hb
  have h2 := firstOut_le hgn hf0 hgm hfm hgl hg hf hb ha
  rw [ha, hb, show a = b by omega]

end RK
namespace RK
open Spec

theorem zero_oneBased (arcs : List (Nat × Nat × Nat)) : zeroBased (oneBased arcs) = arcs := by
  unfold zeroBased oneBased
  rw [List.map_map]
  conv_rhs => rw [← List.map_id arcs]
  refine List.map_congr_left fun a _ => ?_
  simp

/-- Re-importing an exported graph. -/
theorem graphOf_export {n : Nat} {fo hd wt fo' hd' wt' : List Nat} {arcs : List (Nat × Nat × Nat)} (hg : IsGraphFile n fo hd wt)
    (hm2 : arcs.map (·.2.1) = hd) (hm3 : arcs.map (·.2.2) = wt)
    (htails : ∀ i, i < hd.length → ∃ t b e, rd (arcs.map (·.1)) i = some t ∧ t < n ∧ rd fo t = some b ∧ rd fo (t + 1) = some e ∧ b ≤ i ∧ i < e)
    (h : IsGraphOf n arcs fo' hd' wt') : fo' = fo ∧ (HeadsOrdered fo hd → hd' = hd ∧ wt' = wt) := by
  obtain ⟨p, hp, hl1, hl2, hl3, h0, hlast, hmono, hat⟩ := h
  have harcs : arcs.length = hd.length := by rw [← hm2]; simp
  have hpl : p.length = arcs.length := by simpa using hp.2.1
  have hTl : (arcs.map (·.1)).length = hd.length := by simpa using harcs
  have hTsorted : (arcs.map (·.1)).Pairwise (· ≤ ·) := by
    rw [List.pairwise_iff_getElem]
    intro i j hi hj hij
    obtain ⟨t, b, e, h1, _, h3, h4, h5, h6⟩ := htails i (by omega)
    obtain ⟨t', b', e', h1', _, h3', h4', h5', h6'⟩ := htails j (by omega)
    rw [rd_lt hi] at h1; rw [rd_lt hj] at h1'
    injection h1 with h1; injection h1' with h1'
    rw [h1, h1']
    by_contra hlt
    have := isGraphFile_mono hg h4' h3 (by omega)
    omega
  obtain ⟨T, eT, hTl', hTr⟩ := applyPermutation_spec (p := p) (v := arcs.map (·.1)) (isPerm_iff_perm.2 hp.1) (by simpa using hpl)
  have hT : T = arcs.map (·.1) := by
    have hs := perm_of_sortPerm hTl' (lex_sortPerm (by simp) hp) hTr
    have hperm := hs.1
    exact List.Perm.eq_of_pairwise (fun a b _ _ h1 h2 => Nat.le_antisymm h1 h2) hs.2 hTsorted hperm
  have hfo : fo' = fo := by
    refine firstOut_unique (n := n) (m := hd.length) (T := fun i => (arcs.map (·.1)).getD i 0) hl3 hg.length hmono hg.mono (by rw [← harcs]; exact hlast) hg.last ?_ ?_
    · intro i hi
      obtain ⟨a, ha⟩ := rd_isSome (v := p) (i := i) (by omega)
      have hal : a < arcs.length := by have := lt_of_rd_perm hp.1 ha; omega
      have h1 := hat i a arcs[a].1 arcs[a].2.1 arcs[a].2.2 ha (List.getElem?_eq_getElem hal)
      have h2 := hTr i a ha
      rw [hT] at h2
      obtain ⟨_, _, b, e, h3⟩ := h1
      have h4 : (arcs.map (·.1)).getD i 0 = arcs[a].1 := by
        rw [List.getD_eq_getElem?_getD]
        unfold rd at h2
        rw [h2]; simp [hal]
      rw [h4]
      exact ⟨b, e, h3⟩
    · intro i hi
      obtain ⟨t, b, e, h1, _, h3⟩ := htails i hi
      have h4 : (arcs.map (·.1)).getD i 0 = t := by
        rw [List.getD_eq_getElem?_getD]; unfold rd at h1; rw [h1]; rfl
      rw [h4]; exact ⟨b, e, h3⟩
  refine ⟨hfo, fun hord => ?_⟩
  have hid : LexSortPerm (arcs.map (·.1)) (arcs.map (·.2.1)) (List.range arcs.length) := by
    refine ⟨by unfold IsPermutation; simp, by simp, ?_⟩
    intro i j a b la lb ra rb hij ha hb hla hlb hra hrb
    obtain ⟨hai, rfl⟩ := List.getElem?_eq_some_iff.1 ha
    obtain ⟨hbi, rfl⟩ := List.getElem?_eq_some_iff.1 hb
    simp only [List.length_range] at hai hbi
    simp only [List.getElem_range] at *
    have hle : la ≤ lb := by
      obtain ⟨h1, rfl⟩ := List.getElem?_eq_some_iff.1 hla
      obtain ⟨h2, rfl⟩ := List.getElem?_eq_some_iff.1 hlb
      exact List.pairwise_iff_getElem.1 hTsorted i j h1 h2 hij
    rcases Nat.lt_or_eq_of_le hle with h | rfl
    · exact Or.inl h
    · refine Or.inr ⟨rfl, ?_⟩
      obtain ⟨t, b, e, h1, _, h3, h4, h5, h6⟩ := htails i (by omega)
      obtain ⟨t', b', e', h1', _, h3', h4', h5', h6'⟩ := htails j (by omega)
      unfold rd at h1 h1'
      rw [hla] at h1; rw [hlb] at h1'
      injection h1 with h1; injection h1' with h1'
      subst h1; subst h1'
      rw [h4] at h4'; injection h4' with h4'
      rw [hm2] at hra hrb
      have := hord i j la b e ra rb h3 h4 h5 hij (by omega) hra hrb
      omega
  have hpid := lexSortPerm_unique (by simp) hp hid
  have key : ∀ i, (hi : i < arcs.length) → rd hd' i = some arcs[i].2.1 ∧ rd wt' i = some arcs[i].2.2 := by
    intro i hi
    have := hat i i arcs[i].1 arcs[i].2.1 arcs[i].2.2 (by rw [hpid]; simp [hi]) (List.getElem?_eq_getElem hi)
    exact ⟨this.1, this.2.1⟩
  refine ⟨list_ext_rd (by omega) fun i hi => ?_, list_ext_rd (by rw [hl2, ← hm3]; simp) fun i hi => ?_⟩
  · have hi' : i < arcs.length := by omega
    rw [(key i hi').1]; subst hm2; simp [rd, hi']
  · have hi' : i < arcs.length := by omega
    rw [(key i hi').2]; subst hm3; simp [rd, hi']

end RK
