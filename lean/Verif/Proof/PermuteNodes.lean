import Verif.Model.PermuteNodes
import Verif.Spec.PermuteNodes
import Verif.Proof.Dimacs
import Verif.Proof.ChFinish
import Verif.Proof.ChCheck
namespace RK
open Spec

/-- The order of the arcs: by `a`, then by `b`. -/
def LexWeak (a b r : List Nat) : Prop :=
  ∀ i j x y la lb ra rb, i < j → rd r i = some x → rd r j = some y → rd a x = some la → rd a y = some lb →
    rd b x = some ra → rd b y = some rb → la < lb ∨ (la = lb ∧ ra ≤ rb)

theorem lex_inverse_unstable {stdSort : SortFn} (hs : StdSort stdSort) {n : Nat} {a b : List Nat} (hab : a.length = b.length)
    (ha : ∀ x ∈ a, x < n) (hb : ∀ x ∈ b, x < n) :
    ∃ p a1 q a2 r r0, computeInverseSortPermutationUsingKey stdSort b n (fun x => x) = some p ∧
      applyInversePermutation p a = some a1 ∧
      computeInverseStableSortPermutationUsingKey a1 n (fun x => x) = some q ∧
      applyInversePermutation q a1 = some a2 ∧ chainPermutation q p = some r ∧
      IsPermutation r ∧ AreInverse r0 r ∧ IsPermutation r0 ∧ r0.length = a.length ∧
      LexWeak a b r0 ∧ a2.length = a.length ∧ ∀ i k, rd r0 i = some k → rd a2 i = rd a k := by
  obtain ⟨p, ep, p0, hpinv, hpP, hp, -⟩ := computeInverseMaybeStable_spec (stdSort := stdSort) (v := b)
    (kc := n) (gk := fun x => x) hb false (Or.inr hs)
  simp only [List.map_id'] at hp
  have hpl0 := hp.2.1
  have hpl := hpinv.1
  have hpp := isPerm_iff_perm.2 hpP
  obtain ⟨a1, ea1, hl1, h1'⟩ := applyInversePermutation_spec (v := a) hpp (by omega)
  have h1 : ∀ i k, rd p0 i = some k → rd a1 i = rd a k :=
    fun i k h => h1' k i ((hpinv.2 i k).1 h)
  have ha1 := mem_of_apply ha (by omega) hl1 h1
  obtain ⟨q, q0, eq, hqP, hqinv, hq⟩ := inverse_stable_key_id ha1
  have hql0 := hq.2.1
  have hql := hqinv.1
  have hqq := isPerm_iff_perm.2 hqP
  obtain ⟨a2, ea2, hl2, h2'⟩ := applyInversePermutation_spec (v := a1) hqq (by omega)
  have h2 : ∀ i k, rd q0 i = some k → rd a2 i = rd a1 k :=
    fun i k h => h2' k i ((hqinv.2 i k).1 h)
  obtain ⟨r, er, hrl, hr⟩ := chainPermutation_spec hqq hpp (by omega)
  have hrp := chainPermutation_isPerm hqq hpp (by omega) er
  obtain ⟨r0, er0, hr0P, hr0inv⟩ := invert_areInverse (isPerm_iff_perm.1 hrp)
  have hr0l := hr0inv.1
  have hr0 : ∀ i k, rd q0 i = some k → rd r0 i = rd p0 k := by
    intro i k hik
    have h3 : rd q k = some i := (hqinv.2 i k).1 hik
    have hk := rd_some_lt h3
    obtain ⟨m, hm⟩ := rd_isSome (v := p0) (i := k) (by omega)
    have h4 : rd p m = some k := (hpinv.2 k m).1 hm
    have h5 := hr m k h4
    rw [h3] at h5
    rw [hm]
    exact (hr0inv.2 m i).1 h5
  refine ⟨p, a1, q, a2, r, r0, ep, ea1, eq, ea2, er, isPerm_iff_perm.1 hrp,
    areInverse_symm hr0inv, hr0P, by omega, ?_, by omega, ?_⟩
  · intro i j x y la lb ra rb hij hx hy hla hlb hra hrb
    have hi := rd_some_lt (v := r0) hx
    have hj := rd_some_lt (v := r0) hy
    obtain ⟨qi, hqi⟩ := rd_isSome (v := q0) (i := i) (by omega)
    obtain ⟨qj, hqj⟩ := rd_isSome (v := q0) (i := j) (by omega)
    have hpx : rd p0 qi = some x := (hr0 i qi hqi).symm.trans hx
    have hpy : rd p0 qj = some y := (hr0 j qj hqj).symm.trans hy
    have hax : rd a1 qi = some la := (h1 qi x hpx).trans hla
    have hay : rd a1 qj = some lb := (h1 qj y hpy).trans hlb
    rcases hq.2.2 i j qi qj la lb hij hqi hqj hax hay with h | ⟨h, h'⟩
    · exact Or.inl h
    · exact Or.inr ⟨h, hp.2.2 qi qj x y ra rb h' hpx hpy hra hrb⟩
  · intro i k hik
    obtain ⟨j, hj⟩ := rd_isSome (v := q0) (i := i) (by have := rd_some_lt hik; omega)
    rw [h2 i j hj]
    apply h1
    rw [← hr0 i j hj, hik]

theorem mapM_apply {r : List Nat} (hr : IsPerm r) : ∀ {ws : List (List Nat)}, (∀ w ∈ ws, w.length = r.length) →
    ∃ ws', ws.mapM (applyInversePermutation r) = some ws' ∧ ws'.length = ws.length ∧
      ∀ (k : Nat) (w w' : List Nat), ws[k]? = some w → ws'[k]? = some w' →
        w'.length = w.length ∧ ∀ a i, rd r a = some i → rd w' i = rd w a
  | [], _ => ⟨[], rfl, rfl, by simp⟩
  | w :: ws, h => by
    obtain ⟨w1, e1, hl1, h1⟩ := applyInversePermutation_spec (v := w) hr (h w (by simp)).symm
    obtain ⟨ws', e2, hl2, h2⟩ := mapM_apply hr (ws := ws) (fun w hw => h w (by simp [hw]))
    refine ⟨w1 :: ws', ?_, by simp [hl2], ?_⟩
    · rw [List.mapM_cons, e1, e2]; rfl
    · intro k w w' hk hk'
      cases k with
      | zero =>
        simp only [List.getElem?_cons_zero, Option.some.injEq] at hk hk'
        subst hk; subst hk'
        exact ⟨hl1, h1⟩
      | succ k =>
        simp only [List.getElem?_cons_succ] at hk hk'
        exact h2 k w w' hk hk'

theorem permuteNodesOf_spec {stdSort : SortFn} (hs : StdSort stdSort) {n : Nat} {perm fo hd : List Nat} {ws : List (List Nat)}
    (hg : IsCSR n fo hd) (hperm : IsPermutation perm) (hpn : perm.length = n) (hw : ∀ w ∈ ws, w.length = hd.length) :
    ∃ fo' hd' ws' r0, permuteNodesOf stdSort n perm fo hd ws = some (fo', hd', ws') ∧ IsCSR n fo' hd' ∧ HeadsOrdered fo' hd' ∧
      IsRenumbering perm r0 fo hd ws fo' hd' ws' := by
  obtain ⟨hh0, hmono, hgl, hhn⟩ := (csr_iff hg.length).1 hg
  have hpp := isPerm_iff_perm.2 hperm
  obtain ⟨T0, last, eT, hlast, hT0l, hT0⟩ := invertInverseVector_spec (s := fo) hg.first hmono
  have hlast' : last = hd.length := by
    have h1 := hg.last
    have : fo.length - 1 = n := by have := hg.length; omega
    rw [this] at hlast
    exact Option.some.inj (hlast.symm.trans h1)
  subst hlast'
  have hT0n : ∀ x ∈ T0, x < n := by
    intro x hx
    obtain ⟨j, hj, rfl⟩ := List.getElem_of_mem hx
    obtain ⟨i, b, e, hi, hb, he, h1, h2⟩ := exists_range hg.first hlast (j := j) (by omega)
    have := hT0 i b e j hb he h1 h2
    rw [rd_lt hj] at this
    have := Option.some.inj this
    have := hg.length
    omega
  have hfnlt : ∀ x, x < n → fn perm x < n := by
    intro x hx
    have := lt_of_rd_perm hperm (rd_fn (v := perm) (x := x) (by omega))
    omega
  have eT1 := mapElements_spec (v := T0) hpp (by rw [hpn]; exact hT0n)
  have eH1 := mapElements_spec (v := hd) hpp (by rw [hpn]; exact hhn)
  generalize hT1 : T0.map (fn perm) = T1 at eT1
  generalize hH1 : hd.map (fn perm) = H1 at eH1
  have hT1l : T1.length = hd.length := by rw [← hT1]; simpa using hT0l
  have hH1l : H1.length = hd.length := by rw [← hH1]; simp
  have hT1n : ∀ x ∈ T1, x < n := by
    rw [← hT1]; intro x hx; obtain ⟨y, hy, rfl⟩ := List.mem_map.1 hx; exact hfnlt y (hT0n y hy)
  have hH1n : ∀ x ∈ H1, x < n := by
    rw [← hH1]; intro x hx; obtain ⟨y, hy, rfl⟩ := List.mem_map.1 hx; exact hfnlt y (hhn y hy)
  obtain ⟨p, a1, q, T, r, r0, e1, e2, e3, e4, e5, hr, hinv, hr0P, hr0l, hlex, hTl, hTr⟩ :=
    lex_inverse_unstable hs (a := T1) (b := H1) (by omega) hT1n hH1n
  have hrl : r.length = hd.length := by have := hinv.1; omega
  have hrp := isPerm_iff_perm.2 hr
  obtain ⟨H, eH, hHl, hHr'⟩ := applyInversePermutation_spec (v := H1) hrp (by omega)
  have hHr : ∀ i k, rd r0 i = some k → rd H i = rd H1 k := fun i k h => hHr' k i ((hinv.2 i k).1 h)
  obtain ⟨ws', eW, hWl, hW⟩ := mapM_apply hrp (ws := ws) (fun w hh => by rw [hw w hh, hrl])
  have hsort : T.Pairwise (· ≤ ·) := by
    rw [List.pairwise_iff_getElem]
    intro i j hi hj hij
    obtain ⟨x, hx⟩ := rd_isSome (v := r0) (i := i) (by omega)
    obtain ⟨y, hy⟩ := rd_isSome (v := r0) (i := j) (by omega)
    have hxl := lt_of_rd_perm hr0P hx
    have hyl := lt_of_rd_perm hr0P hy
    have hx1 := hTr i x hx
    have hy1 := hTr j y hy
    rw [rd_lt hi] at hx1
    rw [rd_lt hj] at hy1
    obtain ⟨ra, hra⟩ := rd_isSome (v := H1) (i := x) (by omega)
    obtain ⟨rb, hrb⟩ := rd_isSome (v := H1) (i := y) (by omega)
    rcases hlex i j x y _ _ ra rb hij hx hy hx1.symm hy1.symm hra hrb with h | h
    · omega
    · omega
  have hTn : ∀ x ∈ T, x < n := mem_of_apply hT1n (by omega) hTl hTr
  obtain ⟨fo', ef, hfl, hf⟩ := invertVector_spec hsort hTn
  -- the position of an arc in the new graph
  have hout : ∀ i t, rd T i = some t → OutArc fo' t i := by
    intro i t hit
    have ht : t < n := hTn t (List.mem_of_getElem? hit)
    refine ⟨cLt T t, cLt T (t + 1), hf t (by omega), hf (t + 1) (by omega), ?_, ?_⟩
    · by_contra hc
      have := (sorted_cLt (k := t) hsort hit).2 (by omega)
      omega
    · exact (sorted_cLt (k := t + 1) hsort hit).1 (by omega)
  have hout' : ∀ i t b e, fo'[t]? = some b → fo'[t + 1]? = some e → b ≤ i → i < e → rd T i = some t := by
    intro i t b e hb he h1 h2
    have htn : t + 1 < fo'.length := (List.getElem?_eq_some_iff.1 he).1
    have hb' : b = cLt T t := Option.some.inj (hb.symm.trans (hf t (by omega)))
    have he' : e = cLt T (t + 1) := Option.some.inj (he.symm.trans (hf (t + 1) (by omega)))
    have hle := cLt_mono T (a := t + 1) (b := n) (by omega)
    rw [cLt_all hTn] at hle
    obtain ⟨x, hx⟩ := rd_isSome (v := T) (i := i) (by omega)
    have h3 := (sorted_cLt (k := t) hsort hx)
    have h4 := (sorted_cLt (k := t + 1) hsort hx)
    have : x = t := by
      have := h4.2 (by omega)
      have : ¬ x < t := fun h => by have := h3.1 h; omega
      omega
    rw [hx, this]
  refine ⟨fo', H, ws', r0, ?_, ?_, ?_, ?_⟩
  · simp only [permuteNodesOf, eT, eT1, eH1, e1, e2, e3, e4, e5, eH, eW, ef, Option.bind_eq_bind, Option.bind_some]
  · refine ⟨hfl, ?_, ?_, ?_, ?_⟩
    · intro x b e hb he
      have htn : x + 1 < fo'.length := (List.getElem?_eq_some_iff.1 he).1
      have hb' : b = cLt T x := Option.some.inj (hb.symm.trans (hf x (by omega)))
      have he' : e = cLt T (x + 1) := Option.some.inj (he.symm.trans (hf (x + 1) (by omega)))
      rw [hb', he']
      exact cLt_mono _ (by omega)
    · have := hf 0 (by omega)
      rw [show cLt T 0 = 0 by simp [cLt]] at this
      exact this
    · have := hf n (by omega)
      rw [cLt_all hTn, show T.length = H.length by omega] at this
      exact this
    · intro a y hy
      exact mem_of_apply hH1n (by omega) hHl hHr y (List.mem_of_getElem? hy)
  · intro i j x b e h h' hb he hbi hij hje hh hh'
    have hti := hout' i x b e hb he hbi (by omega)
    have htj := hout' j x b e hb he (by omega) hje
    obtain ⟨k, hk⟩ := rd_isSome (v := r0) (i := i) (by have := rd_some_lt hti; omega)
    obtain ⟨k', hk'⟩ := rd_isSome (v := r0) (i := j) (by have := rd_some_lt htj; omega)
    rcases hlex i j k k' x x h h' hij hk hk' ((hTr i k hk).symm.trans hti) ((hTr j k' hk').symm.trans htj)
      ((hHr i k hk).symm.trans hh) ((hHr j k' hk').symm.trans hh') with h1 | h1
    · omega
    · exact h1.2
  · refine ⟨hr0P, by omega, by omega, ?_, hWl, ?_⟩
    · intro i a x y x' y' hia hxa hya hx' hy'
      obtain ⟨b, e, hb, he, h1, h2⟩ := hxa
      have hta := hT0 x b e a hb he h1 h2
      have hT1a : rd T1 a = some x' := by
        rw [← hT1]; unfold rd; rw [List.getElem?_map, show T0[a]? = some x from hta]
        exact (rd_fn (v := perm) (List.getElem?_eq_some_iff.1 hx').1).symm.trans hx'
      have hH1a : rd H1 a = some y' := by
        rw [← hH1]; unfold rd; rw [List.getElem?_map, hya]
        exact (rd_fn (v := perm) (List.getElem?_eq_some_iff.1 hy').1).symm.trans hy'
      exact ⟨hout i x' ((hTr i a hia).trans hT1a), (hHr i a hia).trans hH1a⟩
    · intro k w w' hk hk'
      obtain ⟨h1, h2⟩ := hW k w w' hk hk'
      exact ⟨h1, fun i a hia => h2 a i ((hinv.2 i a).1 hia)⟩

theorem permuteNodes_spec {stdSort : SortFn} (hs : StdSort stdSort) {n : Nat} {perm fo hd : List Nat} {ws : List (List Nat)}
    (hg : IsCSR n fo hd) (hne : hd ≠ []) (hperm : IsPermutation perm) (hpn : perm.length = n) (hw : ∀ w ∈ ws, w.length = hd.length) :
    ∃ fo' hd' ws' r0, permuteNodes stdSort perm fo hd ws = .ok (fo', hd', ws') ∧ IsCSR n fo' hd' ∧ HeadsOrdered fo' hd' ∧
      IsRenumbering perm r0 fo hd ws fo' hd' ws' := by
  obtain ⟨fo', hd', ws', r0, e, h⟩ := permuteNodesOf_spec hs hg hperm hpn hw
  obtain ⟨hh0, hmono, hgl, hhn⟩ := (csr_iff hg.length).1 hg
  have hn : fo.length - 1 = n := by have := hg.length; omega
  refine ⟨fo', hd', ws', r0, ?_, h⟩
  have h1 : (hd.all fun x => decide (x < n)) = true := by simpa using hhn
  have h2 : (ws.all fun w => decide (w.length = hd.length)) = true := by simpa using hw
  simp [permuteNodes, hh0, hgl, hn, h1, h2, hne, e, Res.ofOption, Res.require]

/-! ### Distances -/

theorem renumbering_walk {n : Nat} {perm r0 fo hd fo' hd' : List Nat} {ws ws' : List (List Nat)}
    (hg : IsCSR n fo hd) (hpn : perm.length = n) (hr : IsRenumbering perm r0 fo hd ws fo' hd' ws')
    {k : Nat} {w w' : List Nat} (hk : ws[k]? = some w) (hk' : ws'[k]? = some w') {s t l : Nat} {p : List Nat}
    (h : Walk (csrArcs fo hd w) s p t l) : ∀ {s' t' : Nat}, perm[s]? = some s' → perm[t]? = some t' →
      ∃ p', Walk (csrArcs fo' hd' w') s' p' t' l := by
  induction h with
  | nil s => intro s' t' h1 h2; obtain rfl := Option.some.inj (h1.symm.trans h2); exact ⟨[], .nil _⟩
  | @cons a s m t w0 l p ha _ ih =>
    intro s' t' h1 h2
    obtain ⟨hout, hhd, hwt⟩ := ha
    obtain ⟨m', hm'⟩ := rd_isSome (v := perm) (i := m) (by have := hg.head_lt a m hhd; omega)
    obtain ⟨p', hp'⟩ := ih hm' h2
    have hal : a < r0.length := by rw [hr.arcCount]; exact (List.getElem?_eq_some_iff.1 hhd).1
    obtain ⟨i, -, hi⟩ := (isPerm_iff_perm.2 hr.arcs).surj hal
    obtain ⟨h3, h4⟩ := hr.same i a s m s' m' hi hout hhd h1 hm'
    have h5 := (hr.weight k w w' hk hk').2 i a hi
    exact ⟨i :: p', .cons ⟨h3, h4, h5.trans hwt⟩ hp'⟩

theorem outArc_unique {n : Nat} {fo hd : List Nat} (hg : IsCSR n fo hd) {x y a : Nat} (hx : OutArc fo x a) (hy : OutArc fo y a) : x = y := by
  obtain ⟨hh0, hmono, hgl, hhn⟩ := (csr_iff hg.length).1 hg
  obtain ⟨T0, last, eT, hlast, hT0l, hT0⟩ := invertInverseVector_spec (s := fo) hg.first hmono
  obtain ⟨b, e, hb, he, h1, h2⟩ := hx
  obtain ⟨b', e', hb', he', h1', h2'⟩ := hy
  exact Option.some.inj ((hT0 x b e a hb he h1 h2).symm.trans (hT0 y b' e' a hb' he' h1' h2'))

theorem renumbering_walk_back {n : Nat} {perm r0 fo hd fo' hd' : List Nat} {ws ws' : List (List Nat)}
    (hg : IsCSR n fo hd) (hg' : IsCSR n fo' hd') (hperm : IsPermutation perm) (hpn : perm.length = n)
    (hr : IsRenumbering perm r0 fo hd ws fo' hd' ws')
    {k : Nat} {w w' : List Nat} (hk : ws[k]? = some w) (hk' : ws'[k]? = some w') {s' t' l : Nat} {p : List Nat}
    (h : Walk (csrArcs fo' hd' w') s' p t' l) : ∀ {s t : Nat}, perm[s]? = some s' → perm[t]? = some t' →
      ∃ p', Walk (csrArcs fo hd w) s p' t l := by
  have hpp := isPerm_iff_perm.2 hperm
  induction h with
  | nil s' => intro s t h1 h2; obtain rfl := hpp.inj h1 h2; exact ⟨[], .nil _⟩
  | @cons i s' m' t' w0 l p ha _ ih =>
    intro s t h1 h2
    obtain ⟨hout, hhd, hwt⟩ := ha
    obtain ⟨a, hia⟩ := rd_isSome (v := r0) (i := i) (by
      rw [hr.arcCount, ← hr.arcCount']; exact (List.getElem?_eq_some_iff.1 hhd).1)
    have hal : a < hd.length := by have := lt_of_rd_perm hr.arcs hia; rw [hr.arcCount] at this; exact this
    have hlast : rd fo (fo.length - 1) = some hd.length := by
      rw [show fo.length - 1 = n by have := hg.length; omega]; exact hg.last
    obtain ⟨x, b, e, hxl, hb, he, hb1, hb2⟩ := exists_range hg.first hlast hal
    obtain ⟨y, hy⟩ := rd_isSome hal
    have hx : OutArc fo x a := ⟨b, e, hb, he, hb1, hb2⟩
    obtain ⟨x', hx'⟩ := rd_isSome (v := perm) (i := x) (by have := hg.length; omega)
    obtain ⟨y', hy'⟩ := rd_isSome (v := perm) (i := y) (by have := hg.head_lt a y hy; omega)
    obtain ⟨h3, h4⟩ := hr.same i a x y x' y' hia hx hy hx' hy'
    obtain rfl := outArc_unique hg' h3 hout
    obtain rfl := Option.some.inj (h4.symm.trans hhd)
    obtain rfl := hpp.inj h1 hx'
    obtain ⟨p', hp'⟩ := ih hy' h2
    have h5 := (hr.weight k w w' hk hk').2 i a hia
    exact ⟨a :: p', .cons ⟨hx, hy, h5.symm.trans hwt⟩ hp'⟩

theorem renumbering_dist {n : Nat} {perm r0 fo hd fo' hd' : List Nat} {ws ws' : List (List Nat)}
    (hg : IsCSR n fo hd) (hg' : IsCSR n fo' hd') (hperm : IsPermutation perm) (hpn : perm.length = n)
    (hr : IsRenumbering perm r0 fo hd ws fo' hd' ws')
    {k : Nat} {w w' : List Nat} (hk : ws[k]? = some w) (hk' : ws'[k]? = some w') {s t s' t' : Nat}
    (hs : perm[s]? = some s') (ht : perm[t]? = some t') (d : Nat) :
    IsDist (csrArcs fo hd w) s t d ↔ IsDist (csrArcs fo' hd' w') s' t' d := by
  constructor
  · rintro ⟨⟨p, hp⟩, hmin⟩
    refine ⟨renumbering_walk hg hpn hr hk hk' hp hs ht, ?_⟩
    intro p l h
    obtain ⟨p', h'⟩ := renumbering_walk_back hg hg' hperm hpn hr hk hk' h hs ht
    exact hmin p' l h'
  · rintro ⟨⟨p, hp⟩, hmin⟩
    refine ⟨renumbering_walk_back hg hg' hperm hpn hr hk hk' hp hs ht, ?_⟩
    intro p l h
    obtain ⟨p', h'⟩ := renumbering_walk hg hpn hr hk hk' h hs ht
    exact hmin p' l h'

end RK
