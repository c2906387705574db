import Verif.Proof.CchFilter
/-! Helper lemmas: the mapping from CCH arcs back to input arcs. -/
namespace RK
open Spec BitVector

theorem rk_inj {f : Nat → Bool} {a b : Nat} (ha : f a = true) (hb : f b = true) (h : rk f a = rk f b) : a = b :=
  Sel.unique (f := f) ⟨ha, rfl⟩ ⟨hb, h.symm⟩

theorem rk_lt_count {B : List Bool} {a : Nat} (h : at' B a = true) : rk (at' B) a < B.count true := by
  rw [← countP_at B B.length (Nat.le_refl _)]
  have := rk_lt_of_set h (at_eq_true_lt h)
  unfold rk at this ⊢
  exact this

/-- The input arcs of one direction, listed per CCH arc: the first one separately, the others in a range. `S i a`
tells that input arc `i` is mapped to CCH arc `a`. -/
structure DirOk (S : Nat → Nat → Prop) (HB EB : List Bool) (first fo extra : List Nat) : Prop where
  first_ : ∀ a, at' HB a = true → ∃ v, rd first (rk (at' HB) a) = some v ∧
    ((v = invalidId ∧ ∀ i, ¬ S i a) ∨ (v ≠ invalidId ∧ S v a))
  none_ : ∀ a, at' HB a = false → ∀ i, ¬ S i a
  range : ∀ a, at' EB a = true → ∃ lo hi, rd fo (rk (at' EB) a) = some lo ∧ rd fo (rk (at' EB) a + 1) = some hi ∧
    lo ≤ hi ∧ hi ≤ extra.length ∧ ∀ j, lo ≤ j → j < hi → ∃ i, rd extra j = some i ∧ S i a
  all : ∀ a i, S i a → rd first (rk (at' HB) a) = some i ∨
    (at' EB a = true ∧ ∃ lo hi j, rd fo (rk (at' EB) a) = some lo ∧ rd fo (rk (at' EB) a + 1) = some hi ∧
      lo ≤ j ∧ j < hi ∧ rd extra j = some i)

/-- One direction while the first `k` input arcs have been processed. -/
structure DirInv (S : Nat → Nat → Prop) (HB : List Bool) (k : Nat) (E : List Bool) (s : ExtraState) : Prop where
  len : s.first.length = HB.count true
  len2 : s.arcs.length = s.extra.length
  first_ : ∀ a, at' HB a = true → ∃ v, rd s.first (rk (at' HB) a) = some v ∧
    ((v = invalidId ∧ ∀ i, i < k → ¬ S i a) ∨ (v ≠ invalidId ∧ S v a))
  ext : ∀ j a i, rd s.arcs j = some a → rd s.extra j = some i → S i a ∧ at' E a = true
  all : ∀ a i, i < k → S i a → rd s.first (rk (at' HB) a) = some i ∨
    ∃ j, rd s.arcs j = some a ∧ rd s.extra j = some i

theorem DirInv.skip {S : Nat → Nat → Prop} {HB E E' : List Bool} {k : Nat} {s : ExtraState} (h : DirInv S HB k E s)
    (hS : ∀ a, ¬ S k a) (hE : ∀ a, at' E a = true → at' E' a = true) : DirInv S HB (k + 1) E' s := by
  refine ⟨h.len, h.len2, ?_, ?_, ?_⟩
  · intro a ha
    obtain ⟨v, h1, h2⟩ := h.first_ a ha
    refine ⟨v, h1, ?_⟩
    rcases h2 with ⟨h2, h3⟩ | h2
    · refine Or.inl ⟨h2, fun i hi => ?_⟩
      by_cases hik : i = k
      · subst hik; exact hS a
      · exact h3 i (by omega)
    · exact Or.inr h2
  · intro j a i h1 h2
    obtain ⟨h3, h4⟩ := h.ext j a i h1 h2
    exact ⟨h3, hE a h4⟩
  · intro a i hi hs
    by_cases hik : i = k
    · subst hik; exact absurd hs (hS a)
    · exact h.all a i (by omega) hs

theorem DirInv.add {S : Nat → Nat → Prop} {HB E : List Bool} {k : Nat} {s : ExtraState} {has : BitVector}
    (h : DirInv S HB k E s) (hr : has.Rep E) {a : Nat} (hS : ∀ a', S k a' ↔ a' = a) (hH : at' HB a = true)
    (hk : k < invalidId) (hEl : a < E.length) :
    ∃ has' s' E', addInputArc a (rk (at' HB) a) k has s = some (has', s') ∧ has'.Rep E' ∧ E'.length = E.length ∧
      (∀ a, at' E a = true → at' E' a = true) ∧ DirInv S HB (k + 1) E' s' := by
  have hl := rk_lt_count hH
  obtain ⟨v, hv, hcase⟩ := h.first_ a hH
  unfold addInputArc
  simp only [hv, Option.bind_eq_bind, Option.bind_some]
  rcases hcase with ⟨hinv, hno⟩ | ⟨hne, hSv⟩
  · rw [if_pos hinv, wr_lt (by rw [h.len]; exact hl)]
    refine ⟨has, _, E, rfl, hr, rfl, fun _ h => h, ?_⟩
    have hrd : ∀ a', at' HB a' = true → rd (s.first.set (rk (at' HB) a) k) (rk (at' HB) a') =
        if a' = a then some k else rd s.first (rk (at' HB) a') := by
      intro a' ha'
      by_cases haa : a' = a
      · subst haa
        rw [if_pos rfl, rd_set (by rw [h.len]; exact hl), if_pos rfl]
      · rw [if_neg haa, rd_set (by rw [h.len]; exact hl), if_neg]
        intro hc
        exact haa (rk_inj ha' hH hc)
    refine ⟨by simpa using h.len, h.len2, ?_, h.ext, ?_⟩
    · intro a' ha'
      show ∃ v, rd (s.first.set _ k) _ = some v ∧ _
      rw [hrd a' ha']
      by_cases haa : a' = a
      · subst haa
        exact ⟨k, by rw [if_pos rfl], Or.inr ⟨by omega, (hS a').2 rfl⟩⟩
      · rw [if_neg haa]
        obtain ⟨v', h1, h2⟩ := h.first_ a' ha'
        refine ⟨v', h1, ?_⟩
        rcases h2 with ⟨h2, h3⟩ | h2
        · refine Or.inl ⟨h2, fun i hi => ?_⟩
          by_cases hik : i = k
          · subst hik; exact fun hc => haa ((hS a').1 hc)
          · exact h3 i (by omega)
        · exact Or.inr h2
    · intro a' i hi hs
      show rd (s.first.set _ k) _ = some i ∨ _
      by_cases haa : a' = a
      · subst haa
        by_cases hik : i = k
        · subst hik; left; rw [hrd a' hH, if_pos rfl]
        · exact absurd hs (hno i (by omega))
      · have hik : i ≠ k := by
          intro hc; subst hc; exact haa ((hS a').1 hs)
        rcases h.all a' i (by omega) hs with h1 | h1
        · left
          rw [rd_set (by rw [h.len]; exact hl), if_neg]
          · exact h1
          · intro hc
            rw [hc, hv] at h1
            cases h1
            rcases h.first_ a hH with ⟨v', h1, h2⟩
            have : v' = invalidId := by rw [hv] at h1; cases h1; exact hinv
            omega
        · exact Or.inr h1
  · rw [if_neg hne]
    obtain ⟨has', e, hr'⟩ := hr.set (x := a) hEl
    have hE' : ∀ a', at' E a' = true → at' (E.set a true) a' = true := by
      intro a' h'; rw [at_set hEl]; split
      · rfl
      · exact h'
    refine ⟨has', { s with arcs := s.arcs ++ [a], extra := s.extra ++ [k] }, _, by simp [e], hr', by simp, hE', ?_⟩
    refine ⟨h.len, by simpa using h.len2, ?_, ?_, ?_⟩
    · intro a' ha'
      show ∃ v, rd s.first _ = some v ∧ _
      by_cases haa : a' = a
      · subst haa; exact ⟨v, hv, Or.inr ⟨hne, hSv⟩⟩
      · obtain ⟨v', h1, h2⟩ := h.first_ a' ha'
        refine ⟨v', h1, ?_⟩
        rcases h2 with ⟨h2, h3⟩ | h2
        · refine Or.inl ⟨h2, fun i hi => ?_⟩
          by_cases hik : i = k
          · subst hik; exact fun hc => haa ((hS a').1 hc)
          · exact h3 i (by omega)
        · exact Or.inr h2
    · intro j a' i h1 h2
      change rd (s.arcs ++ [a]) j = some a' at h1
      change rd (s.extra ++ [k]) j = some i at h2
      rcases Nat.lt_or_ge j s.arcs.length with hj | hj
      · simp only [rd] at h1 h2
        rw [List.getElem?_append_left hj] at h1
        rw [List.getElem?_append_left (by rw [← h.len2]; exact hj)] at h2
        obtain ⟨h3, h4⟩ := h.ext j a' i h1 h2
        exact ⟨h3, hE' a' h4⟩
      · have hj' : j = s.arcs.length := by have := rd_some_lt h1; simp at this; omega
        have e1 : a' = a := by
          rw [hj'] at h1; simp [rd] at h1; exact h1.symm
        have e2 : i = k := by
          rw [hj', h.len2] at h2; simp [rd] at h2; exact h2.symm
        subst e1; subst e2
        exact ⟨(hS a').2 rfl, by rw [at_set hEl, if_pos rfl]⟩
    · intro a' i hi hs
      show rd s.first _ = some i ∨ ∃ j, rd (s.arcs ++ [a]) j = some a' ∧ rd (s.extra ++ [k]) j = some i
      by_cases hik : i = k
      · subst hik
        have := (hS a').1 hs
        subst this
        exact Or.inr ⟨s.arcs.length, by simp [rd], by rw [h.len2]; simp [rd]⟩
      · rcases h.all a' i (by omega) hs with h1 | ⟨j, h1, h2⟩
        · exact Or.inl h1
        · refine Or.inr ⟨j, ?_, ?_⟩
          · simp only [rd]; rw [List.getElem?_append_left (rd_some_lt h1)]; exact h1
          · simp only [rd]; rw [List.getElem?_append_left (rd_some_lt h2)]; exact h2

theorem sortExtra_spec {S : Nat → Nat → Prop} {HB E : List Bool} {k : Nat} {s : ExtraState} {m : LocalIDMapper}
    (h : DirInv S HB k E s) (hm : m.Ok E) (hk : ∀ i a, S i a → i < k) (hH : ∀ a, at' HB a = false → ∀ i, ¬ S i a) :
    ∃ fo extra, sortExtra m s = some (fo, extra) ∧ DirOk S HB E s.first fo extra := by
  have hin : ∀ j a, rd s.arcs j = some a → at' E a = true := by
    intro j a hj
    have h2 := h.len2
    obtain ⟨i, hi⟩ := rd_isSome (v := s.extra) (i := j) (by have := rd_some_lt hj; omega)
    exact (h.ext j a i hj hi).2
  obtain ⟨keys, ek, lk, hkeys, hmem⟩ := mapM_spec (f := m.toLocal) (l := s.arcs) (by
    intro x hx
    obtain ⟨j, hj⟩ := mem_iff_rd.1 hx
    exact ⟨_, hm.toLocal (hin j x hj)⟩)
  have hkeys' : ∀ j a, rd s.arcs j = some a → rd keys j = some (rk (at' E) a) := by
    intro j a hj
    rw [hkeys j a hj, hm.toLocal (hin j a hj)]
  have hlt : ∀ x ∈ keys, x < m.localIdCount := by
    intro x hx
    obtain ⟨a, ha, e⟩ := (hmem x).1 hx
    obtain ⟨j, hj⟩ := mem_iff_rd.1 ha
    rw [hm.toLocal (hin j a hj)] at e
    cases e
    rw [hm.localIdCount]
    exact rk_lt_count (hin j a hj)
  obtain ⟨q, p, eq, hq, hpq, hsort⟩ := inverse_stable_key_id hlt
  have hqq := isPerm_iff_perm.2 hq
  have hpp := isPerm_iff_perm.2 hsort.1
  have hpl : p.length = keys.length := hsort.2.1
  have hql : q.length = keys.length := by rw [← hpq.1]; exact hpl
  have hl2 := h.len2
  obtain ⟨sorted, es, ls, hs'⟩ := applyInversePermutation_spec (v := keys) hqq hql
  obtain ⟨extra, ee, le, he'⟩ := applyInversePermutation_spec (v := s.extra) hqq (by omega)
  have hs : ∀ i k, rd p i = some k → rd sorted i = rd keys k := fun i k hik => hs' k i ((hpq.2 i k).1 hik)
  have he : ∀ i k, rd p i = some k → rd extra i = rd s.extra k := fun i k hik => he' k i ((hpq.2 i k).1 hik)
  have hpw : sorted.Pairwise (· ≤ ·) := by
    rw [List.pairwise_iff_getElem]
    intro i j hi hj hij
    obtain ⟨a, ha⟩ := rd_isSome (v := p) (i := i) (by omega)
    obtain ⟨b, hb⟩ := rd_isSome (v := p) (i := j) (by omega)
    have h1 := (hs i a ha).symm.trans (rd_lt hi)
    have h2 := (hs j b hb).symm.trans (rd_lt hj)
    rcases hsort.2.2 i j a b _ _ hij ha hb h1 h2 with h | ⟨h, _⟩ <;> omega
  have hslt : ∀ x ∈ sorted, x < m.localIdCount := mem_of_apply hlt hpl ls hs
  obtain ⟨fo, ef, lf, hfo⟩ := invertVector_spec hpw hslt
  refine ⟨fo, extra, ?_, ?_⟩
  · unfold sortExtra
    simp only [ek, Option.bind_eq_bind, Option.bind_some, eq, es, ef, ee]
  · have hrange : ∀ a, at' E a = true → rd fo (rk (at' E) a) = some (cLt sorted (rk (at' E) a)) ∧
        rd fo (rk (at' E) a + 1) = some (cLt sorted (rk (at' E) a + 1)) := by
      intro a ha
      have := rk_lt_count ha
      rw [← hm.localIdCount] at this
      exact ⟨hfo _ (by omega), hfo _ (by omega)⟩
    refine ⟨?_, hH, ?_, ?_⟩
    · intro a ha
      obtain ⟨v, h1, h2⟩ := h.first_ a ha
      refine ⟨v, h1, ?_⟩
      rcases h2 with ⟨h2, h3⟩ | h2
      · exact Or.inl ⟨h2, fun i hi => h3 i (hk i a hi) hi⟩
      · exact Or.inr h2
    · intro a ha
      obtain ⟨f1, f2⟩ := hrange a ha
      refine ⟨_, _, f1, f2, cLt_mono (v := sorted) (Nat.le_succ _), ?_, ?_⟩
      · have := cLt_le_length sorted (rk (at' E) a + 1); omega
      · intro j hj1 hj2
        have hsj := (cLt_range hpw).2 ⟨hj1, hj2⟩
        obtain ⟨b, hb⟩ := rd_isSome (v := p) (i := j) (by have := rd_some_lt hsj; omega)
        have hkb := (hs j b hb).symm.trans hsj
        obtain ⟨a', ha'⟩ := rd_isSome (v := s.arcs) (i := b) (by have := rd_some_lt hkb; omega)
        obtain ⟨i, hi⟩ := rd_isSome (v := s.extra) (i := b) (by have := rd_some_lt hkb; omega)
        have := rd_congr_some (hkeys' b a' ha') hkb
        have := rk_inj (hin b a' ha') ha this
        subst this
        exact ⟨i, by rw [he j b hb]; exact hi, (h.ext b a' i ha' hi).1⟩
    · intro a i hS
      rcases h.all a i (hk i a hS) hS with h1 | ⟨b, h1, h2⟩
      · exact Or.inl h1
      · right
        have hE := (h.ext b a i h1 h2).2
        obtain ⟨f1, f2⟩ := hrange a hE
        obtain ⟨j, _, hj⟩ := hpp.surj (x := b) (by have := rd_some_lt h1; omega)
        have hsj : rd sorted j = some (rk (at' E) a) := by rw [hs j b hj]; exact hkeys' b a h1
        obtain ⟨g1, g2⟩ := (cLt_range hpw).1 hsj
        exact ⟨hE, _, _, j, f1, f2, g1, g2, by rw [he j b hj]; exact h2⟩

/-- Input arc `i` is mapped to CCH arc `a`, in the direction `d` (`true` is upward). -/
def InputOf (m : List Nat) (U : List Bool) (d : Bool) (i a : Nat) : Prop :=
  rd m i = some a ∧ a ≠ invalidId ∧ at' U i = d

theorem markHasInput_loop {m : List Nat} {A : Nat} {v : BitVector} (hv : v.Rep (List.replicate A false))
    (hm : ∀ i a, rd m i = some a → a ≠ invalidId → a < A) :
    ∃ v' B, forRange 0 m.length v (markHasInput m) = some v' ∧ v'.Rep B ∧ B.length = A ∧
      ∀ a, at' B a = true ↔ a ≠ invalidId ∧ ∃ i, rd m i = some a := by
  obtain ⟨v', e, B, h1, h2, h3⟩ := forRange_inv (lo := 0) (hi := m.length) (s := v) (f := markHasInput m)
    (fun k s => ∃ B, s.Rep B ∧ B.length = A ∧
      ∀ a, at' B a = true ↔ a ≠ invalidId ∧ ∃ i, i < k ∧ rd m i = some a) (Nat.zero_le _)
    ⟨_, hv, by simp, by intro a; simp [at_replicate_false]⟩
    (by
      rintro k s _ hk ⟨B, r, l, q⟩
      obtain ⟨a, ea⟩ := rd_isSome (v := m) hk
      have step : ∀ a', (∃ i, i < k + 1 ∧ rd m i = some a') ↔ (∃ i, i < k ∧ rd m i = some a') ∨ a' = a := by
        intro a'
        constructor
        · rintro ⟨i, h1, h2⟩
          by_cases hik : i = k
          · subst hik; exact Or.inr (rd_congr_some h2 ea)
          · exact Or.inl ⟨i, by omega, h2⟩
        · rintro (⟨i, h1, h2⟩ | rfl)
          · exact ⟨i, by omega, h2⟩
          · exact ⟨k, by omega, ea⟩
      unfold markHasInput
      simp only [ea, Option.bind_eq_bind, Option.bind_some]
      by_cases hne : a ≠ invalidId
      · rw [if_pos hne]
        have hA := hm k a ea hne
        obtain ⟨s', es, hs'⟩ := r.set (x := a) (by omega)
        refine ⟨s', es, _, hs', by simpa using l, ?_⟩
        intro a'
        rw [at_set (by omega), step]
        by_cases haa : a' = a
        · subst haa; simp [hne]
        · rw [if_neg haa, q]; simp [haa]
      · rw [if_neg hne]
        have hne : a = invalidId := by simpa using hne
        refine ⟨s, rfl, B, r, l, ?_⟩
        intro a'
        rw [q, step]
        constructor
        · rintro ⟨h1, h2⟩; exact ⟨h1, Or.inl h2⟩
        · rintro ⟨h1, h2 | h2⟩
          · exact ⟨h1, h2⟩
          · exact absurd (h2.trans hne) h1)
  refine ⟨v', B, e, h1, h2, ?_⟩
  intro a
  rw [h3]
  constructor
  · rintro ⟨h, i, _, h'⟩; exact ⟨h, i, h'⟩
  · rintro ⟨h, i, h'⟩; exact ⟨h, i, rd_some_lt h', h'⟩

theorem extra_loop {m : List Nat} {U HB : List Bool} {A : Nat} {up ex : BitVector} {hm : LocalIDMapper}
    (hu : up.Rep U) (hU : U.length = m.length) (hml : m.length ≤ invalidId)
    (hH : ∀ a, at' HB a = true ↔ a ≠ invalidId ∧ ∃ i, rd m i = some a) (hHl : HB.length = A) (hok : hm.Ok HB)
    (hex : ex.Rep (List.replicate A false)) :
    ∃ ex' f b E, forRange 0 m.length (ex, (⟨List.replicate hm.localIdCount invalidId, [], []⟩ : ExtraState),
        (⟨List.replicate hm.localIdCount invalidId, [], []⟩ : ExtraState)) (extraStep m up hm) = some (ex', f, b) ∧
      ex'.Rep E ∧ E.length = A ∧ DirInv (InputOf m U true) HB m.length E f ∧
      DirInv (InputOf m U false) HB m.length E b := by
  have init : ∀ d, DirInv (InputOf m U d) HB 0 (List.replicate A false)
      ⟨List.replicate hm.localIdCount invalidId, [], []⟩ := by
    intro d
    refine ⟨by simp [hok.localIdCount], rfl, ?_, ?_, ?_⟩
    · intro a ha
      refine ⟨invalidId, ?_, Or.inl ⟨rfl, fun i hi => absurd hi (Nat.not_lt_zero _)⟩⟩
      show rd (List.replicate _ _) _ = _
      exact rd_replicate (by rw [hok.localIdCount]; exact rk_lt_count ha)
    · intro j a i h; simp [rd] at h
    · intro a i h; exact absurd h (Nat.not_lt_zero _)
  obtain ⟨⟨ex', f, b⟩, e, E, h1, h2, h3, h4⟩ := forRange_inv (lo := 0) (hi := m.length)
    (s := (ex, (⟨List.replicate hm.localIdCount invalidId, [], []⟩ : ExtraState),
        (⟨List.replicate hm.localIdCount invalidId, [], []⟩ : ExtraState)))
    (f := extraStep m up hm)
    (fun k s => ∃ E, s.1.Rep E ∧ E.length = A ∧ DirInv (InputOf m U true) HB k E s.2.1 ∧
      DirInv (InputOf m U false) HB k E s.2.2) (Nat.zero_le _)
    ⟨_, hex, by simp, init true, init false⟩
    (by
      rintro k ⟨ex, f, b⟩ _ hk ⟨E, r, l, d1, d2⟩
      obtain ⟨a, ea⟩ := rd_isSome (v := m) hk
      unfold extraStep
      simp only [ea, Option.bind_eq_bind, Option.bind_some]
      by_cases hne : a ≠ invalidId
      · rw [if_pos hne]
        have hHa := (hH a).2 ⟨hne, k, ea⟩
        have hlt := at_eq_true_lt hHa
        have hthis : ∀ d, at' U k = d → ∀ a', InputOf m U d k a' ↔ a' = a := by
          intro d hd a'
          constructor
          · rintro ⟨h1, _, _⟩; exact rd_congr_some h1 ea
          · rintro rfl; exact ⟨ea, hne, hd⟩
        have hother : ∀ d, at' U k ≠ d → ∀ a', ¬ InputOf m U d k a' := fun d hd a' h => hd h.2.2
        rw [hok.toLocal hHa]
        simp only [Option.bind_some]
        rw [hu.isSet (by omega)]
        simp only [Option.bind_some]
        cases hb : at' U k with
        | true =>
          obtain ⟨ex', f', E', e1, e2, e3, e4, e5⟩ := d1.add r (hthis true hb) hHa (by omega) (by omega)
          exact ⟨(ex', f', b), by simp [e1], E', e2, by omega, e5, d2.skip (hother false (by simp [hb])) e4⟩
        | false =>
          obtain ⟨ex', b', E', e1, e2, e3, e4, e5⟩ := d2.add r (hthis false hb) hHa (by omega) (by omega)
          exact ⟨(ex', f, b'), by simp [e1], E', e2, by omega, d1.skip (hother true (by simp [hb])) e4, e5⟩
      · rw [if_neg hne]
        have hno : ∀ d a', ¬ InputOf m U d k a' := by
          rintro d a' ⟨h1, h2, _⟩
          exact hne (by rw [← rd_congr_some h1 ea]; exact h2)
        exact ⟨(ex, f, b), rfl, E, r, l, d1.skip (hno true) (fun _ h => h), d2.skip (hno false) (fun _ h => h)⟩)
  exact ⟨ex', f, b, E, e, h1, h2, h3, h4⟩

/-- The stored mapping from CCH arcs to input arcs. -/
structure BackOk (c : Cch) (U : List Bool) : Prop where
  ok : ∃ HB EB, c.hasInput.Rep HB ∧ HB.length = c.upHead.length ∧ c.hasInputMap.Ok HB ∧
    c.hasExtra.Rep EB ∧ EB.length = c.upHead.length ∧ c.hasExtraMap.Ok EB ∧
    DirOk (InputOf c.inputToCch U true) HB EB c.fwdInput c.firstExtraFwd c.extraFwd ∧
    DirOk (InputOf c.inputToCch U false) HB EB c.bwdInput c.firstExtraBwd c.extraBwd

theorem mapBack_spec {order rank parent rt rh : List Nat} {g : UpGraph} {up : BitVector} {U : List Bool}
    {dn : List Nat × List Nat × List Nat} {junk : Nat → Nat → Word} (hsm : g.head.length ≤ invalidId)
    (hml : g.inputToCch.length ≤ invalidId) (hu : up.Rep U) (mo : MapOk g.tail g.head rt rh g.inputToCch U) :
    ∃ c, mapBack order rank parent g up dn junk = some c ∧ c.order = order ∧ c.rank = rank ∧ c.parent = parent ∧
      c.upFirstOut = g.firstOut ∧ c.upHead = g.head ∧ c.upTail = g.tail ∧ c.downFirstOut = dn.1 ∧
      c.downHead = dn.2.1 ∧ c.downToUp = dn.2.2 ∧ c.inputToCch = g.inputToCch ∧ c.inputUp = up ∧ BackOk c U := by
  have hsm' : g.head.length + 511 < u64 := by
    have : invalidId = 4294967295 := rfl
    have : u64 = 18446744073709551616 := rfl
    omega
  obtain ⟨v1, B1, e1, r1, l1, _⟩ := rep_null.resizeUninit hsm' (junk 1)
  obtain ⟨v2, e2, r2⟩ := r1.resetAll
  rw [l1] at r2
  obtain ⟨v3, HB, e3, r3, l3, q3⟩ := markHasInput_loop (m := g.inputToCch) r2 (fun i a h1 h2 => (mo.lt h1 h2).2)
  obtain ⟨hm, ehm, hhm⟩ := LocalIDMapper.new_spec r3
  obtain ⟨w1, B1', e4, r4, l4, _⟩ := rep_null.resizeUninit hsm' (junk 2)
  obtain ⟨w2, e5, r5⟩ := r4.resetAll
  rw [l4] at r5
  obtain ⟨w3, f, b, EB, e6, r6, l6, d1, d2⟩ := extra_loop hu (by rw [mo.lenU, mo.len]) hml q3 l3 hhm r5
  obtain ⟨em, eem, hem⟩ := LocalIDMapper.new_spec r6
  have hk : ∀ d i a, InputOf g.inputToCch U d i a → i < g.inputToCch.length := fun d i a h => rd_some_lt h.1
  have hH : ∀ d a, at' HB a = false → ∀ i, ¬ InputOf g.inputToCch U d i a := by
    intro d a ha i h
    have := (q3 a).2 ⟨h.2.1, i, h.1⟩
    rw [ha] at this; cases this
  obtain ⟨ff, fe, e7, o1⟩ := sortExtra_spec d1 hem (hk true) (hH true)
  obtain ⟨bf, be, e8, o2⟩ := sortExtra_spec d2 hem (hk false) (hH false)
  have e : mapBack order rank parent g up dn junk = some
      { order := order, rank := rank, parent := parent,
         upFirstOut := g.firstOut, upHead := g.head, upTail := g.tail,
         downFirstOut := dn.1, downHead := dn.2.1, downToUp := dn.2.2,
         inputToCch := g.inputToCch, inputUp := up, hasInput := v3, hasInputMap := hm,
         fwdInput := f.first, bwdInput := b.first, hasExtra := w3, hasExtraMap := em,
         firstExtraFwd := ff, firstExtraBwd := bf, extraFwd := fe, extraBwd := be } := by
    unfold mapBack
    simp only [e1, e2, e3, ehm, e4, e5, e6, eem, e7, e8, Option.bind_eq_bind, Option.bind_some]
  exact ⟨_, e, rfl, rfl, rfl, rfl, rfl, rfl, rfl, rfl, rfl, rfl, rfl, ⟨HB, EB, r3, l3, hhm, r6, l6, hem, o1, o2⟩⟩

end RK
