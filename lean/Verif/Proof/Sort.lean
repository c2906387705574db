import Verif.Model.Sort
import Verif.Proof.Permutation
import Verif.Spec.Vector
import Mathlib.Data.List.Count
/-! Helper lemmas for sort.h -/
namespace RK
open Spec

/-- number of keys smaller than `k` -/
def cLt (K : List Nat) (k : Nat) : Nat := K.countP (fun x => decide (x < k))

/-- number of keys equal to `k` among the first `i` -/
def cEq (K : List Nat) (i k : Nat) : Nat := (K.take i).count k

/-- final position of the element at position `i` -/
def rank (K : List Nat) (i : Nat) : Nat := cLt K (K.getD i 0) + cEq K i (K.getD i 0)

theorem cEq_succ {K : List Nat} {i x k : Nat} (h : rd K i = some x) :
    cEq K (i + 1) k = cEq K i k + if x = k then 1 else 0 := by
  unfold cEq
  rw [List.take_add_one, show K[i]? = some x from h, List.count_append]
  simp [List.count_singleton]

theorem cEq_mono {K : List Nat} {i j k : Nat} (h : i ≤ j) : cEq K i k ≤ cEq K j k := by
  unfold cEq
  apply List.Sublist.count_le
  exact (List.take_prefix_take_left h).sublist

theorem cEq_lt {K : List Nat} {i j k : Nat} (hij : i < j) (h : rd K i = some k) :
    cEq K i k < cEq K j k := by
  have h1 := cEq_succ (k := k) h
  have h2 := cEq_mono (K := K) (k := k) (show i + 1 ≤ j from hij)
  simp at h1; omega

theorem cEq_le (K : List Nat) (i k : Nat) : cEq K i k ≤ K.count k := by
  unfold cEq
  exact List.Sublist.count_le _ (List.take_sublist _ _)

theorem cEq_lt_count {K : List Nat} {i k : Nat} (h : rd K i = some k) :
    cEq K i k < K.count k := by
  have h1 := cEq_succ (k := k) h
  have h2 := cEq_le K (i + 1) k
  simp at h1; omega

theorem cLt_add (K : List Nat) {a b : Nat} (h : a < b) : cLt K a + K.count a ≤ cLt K b := by
  unfold cLt
  induction K with
  | nil => simp
  | cons x K ih =>
    simp only [List.countP_cons, List.count_cons, decide_eq_true_eq, beq_iff_eq]
    split <;> split <;> split <;> omega

theorem cLt_add_le (K : List Nat) (a : Nat) : cLt K a + K.count a ≤ K.length := by
  unfold cLt
  induction K with
  | nil => simp
  | cons x K ih =>
    simp only [List.countP_cons, List.count_cons, decide_eq_true_eq, beq_iff_eq, List.length_cons]
    split <;> split <;> omega

theorem rank_eq {K : List Nat} {i k : Nat} (h : rd K i = some k) :
    rank K i = cLt K k + cEq K i k := by
  unfold rank
  rw [List.getD_eq_getElem?_getD, show K[i]? = some k from h]; rfl

theorem rank_lt {K : List Nat} {i : Nat} (h : i < K.length) : rank K i < K.length := by
  have hk := rd_lt h
  rw [rank_eq hk]
  have h1 := cEq_lt_count hk
  have h2 := cLt_add_le K K[i]
  omega

theorem rank_lt_rank {K : List Nat} {i j a b : Nat} (hi : rd K i = some a) (hj : rd K j = some b)
    (h : a < b ∨ (a = b ∧ i < j)) : rank K i < rank K j := by
  rw [rank_eq hi, rank_eq hj]
  rcases h with h | ⟨rfl, h⟩
  · have h1 := cEq_lt_count hi
    have h2 := cLt_add K h
    omega
  · have := cEq_lt h hi
    omega

theorem rank_inj {K : List Nat} {i j : Nat} (hi : i < K.length) (hj : j < K.length)
    (h : rank K i = rank K j) : i = j := by
  have h1 := rd_lt hi
  have h2 := rd_lt hj
  rcases Nat.lt_trichotomy K[i] K[j] with h3 | h3 | h3
  · have := rank_lt_rank h1 h2 (Or.inl h3); omega
  · rcases Nat.lt_trichotomy i j with h4 | h4 | h4
    · have := rank_lt_rank h1 h2 (Or.inr ⟨h3, h4⟩); omega
    · exact h4
    · have := rank_lt_rank h2 h1 (Or.inr ⟨h3.symm, h4⟩); omega
  · have := rank_lt_rank h2 h1 (Or.inl h3); omega

/-- The rank permutation inverts a stable sort permutation. -/
theorem stable_of_rank {K p : List Nat} (hl : p.length = K.length)
    (h : ∀ i, i < K.length → rd p (rank K i) = some i) :
    StableSortPerm K p := by
  have hlt : ∀ i, i < K.length → ∃ a, a < K.length ∧ rank K a = i := by
    -- rank is an injection of a finite set into itself
    intro i hi
    let R := (List.range K.length).map (rank K)
    have hR : IsPerm R := by
      constructor
      · intro x hx
        simp only [R, List.mem_map, List.mem_range, List.length_map, List.length_range] at hx ⊢
        obtain ⟨a, ha, rfl⟩ := hx
        exact rank_lt ha
      · refine List.Nodup.map_on ?_ List.nodup_range
        intro x hx y hy hxy
        exact rank_inj (List.mem_range.1 hx) (List.mem_range.1 hy) hxy
    have : i ∈ R := hR.mem (by simpa [R] using hi)
    simp only [R, List.mem_map, List.mem_range] at this
    exact this
  have hp : ∀ i a, rd p i = some a → a < K.length ∧ rank K a = i := by
    intro i a hia
    have hi := rd_some_lt hia
    obtain ⟨a', ha', hr⟩ := hlt i (by omega)
    have := h a' ha'
    rw [hr, hia] at this
    cases this
    exact ⟨ha', hr⟩
  refine ⟨isPerm_iff_perm.1 (isPerm_of_rd ?_ ?_), hl, ?_⟩
  · intro i x hx
    have := hp i x hx; omega
  · intro i j x hi hj
    have h1 := hp i x hi
    have h2 := hp j x hj
    omega
  · intro i j a b ka kb hij hi hj hka hkb
    have h1 := hp i a hi
    have h2 := hp j b hj
    by_contra hcon
    have hab : a ≠ b := by
      rintro rfl; omega
    have h3 : kb < ka ∨ (kb = ka ∧ b < a) := by omega
    have := rank_lt_rank hkb hka h3
    omega

/-! ### The counting loops -/

variable {α : Type}

theorem rd_map {β : Type} {v : List α} {g : α → β} {i : Nat} {x : α} (h : rd v i = some x) :
    rd (v.map g) i = some (g x) := by
  unfold rd at *; simp [h]

theorem rd_map_inv {β : Type} {v : List α} {g : α → β} {i : Nat} {y : β}
    (h : rd (v.map g) i = some y) : ∃ x, rd v i = some x ∧ g x = y := by
  unfold rd at *; simpa using h

theorem countKeys_spec {v : List α} {kc : Nat} {gk : α → Nat} (hk : ∀ x ∈ v, gk x < kc) :
    ∃ kp, countKeys v kc gk = some kp ∧ kp.length = kc ∧
      ∀ k, k < kc → rd kp k = some ((v.map gk).count k) := by
  unfold countKeys
  obtain ⟨kp, e, h1, h2⟩ := forRange_inv (lo := 0) (hi := v.length)
    (s := List.replicate kc 0)
    (f := fun kp i => (rd v i).bind fun x => (check (decide (gk x ≤ kc))).bind fun _ =>
      (rd kp (gk x)).bind fun c => wr kp (gk x) (c + 1))
    (fun i kp => kp.length = kc ∧ ∀ k, k < kc → rd kp k = some (cEq (v.map gk) i k)) (by omega)
    ⟨by simp, by
      intro k hk
      rw [rd_replicate hk]; simp [cEq]⟩
    (by
      rintro i kp _ hi ⟨hl, hr⟩
      obtain ⟨x, hx⟩ := rd_isSome (v := v) hi
      have hkx := hk x (List.mem_of_getElem? hx)
      have hb : decide (gk x ≤ kc) = true := by simp; omega
      have hlt : gk x < kp.length := by omega
      refine ⟨kp.set (gk x) (cEq (v.map gk) i (gk x) + 1), ?_, by simpa using hl, ?_⟩
      · simp [hx, hb, hr _ hkx, wr_lt hlt]
      · intro k hk'
        rw [rd_set hlt, cEq_succ (rd_map hx)]
        by_cases h : k = gk x
        · subst h; simp
        · rw [if_neg h, if_neg (fun h' => h h'.symm), hr k hk']; rfl)
  refine ⟨kp, e, h1, ?_⟩
  intro k hk'
  rw [h2 k hk']
  congr 1
  unfold cEq
  rw [List.take_of_length_le (by simp)]

theorem cLt_zero (K : List Nat) : cLt K 0 = 0 := by simp [cLt]

theorem cLt_succ (K : List Nat) (k : Nat) : cLt K (k + 1) = cLt K k + K.count k := by
  unfold cLt
  induction K with
  | nil => simp
  | cons x K ih =>
    simp only [List.countP_cons, List.count_cons, decide_eq_true_eq, beq_iff_eq]
    split <;> split <;> split <;> omega

theorem computeKeyPos_spec {v : List α} {kc : Nat} {gk : α → Nat} (hk : ∀ x ∈ v, gk x < kc) :
    ∃ kp, computeKeyPos v kc gk = some kp ∧ kp.length = kc ∧
      ∀ k, k < kc → rd kp k = some (cLt (v.map gk) k) := by
  unfold computeKeyPos
  obtain ⟨kp0, e0, hl0, h0⟩ := countKeys_spec hk
  rw [e0]
  simp only [Option.bind_eq_bind, Option.bind_some]
  obtain ⟨⟨kp, sum⟩, e, h1, h2, h3, h4⟩ := forRange_inv (lo := 0) (hi := kc)
    (s := (kp0, 0))
    (f := fun (s : List Nat × Nat) i => (rd s.1 i).bind fun c => (wr s.1 i s.2).bind fun kp =>
      some (kp, s.2 + c))
    (fun i s => s.1.length = kc ∧ s.2 = cLt (v.map gk) i ∧
      (∀ k, k < i → rd s.1 k = some (cLt (v.map gk) k)) ∧
      (∀ k, i ≤ k → k < kc → rd s.1 k = some ((v.map gk).count k))) (by omega)
    ⟨hl0, by simp [cLt_zero], by intro k hk; omega, fun k _ hk => h0 k hk⟩
    (by
      rintro i ⟨kp, sum⟩ _ hi ⟨hl, hs, hr, hr'⟩
      simp only at hl hs hr hr' ⊢
      have hlt : i < kp.length := by omega
      refine ⟨(kp.set i sum, sum + (v.map gk).count i), ?_, by simpa using hl, ?_, ?_, ?_⟩
      · simp only [hr' i (Nat.le_refl _) hi, Option.bind_some, wr_lt hlt]
      · simp only [hs, cLt_succ]
      · intro k hk
        simp only [rd_set hlt]
        split
        · rename_i h; subst h; rw [hs]
        · exact hr k (by omega)
      · intro k hk hkc
        simp only [rd_set hlt]
        rw [if_neg (by omega)]
        exact hr' k (by omega) hkc)
  refine ⟨kp, ?_, h1, fun k hk => h3 k hk⟩
  have e' := congrArg (fun o => Option.bind o (fun r => some r.1)) e
  exact e'

/-- The third loop of all bucket sorts: `act` is performed with the rank of every element. -/
theorem bucket_loop {β : Type} {v : List α} {kc : Nat} {gk : α → Nat} (hk : ∀ x ∈ v, gk x < kc)
    {kp0 : List Nat} (hl0 : kp0.length = kc)
    (h0 : ∀ k, k < kc → rd kp0 k = some (cLt (v.map gk) k))
    (act : β → Nat → Nat → Option β)
    (f : β × List Nat → Nat → Option (β × List Nat))
    (hf : ∀ b kp i x pos, rd v i = some x → gk x < kc → rd kp (gk x) = some pos →
      f (b, kp) i = (act b i pos).bind fun b => (wr kp (gk x) (pos + 1)).bind fun kp =>
        some (b, kp))
    {b0 b : β} (h : forRange 0 v.length b0 (fun b i => act b i (rank (v.map gk) i)) = some b) :
    ∃ kp, forRange 0 v.length (b0, kp0) f = some (b, kp) := by
  suffices H : ∀ n i b0 b kp0, i + n = v.length → kp0.length = kc →
      (∀ k, k < kc → rd kp0 k = some (cLt (v.map gk) k + cEq (v.map gk) i k)) →
      forN (fun b i => act b i (rank (v.map gk) i)) i n b0 = some b →
      ∃ kp, forN f i n (b0, kp0) = some (b, kp) by
    refine H (v.length - 0) 0 b0 b kp0 (by omega) hl0 ?_ h
    intro k hk
    rw [h0 k hk]; simp [cEq]
  intro n
  induction n with
  | zero =>
    intro i b0 b kp0 _ _ _ h
    simp only [forN, Option.some.injEq] at h ⊢
    exact ⟨kp0, by rw [h]⟩
  | succ n ih =>
    intro i b0 b kp0 hin hl hkp h
    simp only [forN] at h ⊢
    obtain ⟨x, hx⟩ := rd_isSome (v := v) (i := i) (by omega)
    have hkx := hk x (List.mem_of_getElem? hx)
    have hpos := hkp _ hkx
    rw [← rank_eq (rd_map hx)] at hpos
    rw [hf b0 kp0 i x _ hx hkx hpos]
    cases ha : act b0 i (rank (v.map gk) i) with
    | none => simp [ha] at h
    | some b1 =>
      rw [ha, Option.bind_some] at h
      have hlt : gk x < kp0.length := by omega
      simp only [Option.bind_some, wr_lt hlt]
      refine ih (i + 1) b1 b _ (by omega) (by simpa using hl) ?_ h
      intro k hk'
      rw [rd_set hlt, cEq_succ (rd_map hx)]
      by_cases hh : k = gk x
      · subst hh
        rw [rank_eq (rd_map hx)]; simp; omega
      · rw [if_neg hh, if_neg (fun h' => hh h'.symm), hkp k hk']; rfl

/-! ### Comparator based sorting -/

theorem compareByKey_asymm (gk : α → Nat) (a b : α) :
    compareByKey gk a b = true → compareByKey gk b a = false := by
  simp [compareByKey]; omega

theorem compareByKey_trans (gk : α → Nat) (a b c : α) :
    compareByKey gk b a = false → compareByKey gk c b = false → compareByKey gk c a = false := by
  simp [compareByKey]; omega

theorem key_getD [Inhabited α] {v : List α} {gk : α → Nat} {a ka : Nat}
    (h : (v.map gk)[a]? = some ka) : gk (v.getD a default) = ka := by
  obtain ⟨x, h1, h2⟩ := rd_map_inv (v := v) h
  rw [List.getD_eq_getElem?_getD, show v[a]? = some x from h1, Option.getD_some, h2]

theorem pair_sublist_of_lt {l : List α} {i j : Nat} (hi : i < l.length) (hj : j < l.length)
    (hij : i < j) : [l[i], l[j]].Sublist l := by
  have h : l.Pairwise (fun a b => [a, b].Sublist l) :=
    List.pairwise_iff_forall_sublist.2 (fun h => h)
  exact List.pairwise_iff_getElem.1 h i j hi hj hij

theorem lt_of_pair_sublist {l : List α} {a b : α} (h : [a, b].Sublist l) :
    ∃ i j, ∃ (hi : i < l.length) (hj : j < l.length), i < j ∧ l[i] = a ∧ l[j] = b := by
  have h' : l.Pairwise (fun a b => ∃ i j, ∃ (hi : i < l.length) (hj : j < l.length),
      i < j ∧ l[i] = a ∧ l[j] = b) := by
    rw [List.pairwise_iff_getElem]
    intro i j hi hj hij
    exact ⟨i, j, hi, hj, hij, rfl, rfl⟩
  exact List.pairwise_iff_forall_sublist.1 h' h

theorem stable_comparator [Inhabited α] (v : List α) (gk : α → Nat) :
    ∃ p, computeStableSortPermutationUsingComparator v (compareByKey gk) = some p ∧
      StableSortPerm (v.map gk) p := by
  unfold computeStableSortPermutationUsingComparator
  rw [identityPermutation_eq]
  simp only [Option.bind_eq_bind, Option.bind_some]
  refine ⟨_, rfl, ?_⟩
  let le : Nat → Nat → Bool := fun l r =>
    !compareByKey gk (v.getD r default) (v.getD l default)
  have hle : ∀ a b, le a b = true ↔ gk (v.getD a default) ≤ gk (v.getD b default) := by
    intro a b
    simp [le, compareByKey]
  have htrans : ∀ a b c : Nat, le a b = true → le b c = true → le a c = true := by
    intro a b c h1 h2
    rw [hle] at *; omega
  have htotal : ∀ a b : Nat, (le a b || le b a) = true := by
    intro a b
    rw [Bool.or_eq_true, hle, hle]; omega
  change StableSortPerm _ ((List.range v.length).mergeSort le)
  have hperm := List.mergeSort_perm (List.range v.length) le
  have hlen : ((List.range v.length).mergeSort le).length = v.length := by simp
  have hnd : ((List.range v.length).mergeSort le).Nodup := hperm.nodup_iff.2 List.nodup_range
  refine ⟨?_, by simp, ?_⟩
  · unfold IsPermutation; rw [hlen]; exact hperm
  · intro i j a b ka kb hij hi hj hka hkb
    have hka' := key_getD hka
    have hkb' := key_getD hkb
    have hsorted := List.pairwise_mergeSort htrans htotal (List.range v.length)
    obtain ⟨hi1, hi2⟩ := List.getElem?_eq_some_iff.1 hi
    obtain ⟨hj1, hj2⟩ := List.getElem?_eq_some_iff.1 hj
    have h1 := List.pairwise_iff_getElem.1 hsorted i j hi1 hj1 hij
    rw [hi2, hj2, hle, hka', hkb'] at h1
    by_contra hcon
    have hne : a ≠ b := by
      rintro rfl
      have := (List.Nodup.getElem_inj_iff hnd).1 (hi2.trans hj2.symm)
      omega
    have h2 : ka = kb ∧ b < a := by omega
    have hb : b < v.length := by
      have := rd_some_lt (v := v.map gk) hkb; simpa using this
    have ha : a < v.length := by
      have := rd_some_lt (v := v.map gk) hka; simpa using this
    have hsub : [b, a].Sublist (List.range v.length) := by
      have := pair_sublist_of_lt (l := List.range v.length) (i := b) (j := a) (by simpa using hb)
        (by simpa using ha) h2.2
      simpa using this
    have hsub2 := List.pair_sublist_mergeSort htrans htotal
      (show le b a = true by rw [hle, hka', hkb']; omega) hsub
    obtain ⟨i', j', h3, h4, h5, h6, h7⟩ := lt_of_pair_sublist hsub2
    have e1 := (List.Nodup.getElem_inj_iff hnd).1 (h6.trans hj2.symm)
    have e2 := (List.Nodup.getElem_inj_iff hnd).1 (h7.trans hi2.symm)
    omega

theorem sort_comparator [Inhabited α] {stdSort : SortFn} (hs : StdSort stdSort) (v : List α)
    (gk : α → Nat) :
    ∃ p, computeSortPermutationUsingComparator stdSort v (compareByKey gk) = some p ∧
      SortPerm (v.map gk) p := by
  unfold computeSortPermutationUsingComparator
  rw [identityPermutation_eq]
  simp only [Option.bind_eq_bind, Option.bind_some]
  refine ⟨_, rfl, ?_⟩
  obtain ⟨hperm, hsorted⟩ := hs Nat
    (fun l r => compareByKey gk (v.getD l default) (v.getD r default)) (List.range v.length)
    (fun a b => compareByKey_asymm gk _ _) (fun a b c => compareByKey_trans gk _ _ _)
  have hlen := hperm.length_eq
  rw [List.length_range] at hlen
  refine ⟨?_, by rw [List.length_map, hlen], ?_⟩
  · unfold IsPermutation; rw [hlen]; exact hperm
  · intro i j a b ka kb hij hi hj hka hkb
    have hka' := key_getD hka
    have hkb' := key_getD hkb
    obtain ⟨hi1, hi2⟩ := List.getElem?_eq_some_iff.1 hi
    obtain ⟨hj1, hj2⟩ := List.getElem?_eq_some_iff.1 hj
    have h1 := List.pairwise_iff_getElem.1 hsorted i j hi1 hj1 hij
    rw [hi2, hj2] at h1
    simp only [compareByKey, decide_eq_false_iff_not, not_lt] at h1
    omega

theorem _root_.Spec.StableSortPerm.sortPerm {K p : List Nat} (h : StableSortPerm K p) : SortPerm K p := by
  refine ⟨h.1, h.2.1, ?_⟩
  intro i j a b ka kb hij hi hj hka hkb
  have := h.2.2 i j a b ka kb hij hi hj hka hkb
  omega

/-! ### The public functions -/

theorem bucket_perm {v : List α} {kc : Nat} {gk : α → Nat} (hk : ∀ x ∈ v, gk x < kc)
    [Inhabited α] {stdSort : SortFn} {b : Bool}
    (hb : kc / bucketSortMinKeyToElementRatio ≤ v.length) :
    ∃ p, computeMaybeStableSortPermutationUsingKey stdSort b v kc gk = some p ∧
      StableSortPerm (v.map gk) p := by
  unfold computeMaybeStableSortPermutationUsingKey
  rw [if_pos hb]
  obtain ⟨kp0, e0, hl0, h0⟩ := computeKeyPos_spec hk
  rw [e0]
  simp only [Option.bind_eq_bind, Option.bind_some]
  obtain ⟨p, e, h1, h2, _⟩ := scatter_loop (n := v.length) (m := v.length)
    (rank (v.map gk)) (fun i => i) (fun p i => wr p (rank (v.map gk) i) i)
    (List.replicate v.length 0) (by simp)
    (by intro i hi; simpa using rank_lt (K := v.map gk) (by simpa using hi))
    (by intro i j hi hj h; exact rank_inj (by simpa using hi) (by simpa using hj) h)
    (by intros; rfl)
  obtain ⟨kp, e'⟩ := bucket_loop hk hl0 h0 (fun p i pos => wr p pos i)
    (fun (s : List Nat × List Nat) i => (rd v i).bind fun x =>
      (check (decide (gk x ≤ kc))).bind fun _ => (rd s.2 (gk x)).bind fun pos =>
      (wr s.1 pos i).bind fun p => (wr s.2 (gk x) (pos + 1)).bind fun kp => some (p, kp))
    (by
      intro b kp i x pos hx hkx hp
      have hb : decide (gk x ≤ kc) = true := by simp; omega
      simp [hx, hb, hp]) e
  refine ⟨p, ?_, stable_of_rank (by simpa using h1) ?_⟩
  · exact congrArg (fun o => Option.bind o (fun r => some r.1)) e'
  · intro i hi
    exact h2 i (by simpa using hi)

theorem bucket_inverse_perm {v : List α} {kc : Nat} {gk : α → Nat} (hk : ∀ x ∈ v, gk x < kc)
    [Inhabited α] {stdSort : SortFn} {b : Bool}
    (hb : kc / bucketSortMinKeyToElementRatio ≤ v.length) :
    ∃ q, computeInverseMaybeStableSortPermutationUsingKey stdSort b v kc gk = some q ∧
      q.length = v.length ∧ ∀ i, i < v.length → rd q i = some (rank (v.map gk) i) := by
  unfold computeInverseMaybeStableSortPermutationUsingKey
  rw [if_pos hb]
  obtain ⟨kp0, e0, hl0, h0⟩ := computeKeyPos_spec hk
  rw [e0]
  simp only [Option.bind_eq_bind, Option.bind_some]
  obtain ⟨p, e, h1, h2⟩ := fill_loop (n := v.length)
    (rank (v.map gk)) (fun p i => wr p i (rank (v.map gk) i))
    (List.replicate v.length 0) (by simp)
    (by intros; rfl)
  obtain ⟨kp, e'⟩ := bucket_loop hk hl0 h0 (fun p i pos => wr p i pos)
    (fun (s : List Nat × List Nat) i => (rd v i).bind fun x =>
      (check (decide (gk x ≤ kc))).bind fun _ => (rd s.2 (gk x)).bind fun pos =>
      (wr s.1 i pos).bind fun p => (wr s.2 (gk x) (pos + 1)).bind fun kp => some (p, kp))
    (by
      intro b kp i x pos hx hkx hp
      have hb : decide (gk x ≤ kc) = true := by simp; omega
      simp [hx, hb, hp]) e
  refine ⟨p, ?_, h1, h2⟩
  exact congrArg (fun o => Option.bind o (fun r => some r.1)) e'

/-- inverse of the rank vector -/
theorem rank_inverse {K q : List Nat} (hl : q.length = K.length)
    (h : ∀ i, i < K.length → rd q i = some (rank K i)) :
    ∃ p, StableSortPerm K p ∧ AreInverse p q ∧ IsPermutation q := by
  have hq : IsPerm q := by
    apply isPerm_of_rd
    · intro i x hx
      have hi := rd_some_lt hx
      rw [h i (by omega)] at hx
      cases hx
      have := rank_lt (K := K) (i := i) (by omega)
      omega
    · intro i j x hi hj
      have hi1 := rd_some_lt hi
      have hj1 := rd_some_lt hj
      rw [h i (by omega)] at hi
      rw [h j (by omega)] at hj
      cases hi
      exact rank_inj (K := K) (by omega) (by omega) (by injection hj with hj; exact hj.symm)
  obtain ⟨p, e, h1, h2, h3⟩ := invertPermutation_spec hq
  refine ⟨p, stable_of_rank (by omega) ?_, ⟨h1, ?_⟩, isPerm_iff_perm.1 hq⟩
  · intro i hi
    exact (h3 i _ (by omega)).2 (h i hi)
  · intro i j
    by_cases hj : j < q.length
    · exact h3 j i hj
    · constructor
      · intro hh
        have := h2.lt j (List.mem_of_getElem? hh)
        omega
      · intro hh
        exact absurd (rd_some_lt (v := q) hh) hj

theorem areInverse_symm {p q : List Nat} (h : AreInverse p q) : AreInverse q p :=
  ⟨h.1.symm, fun i j => (h.2 j i).symm⟩

theorem invert_areInverse {p : List Nat} (hp : IsPermutation p) :
    ∃ q, invertPermutation p = some q ∧ IsPermutation q ∧ AreInverse p q := by
  have hp' := isPerm_iff_perm.2 hp
  obtain ⟨q, e, h1, h2, h3⟩ := invertPermutation_spec hp'
  refine ⟨q, e, isPerm_iff_perm.1 h2, h1.symm, ?_⟩
  intro i j
  by_cases hi : i < p.length
  · exact (h3 i j hi).symm
  · constructor
    · intro hh
      exact absurd (rd_some_lt (v := p) hh) hi
    · intro hh
      have := h2.lt i (List.mem_of_getElem? hh)
      omega

theorem computeMaybeStable_spec [Inhabited α] {stdSort : SortFn} {v : List α} {kc : Nat}
    {gk : α → Nat} (hk : ∀ x ∈ v, gk x < kc) (b : Bool) (hs : b = true ∨ StdSort stdSort) :
    ∃ p, computeMaybeStableSortPermutationUsingKey stdSort b v kc gk = some p ∧
      SortPerm (v.map gk) p ∧ (b = true → StableSortPerm (v.map gk) p) := by
  by_cases hb : kc / bucketSortMinKeyToElementRatio ≤ v.length
  · obtain ⟨p, e, h⟩ := bucket_perm hk (stdSort := stdSort) (b := b) hb
    exact ⟨p, e, h.sortPerm, fun _ => h⟩
  · unfold computeMaybeStableSortPermutationUsingKey
    rw [if_neg hb]
    cases b with
    | true =>
      obtain ⟨p, e, h⟩ := stable_comparator v gk
      exact ⟨p, e, h.sortPerm, fun _ => h⟩
    | false =>
      obtain ⟨p, e, h⟩ := sort_comparator (stdSort := stdSort) (hs.resolve_left (by simp)) v gk
      exact ⟨p, e, h, by simp⟩

theorem computeInverseMaybeStable_spec [Inhabited α] {stdSort : SortFn} {v : List α} {kc : Nat}
    {gk : α → Nat} (hk : ∀ x ∈ v, gk x < kc) (b : Bool) (hs : b = true ∨ StdSort stdSort) :
    ∃ q, computeInverseMaybeStableSortPermutationUsingKey stdSort b v kc gk = some q ∧
      ∃ p, AreInverse p q ∧ IsPermutation q ∧
      SortPerm (v.map gk) p ∧ (b = true → StableSortPerm (v.map gk) p) := by
  by_cases hb : kc / bucketSortMinKeyToElementRatio ≤ v.length
  · obtain ⟨q, e, hl, h⟩ := bucket_inverse_perm hk (stdSort := stdSort) (b := b) hb
    obtain ⟨p, h1, h2, h3⟩ := rank_inverse (K := v.map gk) (q := q) (by simpa using hl)
      (by simpa using h)
    exact ⟨q, e, p, h2, h3, h1.sortPerm, fun _ => h1⟩
  · unfold computeInverseMaybeStableSortPermutationUsingKey
    rw [if_neg hb]
    cases b with
    | true =>
      obtain ⟨p, e, h⟩ := stable_comparator v gk
      obtain ⟨q, e', h1, h2⟩ := invert_areInverse h.1
      exact ⟨q, by simp [computeInverseStableSortPermutationUsingComparator, e, e'],
        p, h2, h1, h.sortPerm, fun _ => h⟩
    | false =>
      obtain ⟨p, e, h⟩ := sort_comparator (stdSort := stdSort) (hs.resolve_left (by simp)) v gk
      obtain ⟨q, e', h1, h2⟩ := invert_areInverse h.1
      exact ⟨q, by simp [computeInverseSortPermutationUsingComparator, e, e'],
        p, h2, h1, h, by simp⟩

end RK

namespace RK
open Spec
variable {α : Type}

theorem isSortedUsingComparator_iff {less : α → α → Bool}
    (htrans : ∀ a b c, less b a = false → less c b = false → less c a = false) :
    ∀ v : List α, isSortedUsingComparator less v = true ↔ v.Pairwise (fun a b => less b a = false)
  | [] => by simp [isSortedUsingComparator]
  | [a] => by simp [isSortedUsingComparator]
  | a :: b :: l => by
    have ih := isSortedUsingComparator_iff htrans (b :: l)
    unfold isSortedUsingComparator
    constructor
    · intro h
      split at h
      · cases h
      · rename_i hba
        simp only [Bool.not_eq_true] at hba
        have h' := ih.1 h
        rw [List.pairwise_cons]
        refine ⟨?_, h'⟩
        intro c hc
        rcases List.mem_cons.1 hc with rfl | hc
        · exact hba
        · exact htrans a b c hba ((List.pairwise_cons.1 h').1 c hc)
    · intro h
      rw [List.pairwise_cons] at h
      rw [h.1 b (by simp)]
      simpa using ih.2 h.2

theorem isSortedUsingLess_iff (v : List Nat) : isSortedUsingLess v = true ↔ v.Pairwise (· ≤ ·) := by
  unfold isSortedUsingLess
  rw [isSortedUsingComparator_iff]
  · constructor <;> intro h <;> refine h.imp ?_ <;> simp
  · intro a b c; simp; omega

/-- bucket sort of elements -/
theorem bucket_sort {v : List α} {kc : Nat} {gk : α → Nat} (hk : ∀ x ∈ v, gk x < kc)
    [Inhabited α] {stdSort : SortFn} {b : Bool}
    (hb : kc / bucketSortMinKeyToElementRatio ≤ v.length) :
    ∃ r p, maybeStableSortUsingKey stdSort b v kc gk = some r ∧ r.length = v.length ∧
      StableSortPerm (v.map gk) p ∧ ∀ i a, rd p i = some a → rd r i = rd v a := by
  unfold maybeStableSortUsingKey
  rw [if_pos hb]
  obtain ⟨kp0, e0, hl0, h0⟩ := computeKeyPos_spec hk
  rw [e0]
  simp only [Option.bind_eq_bind, Option.bind_some]
  obtain ⟨r, e, h1, h2, _⟩ := scatter_loop (n := v.length) (m := v.length)
    (rank (v.map gk)) (fun i => (rd v i).getD default)
    (fun p i => (rd v i).bind fun x => wr p (rank (v.map gk) i) x)
    (List.replicate v.length default) (by simp)
    (by intro i hi; simpa using rank_lt (K := v.map gk) (by simpa using hi))
    (by intro i j hi hj h; exact rank_inj (by simpa using hi) (by simpa using hj) h)
    (by
      intro r i hi _
      obtain ⟨x, hx⟩ := rd_isSome (v := v) hi
      simp [hx])
  obtain ⟨kp, e'⟩ := bucket_loop hk hl0 h0 (fun p i pos => (rd v i).bind fun x => wr p pos x)
    (fun (s : List α × List Nat) i => (rd v i).bind fun x =>
      (check (decide (gk x ≤ kc))).bind fun _ => (rd s.2 (gk x)).bind fun pos =>
      (wr s.1 pos x).bind fun p => (wr s.2 (gk x) (pos + 1)).bind fun kp => some (p, kp))
    (by
      intro b kp i x pos hx hkx hp
      have hb : decide (gk x ≤ kc) = true := by simp; omega
      simp [hx, hb, hp]) e
  obtain ⟨p, ep, hp⟩ := bucket_perm hk (stdSort := stdSort) (b := b) hb
  obtain ⟨q, eq, hq1, hq2⟩ := bucket_inverse_perm hk (stdSort := stdSort) (b := b) hb
  obtain ⟨p', hp', hinv, _⟩ := rank_inverse (K := v.map gk) (q := q) (by simpa using hq1)
    (by simpa using hq2)
  refine ⟨r, p', ?_, h1, hp', ?_⟩
  · exact congrArg (fun o => Option.bind o (fun r => some r.1)) e'
  · intro i a hia
    have ha : a < v.length := by
      have := (isPerm_iff_perm.2 hp'.1).lt a (List.mem_of_getElem? hia)
      rw [hp'.2.1] at this; simpa using this
    have h3 := (hinv.2 i a).1 hia
    have h4 := hq2 a ha
    rw [show rd q a = some i from h3] at h4
    cases h4
    rw [h2 a ha]
    obtain ⟨x, hx⟩ := rd_isSome (v := v) ha
    rw [hx]; rfl

theorem stable_comparator_sort [Inhabited α] (v : List α) (gk : α → Nat) :
    ∃ p, (stableSortUsingComparator v (compareByKey gk)).length = v.length ∧
      StableSortPerm (v.map gk) p ∧
      ∀ i a, rd p i = some a → rd (stableSortUsingComparator v (compareByKey gk)) i = rd v a := by
  obtain ⟨p, e, h⟩ := stable_comparator v gk
  refine ⟨p, by simp [stableSortUsingComparator], h, ?_⟩
  unfold computeStableSortPermutationUsingComparator at e
  rw [identityPermutation_eq] at e
  simp only [Option.bind_eq_bind, Option.bind_some, Option.some.injEq] at e
  have hv : v = (List.range v.length).map (fun i => v.getD i default) := by
    apply list_ext_rd (by simp)
    intro i hi
    simp [rd, hi]
  have hm : p.map (fun i => v.getD i default) = stableSortUsingComparator v (compareByKey gk) := by
    unfold stableSortUsingComparator
    rw [← e]
    conv_rhs => rw [hv]
    apply List.map_mergeSort
    intros; rfl
  intro i a hia
  have ha : a < v.length := by
    have := (isPerm_iff_perm.2 h.1).lt a (List.mem_of_getElem? hia)
    rw [h.2.1] at this; simpa using this
  rw [← hm, rd_map hia, rd_lt ha, List.getD_eq_getElem?_getD, List.getElem?_eq_getElem ha]; rfl

/-- a list read through a sort permutation is a sorted rearrangement -/
theorem perm_of_sortPerm {v r : List α} {gk : α → Nat} {p : List Nat} (hl : r.length = v.length)
    (hp : SortPerm (v.map gk) p) (h : ∀ i a, rd p i = some a → rd r i = rd v a) :
    r.Perm v ∧ r.Pairwise (fun a b => gk a ≤ gk b) := by
  have hpl : p.length = v.length := by simpa using hp.2.1
  have hplt : ∀ i a, rd p i = some a → a < v.length := by
    intro i a hia
    have := (isPerm_iff_perm.2 hp.1).lt a (List.mem_of_getElem? hia)
    omega
  constructor
  · have h1 : r.map some = p.map (fun a => rd v a) := by
      apply list_ext_rd (by simp; omega)
      intro i hi
      simp at hi
      obtain ⟨a, ha⟩ := rd_isSome (v := p) (i := i) (by omega)
      obtain ⟨x, hx⟩ := rd_isSome (v := v) (hplt i a ha)
      rw [rd_map ha, rd_map ((h i a ha).trans hx), hx]
    have h2 : v.map some = (List.range v.length).map (fun a => rd v a) := by
      apply list_ext_rd (by simp)
      intro i hi
      simp at hi
      rw [rd_map (rd_lt hi), rd_map (v := List.range v.length) (x := i) (List.getElem?_range hi),
        rd_lt hi]
    have h3 : (r.map some).Perm (v.map some) := by
      rw [h1, h2]
      apply List.Perm.map
      have := hp.1
      unfold IsPermutation at this
      rwa [hpl] at this
    have := h3.filterMap (fun x => x)
    simpa using this
  · rw [List.pairwise_iff_getElem]
    intro i j hi hj hij
    obtain ⟨a, ha⟩ := rd_isSome (v := p) (i := i) (by omega)
    obtain ⟨b, hb⟩ := rd_isSome (v := p) (i := j) (by omega)
    have h1 := h i a ha
    have h2 := h j b hb
    rw [rd_lt hi, rd_lt (hplt i a ha)] at h1
    rw [rd_lt hj, rd_lt (hplt j b hb)] at h2
    injection h1 with h1
    injection h2 with h2
    rw [h1, h2]
    exact hp.2.2 i j a b _ _ hij ha hb (rd_map (rd_lt (hplt i a ha))) (rd_map (rd_lt (hplt j b hb)))

end RK
