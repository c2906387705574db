import Verif.Model.BitVector
import Mathlib.Data.List.Basic
import Mathlib.Tactic.Ring
/-! Refinement of `BitVector` to lists of booleans. -/
namespace RK
namespace BitVector

/-! ### Words -/

def wordAt (ws : List Word) (i : Nat) : Word := (rd ws i).getD 0

def bit (ws : List Word) (x : Nat) : Bool := (wordAt ws (x / 64)).getLsbD (x % 64)

theorem rd_wordAt {ws : List Word} {i : Nat} (h : i < ws.length) : rd ws i = some (wordAt ws i) := by
  obtain ⟨w, hw⟩ := rd_isSome h
  simp [wordAt, hw]

theorem wordAt_ge {ws : List Word} {i : Nat} (h : ws.length ≤ i) : wordAt ws i = 0 := by
  have : rd ws i = none := by simp only [rd]; exact List.getElem?_eq_none h
  simp [wordAt, this]

theorem wordAt_set {ws : List Word} {i j : Nat} {w : Word} (h : i < ws.length) :
    wordAt (ws.set i w) j = if j = i then w else wordAt ws j := by
  unfold wordAt; rw [rd_set h]; split <;> rfl

theorem wordAt_replicate {n i : Nat} {w : Word} : wordAt (List.replicate n w) i =
    if i < n then w else 0 := by
  by_cases h : i < n
  · rw [if_pos h]; unfold wordAt; rw [rd_replicate h]; rfl
  · rw [if_neg h, wordAt_ge (by simp; omega)]

theorem bit_ge {ws : List Word} {x : Nat} (h : 64 * ws.length ≤ x) : bit ws x = false := by
  unfold bit; rw [wordAt_ge (by omega)]; simp

theorem bit_word {ws : List Word} {i b : Nat} (hb : b < 64) :
    bit ws (64 * i + b) = (wordAt ws i).getLsbD b := by
  unfold bit
  rw [show (64 * i + b) / 64 = i by omega, show (64 * i + b) % 64 = b by omega]

theorem one_shift_getLsbD {b c : Nat} (hb : b < 64) :
    (1#64 <<< b).getLsbD c = decide (c = b) := by
  rw [← BitVec.twoPow_eq, BitVec.getLsbD_twoPow]
  simp [hb, eq_comm]

theorem boolWord_shift_getLsbD {v : Bool} {b c : Nat} (hb : b < 64) :
    (boolWord v <<< b).getLsbD c = (v && decide (c = b)) := by
  cases v with
  | true => simp only [boolWord, if_true, one_shift_getLsbD hb, Bool.true_and]
  | false => simp [boolWord]

theorem and_shift_ne {d : Word} {b : Nat} (_hb : b < 64) :
    ((d &&& (1#64 <<< b)) != 0) = d.getLsbD b := by
  rw [← BitVec.twoPow_eq, BitVec.and_twoPow]
  cases h : d.getLsbD b with
  | true =>
    simp only [if_true, bne_iff_ne, ne_eq]
    intro h0
    have : (BitVec.twoPow 64 b).getLsbD b = true := by rw [BitVec.getLsbD_twoPow]; simp [_hb]
    rw [h0] at this
    simp at this
  | false => simp

theorem mask_getLsbD {x b : Nat} (hx : x < 64) (hb : b < 64) :
    ((1#64 <<< x) - 1#64).getLsbD b = decide (b < x) := by
  have h1 : ((1#64 <<< x) - 1#64).toNat = 2 ^ x - 1 := by
    rw [← BitVec.twoPow_eq, BitVec.toNat_sub, BitVec.toNat_twoPow_of_lt hx]
    have : 2 ^ x ≤ 2 ^ 63 := Nat.pow_le_pow_right (by omega) (by omega)
    have h0 : 1 ≤ 2 ^ x := Nat.one_le_two_pow
    simp only [BitVec.toNat_ofNat]
    norm_num at this ⊢
    omega
  rw [← BitVec.testBit_toNat, h1, Nat.testBit_two_pow_sub_one]

/-! ### Loops -/

theorem mapWords_spec {lo hi : Nat} {ws : List Word} {f : Nat → Word → Option Word}
    (g : Nat → Word → Word) (h1 : lo ≤ hi) (h2 : hi ≤ ws.length)
    (hf : ∀ i w, lo ≤ i → i < hi → f i w = some (g i w)) :
    ∃ ws', mapWords lo hi ws f = some ws' ∧ ws'.length = ws.length ∧
      ∀ i, wordAt ws' i = if lo ≤ i ∧ i < hi then g i (wordAt ws i) else wordAt ws i := by
  unfold mapWords
  obtain ⟨ws', e, h3, h4⟩ := forRange_inv (lo := lo) (hi := hi) (s := ws)
    (f := fun ws i => (rd ws i).bind fun w => (f i w).bind fun w' => wr ws i w')
    (fun k ws' => ws'.length = ws.length ∧
      ∀ i, wordAt ws' i = if lo ≤ i ∧ i < k then g i (wordAt ws i) else wordAt ws i) h1
    ⟨rfl, by intro i; rw [if_neg (by omega)]⟩
    (by
      rintro k ws' hk1 hk2 ⟨hl, hv⟩
      have hlt : k < ws'.length := by omega
      refine ⟨ws'.set k (g k (wordAt ws' k)), ?_, by simpa using hl, ?_⟩
      · simp only [rd_wordAt hlt, Option.bind_some, hf k _ hk1 hk2, wr_lt hlt]
      · intro i
        have hk := hv k
        rw [if_neg (by omega)] at hk
        rw [wordAt_set hlt, hk]
        by_cases hik : i = k
        · subst hik; rw [if_pos rfl, if_pos (by omega)]
        · rw [if_neg hik, hv i]
          by_cases hc : lo ≤ i ∧ i < k
          · rw [if_pos hc, if_pos (by omega)]
          · rw [if_neg hc, if_neg (by omega)])
  exact ⟨ws', e, h3, h4⟩

theorem foldLanes_or {lo hi : Nat} {acc : List Word} {f : Nat → Word → Option Word}
    (h : Nat → Word) (h1 : lo ≤ hi) (hl : acc.length = 8)
    (hf : ∀ i a, lo ≤ i → i < hi → f i a = some (a ||| h i)) :
    ∃ acc', foldLanes lo hi acc f = some acc' ∧ acc'.length = 8 ∧
      ∀ k b, k < 8 → ((wordAt acc' k).getLsbD b = true ↔
        (wordAt acc k).getLsbD b = true ∨ ∃ i, lo ≤ i ∧ i < hi ∧ i % 8 = k ∧ (h i).getLsbD b = true) := by
  unfold foldLanes
  obtain ⟨acc', e, h3, h4⟩ := forRange_inv (lo := lo) (hi := hi) (s := acc)
    (f := fun acc i => (rd acc (i % 8)).bind fun a => (f i a).bind fun a' => wr acc (i % 8) a')
    (fun n acc' => acc'.length = 8 ∧
      ∀ k b, k < 8 → ((wordAt acc' k).getLsbD b = true ↔
        (wordAt acc k).getLsbD b = true ∨
          ∃ i, lo ≤ i ∧ i < n ∧ i % 8 = k ∧ (h i).getLsbD b = true)) h1
    ⟨hl, by
      intro k b _
      constructor
      · exact Or.inl
      · rintro (h | ⟨i, h, h', _⟩)
        · exact h
        · omega⟩
    (by
      rintro n acc' hn1 hn2 ⟨hl, hv⟩
      have hlt : n % 8 < acc'.length := by omega
      refine ⟨acc'.set (n % 8) (wordAt acc' (n % 8) ||| h n), ?_, by simpa using hl, ?_⟩
      · simp only [rd_wordAt hlt, Option.bind_some, hf n _ hn1 hn2, wr_lt hlt]
      · intro k b hk
        rw [wordAt_set hlt]
        by_cases hkn : k = n % 8
        · rw [if_pos hkn, BitVec.getLsbD_or, Bool.or_eq_true, ← hkn, hv k b hk]
          constructor
          · rintro ((h | ⟨i, a, b', c, d⟩) | h)
            · exact Or.inl h
            · exact Or.inr ⟨i, a, by omega, c, d⟩
            · exact Or.inr ⟨n, hn1, by omega, by omega, h⟩
          · rintro (h | ⟨i, a, b', c, d⟩)
            · exact Or.inl (Or.inl h)
            · by_cases hin : i = n
              · subst hin; exact Or.inr d
              · exact Or.inl (Or.inr ⟨i, a, by omega, c, d⟩)
        · rw [if_neg hkn, hv k b hk]
          constructor
          · rintro (h | ⟨i, a, b', c, d⟩)
            · exact Or.inl h
            · exact Or.inr ⟨i, a, by omega, c, d⟩
          · rintro (h | ⟨i, a, b', c, d⟩)
            · exact Or.inl h
            · exact Or.inr ⟨i, a, by omega, c, d⟩)
  exact ⟨acc', e, h3, h4⟩

theorem foldLanes_and {lo hi : Nat} {acc : List Word} {f : Nat → Word → Option Word}
    (h : Nat → Word) (h1 : lo ≤ hi) (hl : acc.length = 8)
    (hf : ∀ i a, lo ≤ i → i < hi → f i a = some (a &&& h i)) :
    ∃ acc', foldLanes lo hi acc f = some acc' ∧ acc'.length = 8 ∧
      ∀ k b, k < 8 → ((wordAt acc' k).getLsbD b = true ↔
        (wordAt acc k).getLsbD b = true ∧
          ∀ i, lo ≤ i → i < hi → i % 8 = k → (h i).getLsbD b = true) := by
  unfold foldLanes
  obtain ⟨acc', e, h3, h4⟩ := forRange_inv (lo := lo) (hi := hi) (s := acc)
    (f := fun acc i => (rd acc (i % 8)).bind fun a => (f i a).bind fun a' => wr acc (i % 8) a')
    (fun n acc' => acc'.length = 8 ∧
      ∀ k b, k < 8 → ((wordAt acc' k).getLsbD b = true ↔
        (wordAt acc k).getLsbD b = true ∧
          ∀ i, lo ≤ i → i < n → i % 8 = k → (h i).getLsbD b = true)) h1
    ⟨hl, by
      intro k b _
      constructor
      · intro h; exact ⟨h, fun i _ _ => by omega⟩
      · exact fun h => h.1⟩
    (by
      rintro n acc' hn1 hn2 ⟨hl, hv⟩
      have hlt : n % 8 < acc'.length := by omega
      refine ⟨acc'.set (n % 8) (wordAt acc' (n % 8) &&& h n), ?_, by simpa using hl, ?_⟩
      · simp only [rd_wordAt hlt, Option.bind_some, hf n _ hn1 hn2, wr_lt hlt]
      · intro k b hk
        rw [wordAt_set hlt]
        by_cases hkn : k = n % 8
        · rw [if_pos hkn, BitVec.getLsbD_and, Bool.and_eq_true, ← hkn, hv k b hk]
          constructor
          · rintro ⟨⟨h1, h2⟩, h3⟩
            refine ⟨h1, ?_⟩
            intro i a b' c
            by_cases hin : i = n
            · subst hin; exact h3
            · exact h2 i a (by omega) c
          · rintro ⟨h1, h2⟩
            exact ⟨⟨h1, fun i a b' c => h2 i a (by omega) c⟩, h2 n hn1 (by omega) (by omega)⟩
        · rw [if_neg hkn, hv k b hk]
          constructor
          · rintro ⟨h1, h2⟩
            refine ⟨h1, ?_⟩
            intro i a b' c
            exact h2 i a (by omega) c
          · rintro ⟨h1, h2⟩
            exact ⟨h1, fun i a b' c => h2 i a (by omega) c⟩)
  exact ⟨acc', e, h3, h4⟩

theorem allOnes_bit {b : Nat} (hb : b < 64) : (BitVec.allOnes 64).getLsbD b = true := by
  rw [BitVec.getLsbD_allOnes]; exact decide_eq_true hb

theorem word_ne_zero {w : Word} : w ≠ 0 ↔ ∃ b, b < 64 ∧ w.getLsbD b = true := by
  constructor
  · intro h
    by_contra hc
    apply h
    apply BitVec.eq_of_getLsbD_eq
    intro i hi
    have : ¬ (w.getLsbD i = true) := fun hh => hc ⟨i, hi, hh⟩
    simpa using this
  · rintro ⟨b, _, hb⟩ h0
    rw [h0] at hb; simp at hb

theorem word_allOnes {w : Word} : w = BitVec.allOnes 64 ↔ ∀ b, b < 64 → w.getLsbD b = true := by
  constructor
  · rintro rfl b hb; exact allOnes_bit hb
  · intro h
    apply BitVec.eq_of_getLsbD_eq
    intro i hi
    rw [h i hi, allOnes_bit hi]

theorem isAnyBitSet_spec {u : List Word} (hl : u.length = 8) :
    ∃ r, isAnyBitSet u = some r ∧
      (r = true ↔ ∃ k b, k < 8 ∧ b < 64 ∧ (wordAt u k).getLsbD b = true) := by
  unfold isAnyBitSet
  have hr : ∀ k, k < 8 → rd u k = some (wordAt u k) := fun k hk => rd_wordAt (by omega)
  simp only [hr 0 (by omega), hr 1 (by omega), hr 2 (by omega), hr 3 (by omega), hr 4 (by omega),
    hr 5 (by omega), hr 6 (by omega), hr 7 (by omega), Option.bind_eq_bind, Option.bind_some]
  refine ⟨_, rfl, ?_⟩
  rw [bne_iff_ne, word_ne_zero]
  constructor
  · rintro ⟨b, hb, h⟩
    simp only [BitVec.getLsbD_or, Bool.or_eq_true] at h
    rcases h with ((h | h) | (h | h)) | ((h | h) | (h | h)) <;>
      exact ⟨_, b, by omega, hb, h⟩
  · rintro ⟨k, b, hk, hb, h⟩
    refine ⟨b, hb, ?_⟩
    simp only [BitVec.getLsbD_or, Bool.or_eq_true]
    have : k = 0 ∨ k = 1 ∨ k = 2 ∨ k = 3 ∨ k = 4 ∨ k = 5 ∨ k = 6 ∨ k = 7 := by omega
    rcases this with rfl | rfl | rfl | rfl | rfl | rfl | rfl | rfl <;> simp [h]

theorem areAllBitsSet_spec {u : List Word} (hl : u.length = 8) :
    ∃ r, areAllBitsSet u = some r ∧
      (r = true ↔ ∀ k b, k < 8 → b < 64 → (wordAt u k).getLsbD b = true) := by
  unfold areAllBitsSet
  have hr : ∀ k, k < 8 → rd u k = some (wordAt u k) := fun k hk => rd_wordAt (by omega)
  simp only [hr 0 (by omega), hr 1 (by omega), hr 2 (by omega), hr 3 (by omega), hr 4 (by omega),
    hr 5 (by omega), hr 6 (by omega), hr 7 (by omega), Option.bind_eq_bind, Option.bind_some]
  refine ⟨_, rfl, ?_⟩
  rw [beq_iff_eq, word_allOnes]
  constructor
  · intro h k b hk hb
    have h := h b hb
    simp only [BitVec.getLsbD_and, Bool.and_eq_true] at h
    have : k = 0 ∨ k = 1 ∨ k = 2 ∨ k = 3 ∨ k = 4 ∨ k = 5 ∨ k = 6 ∨ k = 7 := by omega
    rcases this with rfl | rfl | rfl | rfl | rfl | rfl | rfl | rfl <;> simp [h]
  · intro h b hb
    simp only [BitVec.getLsbD_and, Bool.and_eq_true]
    exact ⟨⟨⟨h 0 b (by omega) hb, h 1 b (by omega) hb⟩, h 4 b (by omega) hb, h 5 b (by omega) hb⟩,
      ⟨h 2 b (by omega) hb, h 3 b (by omega) hb⟩, h 6 b (by omega) hb, h 7 b (by omega) hb⟩

theorem padLoop_spec : ∀ {fuel : Nat} {u : List Word} {i x : Nat}, u.length = 8 →
    64 * i + x < 512 → x / 64 < fuel → (∀ k, i ≤ k → wordAt u k = 0) →
    ∃ m, padLoop fuel u i x = some m ∧ m.length = 8 ∧
      ∀ k b, b < 64 → (wordAt m k).getLsbD b =
        if k < i then (wordAt u k).getLsbD b else decide (64 * k + b < 64 * i + x)
  | 0, _, _, _, _, _, hf, _ => by omega
  | fuel + 1, u, i, x, hl, hx, hf, h0 => by
    unfold padLoop
    by_cases h64 : x ≥ 64
    · rw [if_pos h64]
      have hlt : i < u.length := by omega
      simp only [wr_lt hlt, Option.bind_eq_bind, Option.bind_some]
      obtain ⟨m, e, h1, h2⟩ := padLoop_spec (fuel := fuel) (u := u.set i (BitVec.allOnes 64))
        (i := i + 1) (x := x - 64) (by simpa using hl) (by omega) (by omega)
        (by intro k hk; rw [wordAt_set hlt, if_neg (by omega)]; exact h0 k (by omega))
      refine ⟨m, e, h1, ?_⟩
      intro k b hb
      rw [h2 k b hb, wordAt_set hlt]
      by_cases hk : k < i
      · rw [if_pos (by omega), if_neg (by omega), if_pos hk]
      · rw [if_neg hk]
        by_cases hki : k = i
        · subst hki
          rw [if_pos (by omega), if_pos rfl, allOnes_bit hb]
          exact (decide_eq_true (by omega)).symm
        · rw [if_neg (by omega)]
          congr 1
          exact propext (by omega)
    · rw [if_neg h64]
      by_cases hx0 : x ≠ 0
      · rw [if_pos hx0]
        have hlt : i < u.length := by omega
        refine ⟨_, wr_lt hlt, by simpa using hl, ?_⟩
        intro k b hb
        rw [wordAt_set hlt]
        by_cases hki : k = i
        · subst hki
          rw [if_pos rfl, if_neg (by omega), mask_getLsbD (by omega) hb]
          congr 1
          exact propext (by omega)
        · rw [if_neg hki]
          by_cases hk : k < i
          · rw [if_pos hk]
          · rw [if_neg hk, h0 k (by omega)]
            simp; omega
      · rw [if_neg hx0]
        refine ⟨u, rfl, hl, ?_⟩
        intro k b hb
        by_cases hk : k < i
        · rw [if_pos hk]
        · rw [if_neg hk, h0 k (by omega)]
          simp; omega

theorem paddingMask_spec (size : Nat) : ∃ m, paddingMask size = some m ∧ m.length = 8 ∧
    ∀ k b, b < 64 → (wordAt m k).getLsbD b = decide (64 * k + b < size % 512) := by
  obtain ⟨m, e, h1, h2⟩ := padLoop_spec (fuel := 9) (u := List.replicate 8 0) (i := 0)
    (x := size % 512) (by simp) (by omega) (by omega)
    (by intro k _; rw [wordAt_replicate]; split <;> rfl)
  refine ⟨m, e, h1, ?_⟩
  intro k b hb
  rw [h2 k b hb, if_neg (by omega)]
  congr 1
  exact propext (by omega)

theorem v8Count_eq {n : Nat} (h : n + 511 < u64) : v8Count n = (n + 511) / 512 := by
  unfold v8Count; rw [Nat.mod_eq_of_lt h]

/-! ### Shape and padding -/

/-- the array has the size demanded by `size_` -/
structure Shape (v : BitVector) : Prop where
  bound : v.size + 511 < u64
  len : v.words.length = u64Count v.size

theorem Shape.len_eq {v : BitVector} (h : Shape v) : v.words.length = 8 * ((v.size + 511) / 512) := by
  rw [h.len, u64Count, v8Count_eq h.bound]; omega

theorem assertPad_ok {v : BitVector} (h : Shape v) (hp : ∀ x, v.size ≤ x → bit v.words x = false) :
    assertPad v = some () := by
  unfold assertPad arePaddingZero
  by_cases h512 : v.size % 512 = 0
  · rw [if_pos h512]; rfl
  · rw [if_neg h512]
    obtain ⟨m, e, hm, hb⟩ := paddingMask_spec v.size
    have hl := h.len_eq
    obtain ⟨x, e2, hx, hxw⟩ := mapWords_spec (lo := 0) (hi := 8) (ws := m)
      (f := fun i m => (rd v.words (8 * (v.size / 512) + i)).map fun w => w &&& ~~~m)
      (fun i m => wordAt v.words (8 * (v.size / 512) + i) &&& ~~~m) (by omega) (by omega)
      (by intro i w _ hi; rw [rd_wordAt (by omega)]; rfl)
    obtain ⟨r, e3, hr⟩ := isAnyBitSet_spec (u := x) (by omega)
    have hrf : r = false := by
      by_contra hc
      obtain ⟨k, b, hk, hb', ht⟩ := hr.1 (by simpa using hc)
      rw [hxw, if_pos (by omega), BitVec.getLsbD_and, BitVec.getLsbD_not, hb k b hb', ← bit_word hb'] at ht
      simp only [Bool.and_eq_true, Bool.not_eq_true', decide_eq_false_iff_not] at ht
      obtain ⟨h1, _, h2⟩ := ht
      rw [hp _ (by omega)] at h1
      cases h1
    simp only [e, e2, e3, Option.bind_eq_bind, Option.bind_some, hrf, Bool.not_false, check_true]

theorem words_some {ws : List Word} {n : Nat} : (⟨some ws, n⟩ : BitVector).words = ws := rfl

theorem resetPadding_spec {v : BitVector} (h : Shape v) :
    ∃ v', resetPadding v = some v' ∧ v'.size = v.size ∧ Shape v' ∧
      ∀ x, bit v'.words x = (bit v.words x && decide (x < v.size)) := by
  have hl := h.len_eq
  unfold resetPadding
  by_cases h512 : v.size % 512 = 0
  · rw [if_neg (by omega)]
    have hbit : ∀ x, v.size ≤ x → bit v.words x = false := fun x hx => bit_ge (by omega)
    simp only [Option.bind_eq_bind, Option.bind_some, assertPad_ok h hbit]
    refine ⟨v, rfl, rfl, h, ?_⟩
    intro x
    by_cases hx : x < v.size
    · simp [hx]
    · simp [hx, hbit x (by omega)]
  · rw [if_pos h512]
    obtain ⟨m, e, hm, hb⟩ := paddingMask_spec v.size
    obtain ⟨ws, e2, hws, hww⟩ := mapWords_spec (lo := 8 * (v.size / 512))
      (hi := 8 * (v.size / 512) + 8) (ws := v.words)
      (f := fun i w => (rd m (i - 8 * (v.size / 512))).map fun m => w &&& m)
      (fun i w => w &&& wordAt m (i - 8 * (v.size / 512))) (by omega) (by omega)
      (by intro i w _ _; rw [rd_wordAt (by omega)]; rfl)
    have hsh : Shape ⟨some ws, v.size⟩ := ⟨h.bound, by rw [words_some, hws, h.len]⟩
    have hbits : ∀ x, bit ws x = (bit v.words x && decide (x < v.size)) := by
      intro x
      unfold bit
      rw [hww]
      by_cases hc : 8 * (v.size / 512) ≤ x / 64 ∧ x / 64 < 8 * (v.size / 512) + 8
      · rw [if_pos hc, BitVec.getLsbD_and, hb _ _ (by omega)]
        congr 2
        exact propext (by omega)
      · rw [if_neg hc]
        by_cases hx : x < v.size
        · simp [hx]
        · rw [wordAt_ge (by omega)]; simp
    simp only [e, e2, Option.bind_eq_bind, Option.bind_some]
    rw [assertPad_ok hsh (by intro x hx; rw [words_some, hbits]; simp; intro _; exact hx)]
    exact ⟨_, rfl, rfl, hsh, hbits⟩

/-! ### Refinement to lists of booleans -/

/-- bit `x` of the abstract list -/
def at' (B : List Bool) (x : Nat) : Bool := B.getD x false

theorem at_lt {B : List Bool} {x : Nat} (h : x < B.length) : at' B x = B[x] := by
  unfold at'; rw [List.getD_eq_getElem?_getD, List.getElem?_eq_getElem h]; rfl

theorem at_ge {B : List Bool} {x : Nat} (h : B.length ≤ x) : at' B x = false := by
  unfold at'; rw [List.getD_eq_getElem?_getD, List.getElem?_eq_none h]; rfl

theorem at_eq_true_lt {B : List Bool} {x : Nat} (h : at' B x = true) : x < B.length := by
  by_contra hc
  rw [at_ge (by omega)] at h; cases h

theorem at_set {B : List Bool} {x y : Nat} {b : Bool} (h : x < B.length) :
    at' (B.set x b) y = if y = x then b else at' B y := by
  unfold at'
  rw [List.getD_eq_getElem?_getD, List.getD_eq_getElem?_getD, List.getElem?_set]
  by_cases hxy : y = x
  · subst hxy; simp [h]
  · simp [hxy, Ne.symm hxy]

theorem at_replicate {n x : Nat} {b : Bool} : at' (List.replicate n b) x = (decide (x < n) && b) := by
  by_cases h : x < n
  · rw [at_lt (by simpa using h)]; simp [h]
  · rw [at_ge (by simpa using h)]; simp [h]

theorem list_ext_at {B C : List Bool} (hl : B.length = C.length) (h : ∀ x, x < B.length → at' B x = at' C x) :
    B = C := by
  apply List.ext_getElem hl
  intro x h1 h2
  have := h x h1
  rw [at_lt h1, at_lt h2] at this
  exact this

/-- `v` holds the bits `B`. -/
structure Rep (v : BitVector) (B : List Bool) : Prop where
  shape : Shape v
  size : v.size = B.length
  bits : ∀ x, bit v.words x = at' B x

variable {v o : BitVector} {B C : List Bool}

theorem Rep.pad (h : Rep v B) : assertPad v = some () :=
  assertPad_ok h.shape (fun x hx => by rw [h.bits, at_ge (by rw [← h.size]; exact hx)])

theorem rep_null : Rep null [] :=
  ⟨⟨by simp [null, u64], rfl⟩, rfl, fun x => by simp [null, words, bit, wordAt, rd, at']⟩

theorem Rep.word_lt (h : Rep v B) {x : Nat} (hx : x < B.length) : x / 64 < v.words.length := by
  have := h.shape.len_eq
  have := h.size
  omega

theorem Rep.isSet (h : Rep v B) {x : Nat} (hx : x < B.length) : v.isSet x = some (at' B x) := by
  unfold BitVector.isSet
  have c : decide (x < v.size) = true := by simp [h.size, hx]
  simp only [c, check_true, Option.bind_eq_bind, Option.bind_some, rd_wordAt (h.word_lt hx)]
  rw [and_shift_ne (by omega), ← h.bits]
  rfl

/-- any update of a single word that changes one bit -/
theorem Rep.upd (h : Rep v B) {x : Nat} (hx : x < B.length) {d : Word} {b : Bool}
    (hd : ∀ c, c < 64 → d.getLsbD c = if c = x % 64 then b else (wordAt v.words (x / 64)).getLsbD c) :
    Rep { v with data := some (v.words.set (x / 64) d) } (B.set x b) := by
  have hw := h.word_lt hx
  refine ⟨⟨h.shape.bound, by rw [words_some]; simpa using h.shape.len⟩, by simpa using h.size, ?_⟩
  intro y
  rw [words_some, at_set hx, ← h.bits]
  unfold bit
  rw [wordAt_set hw]
  by_cases hyx : y / 64 = x / 64
  · rw [if_pos hyx, hd _ (by omega), hyx]
    by_cases hxy : y = x
    · subst hxy; simp
    · rw [if_neg hxy, if_neg (by omega)]
  · rw [if_neg hyx, if_neg (by intro hh; exact hyx (by rw [hh]))]

theorem Rep.set (h : Rep v B) {x : Nat} (hx : x < B.length) :
    ∃ v', v.set x = some v' ∧ Rep v' (B.set x true) := by
  unfold BitVector.set
  have c : decide (x < v.size) = true := by simp [h.size, hx]
  have hw := h.word_lt hx
  simp only [c, check_true, Option.bind_eq_bind, Option.bind_some, rd_wordAt hw, wr_lt hw]
  refine ⟨_, rfl, h.upd hx ?_⟩
  intro c _
  rw [BitVec.getLsbD_or, one_shift_getLsbD (by omega)]
  by_cases hc : c = x % 64 <;> simp [hc]

theorem Rep.setIf (h : Rep v B) {x : Nat} (hx : x < B.length) (b : Bool) :
    ∃ v', v.setIf x b = some v' ∧ Rep v' (B.set x (at' B x || b)) := by
  unfold BitVector.setIf
  have c : decide (x < v.size) = true := by simp [h.size, hx]
  have hw := h.word_lt hx
  simp only [c, check_true, Option.bind_eq_bind, Option.bind_some, rd_wordAt hw, wr_lt hw]
  refine ⟨_, rfl, h.upd hx ?_⟩
  intro c _
  rw [BitVec.getLsbD_or, boolWord_shift_getLsbD (by omega)]
  by_cases hc : c = x % 64
  · subst hc
    rw [if_pos rfl, ← h.bits]; simp [bit]
  · simp [hc]

theorem Rep.setTo (h : Rep v B) {x : Nat} (hx : x < B.length) (b : Bool) :
    ∃ v', v.setTo x b = some v' ∧ Rep v' (B.set x b) := by
  unfold BitVector.setTo
  have c : decide (x < v.size) = true := by simp [h.size, hx]
  have hw := h.word_lt hx
  simp only [c, check_true, Option.bind_eq_bind, Option.bind_some, rd_wordAt hw, wr_lt hw]
  refine ⟨_, rfl, h.upd hx ?_⟩
  intro c hc64
  rw [BitVec.getLsbD_or, boolWord_shift_getLsbD (by omega), BitVec.getLsbD_and, BitVec.getLsbD_not,
    one_shift_getLsbD (by omega)]
  by_cases hc : c = x % 64 <;> simp [hc, hc64]

theorem Rep.reset (h : Rep v B) {x : Nat} (hx : x < B.length) :
    ∃ v', v.reset x = some v' ∧ Rep v' (B.set x false) := by
  unfold BitVector.reset
  have c : decide (x < v.size) = true := by simp [h.size, hx]
  have hw := h.word_lt hx
  simp only [c, check_true, Option.bind_eq_bind, Option.bind_some, rd_wordAt hw, wr_lt hw]
  refine ⟨_, rfl, h.upd hx ?_⟩
  intro c hc64
  rw [BitVec.getLsbD_and, BitVec.getLsbD_not, one_shift_getLsbD (by omega)]
  by_cases hc : c = x % 64 <;> simp [hc, hc64]

theorem Rep.toggle (h : Rep v B) {x : Nat} (hx : x < B.length) :
    ∃ v', v.toggle x = some v' ∧ Rep v' (B.set x (!at' B x)) := by
  unfold BitVector.toggle
  have c : decide (x < v.size) = true := by simp [h.size, hx]
  have hw := h.word_lt hx
  simp only [c, check_true, Option.bind_eq_bind, Option.bind_some, rd_wordAt hw, wr_lt hw]
  refine ⟨_, rfl, h.upd hx ?_⟩
  intro c _
  rw [BitVec.getLsbD_xor, one_shift_getLsbD (by omega)]
  by_cases hc : c = x % 64
  · subst hc
    rw [if_pos rfl, ← h.bits]; simp [bit]
  · simp [hc]

/-! ### Bulk operations -/

theorem withWords_words {ws : List Word} (hl : ws.length = v.words.length) :
    (v.withWords ws).words = ws ∧ (v.withWords ws).size = v.size := by
  unfold withWords words
  cases hd : v.data with
  | none =>
    simp [words, hd] at hl ⊢
    exact hl
  | some _ => simp

theorem Shape.withWords (h : Shape v) {ws : List Word} (hl : ws.length = v.words.length) :
    Shape (v.withWords ws) := by
  obtain ⟨h1, h2⟩ := withWords_words hl
  exact ⟨by rw [h2]; exact h.bound, by rw [h1, h2, hl, h.len]⟩

/-- all words are mapped by `g` -/
theorem Shape.mapAll (h : Shape v) {f : Nat → Word → Option Word} (g : Nat → Word → Word)
    (hf : ∀ i w, i < v.words.length → f i w = some (g i w)) :
    ∃ ws, mapWords 0 (u64Count v.size) v.words f = some ws ∧ ws.length = v.words.length ∧
      ∀ i, wordAt ws i = if i < v.words.length then g i (wordAt v.words i) else 0 := by
  obtain ⟨ws, e, h1, h2⟩ := mapWords_spec (lo := 0) (hi := u64Count v.size) (ws := v.words) g
    (by omega) (by rw [h.len]) (fun i w _ hi => hf i w (by rw [h.len]; exact hi))
  refine ⟨ws, e, h1, ?_⟩
  intro i
  rw [h2]
  by_cases hi : i < v.words.length
  · rw [if_pos hi, if_pos (by rw [← h.len]; exact ⟨by omega, hi⟩)]
  · rw [if_neg hi, if_neg (by rw [← h.len]; omega), wordAt_ge (by omega)]

theorem Rep.setAllTo (h : Rep v B) (b : Bool) :
    ∃ v', v.setAllTo b = some v' ∧ Rep v' (List.replicate B.length b) := by
  unfold BitVector.setAllTo
  obtain ⟨ws, e, hl, hw⟩ := h.shape.mapAll
    (f := fun _ _ => some (if b then BitVec.allOnes 64 else 0))
    (fun _ _ => if b then BitVec.allOnes 64 else 0) (fun _ _ _ => rfl)
  obtain ⟨h1, h2⟩ := withWords_words hl
  have hs := h.shape.withWords hl
  have hbit : ∀ x, bit ws x = (decide (x / 64 < v.words.length) && b) := by
    intro x
    unfold bit
    rw [hw]
    by_cases hx : x / 64 < v.words.length
    · cases b
      · simp
      · rw [if_pos hx, if_pos rfl, allOnes_bit (by omega)]; simp [hx]
    · simp [hx]
  have hlen := h.shape.len_eq
  have hsz := h.size
  simp only [e, Option.bind_eq_bind, Option.bind_some]
  cases b with
  | true =>
    simp only [if_true]
    obtain ⟨v', e', hs1, hs2, hb⟩ := resetPadding_spec hs
    have hrep : Rep v' (List.replicate B.length true) := by
      refine ⟨hs2, by rw [hs1, h2, hsz]; simp, ?_⟩
      intro x
      rw [hb, h1, h2, hbit, at_replicate, hsz]
      by_cases hx : x < B.length
      · simp [hx]; omega
      · simp [hx]
    simp only [e', Option.bind_some, hrep.pad]
    exact ⟨v', rfl, hrep⟩
  | false =>
    simp only [Bool.false_eq_true, if_false, Option.bind_some]
    have hrep : Rep (v.withWords ws) (List.replicate B.length false) := by
      refine ⟨hs, by rw [h2, hsz]; simp, ?_⟩
      intro x
      rw [h1, hbit, at_replicate]; simp
    rw [hrep.pad]
    exact ⟨_, rfl, hrep⟩

theorem Rep.setAll (h : Rep v B) :
    ∃ v', v.setAll = some v' ∧ Rep v' (List.replicate B.length true) := by
  obtain ⟨v', e, hr⟩ := h.setAllTo true
  refine ⟨v', ?_, hr⟩
  unfold BitVector.setAllTo at e
  unfold BitVector.setAll
  simp only [if_true, Option.bind_eq_bind] at e ⊢
  cases hm : mapWords 0 (u64Count v.size) v.words fun _ _ => some (BitVec.allOnes 64) with
  | none => rw [hm] at e; simp at e
  | some ws =>
    rw [hm] at e
    simp only [Option.bind_some] at e ⊢
    cases hp : (v.withWords ws).resetPadding with
    | none => rw [hp] at e; simp at e
    | some v2 =>
      rw [hp] at e
      simp only [Option.bind_some] at e
      cases ha : assertPad v2 with
      | none => rw [ha] at e; simp at e
      | some _ => rw [ha] at e; simpa using e

theorem Rep.resetAll (h : Rep v B) :
    ∃ v', v.resetAll = some v' ∧ Rep v' (List.replicate B.length false) := by
  obtain ⟨v', e, hr⟩ := h.setAllTo false
  refine ⟨v', ?_, hr⟩
  unfold BitVector.setAllTo at e
  unfold BitVector.resetAll
  simpa only [Bool.false_eq_true, if_false, Option.bind_eq_bind, Option.bind_some] using e

theorem Rep.inplaceNot (h : Rep v B) :
    ∃ v', v.inplaceNot = some v' ∧ Rep v' (B.map (!·)) := by
  unfold BitVector.inplaceNot
  obtain ⟨ws, e, hl, hw⟩ := h.shape.mapAll (f := fun _ w => some (~~~w)) (fun _ w => ~~~w)
    (fun _ _ _ => rfl)
  obtain ⟨h1, h2⟩ := withWords_words hl
  have hs := h.shape.withWords hl
  have hlen := h.shape.len_eq
  have hsz := h.size
  obtain ⟨v', e', hs1, hs2, hb⟩ := resetPadding_spec hs
  have hrep : Rep v' (B.map (!·)) := by
    refine ⟨hs2, by rw [hs1, h2, hsz]; simp, ?_⟩
    intro x
    rw [hb, h1, h2, hsz]
    by_cases hx : x < B.length
    · rw [at_lt (by simpa using hx)]
      have := h.bits x
      rw [at_lt hx] at this
      unfold bit at this ⊢
      rw [hw, if_pos (by omega), BitVec.getLsbD_not, this]
      simp [hx]; omega
    · rw [at_ge (by simpa using hx)]; simp [hx]
  simp only [h.pad, e, e', Option.bind_eq_bind, Option.bind_some, hrep.pad]
  exact ⟨v', rfl, hrep⟩

theorem Rep.bin (hv : Rep v B) (ho : Rep o C) (hlen : B.length = C.length)
    (wop : Word → Word → Word) (bop : Bool → Bool → Bool) (h00 : bop false false = false)
    (hop : ∀ a b : Word, ∀ i, i < 64 → (wop a b).getLsbD i = bop (a.getLsbD i) (b.getLsbD i)) :
    ∃ ws, mapWords 0 (u64Count v.size) v.words (fun i w => (rd o.words i).map fun u => wop w u)
      = some ws ∧ Rep (v.withWords ws) (List.zipWith bop B C) := by
  have hlo : o.words.length = v.words.length := by
    rw [hv.shape.len, ho.shape.len, hv.size, ho.size, hlen]
  obtain ⟨ws, e, hl, hw⟩ := hv.shape.mapAll (f := fun i w => (rd o.words i).map fun u => wop w u)
    (fun i w => wop w (wordAt o.words i)) (fun i w hi => by rw [rd_wordAt (by omega)]; rfl)
  obtain ⟨h1, h2⟩ := withWords_words hl
  refine ⟨ws, e, hv.shape.withWords hl, by rw [h2, hv.size]; simp [hlen], ?_⟩
  intro x
  have hb : bit ws x = bop (at' B x) (at' C x) := by
    rw [← hv.bits, ← ho.bits]
    unfold bit
    rw [hw]
    by_cases hx : x / 64 < v.words.length
    · rw [if_pos hx, hop _ _ _ (by omega)]
    · rw [if_neg hx, wordAt_ge (ws := v.words) (by omega), wordAt_ge (ws := o.words) (by omega)]
      simp [h00]
  rw [h1, hb]
  by_cases hx : x < B.length
  · rw [at_lt hx, at_lt (B := C) (by omega), at_lt (by simp; omega)]
    simp
  · rw [at_ge (by omega), at_ge (B := C) (by omega), at_ge (by simp; omega), h00]

theorem Rep.orEq (hv : Rep v B) (ho : Rep o C) (hlen : B.length = C.length) :
    ∃ v', v.orEq o = some v' ∧ Rep v' (List.zipWith (· || ·) B C) := by
  obtain ⟨ws, e, hr⟩ := hv.bin ho hlen (· ||| ·) (· || ·) rfl (fun a b i _ => BitVec.getLsbD_or)
  unfold BitVector.orEq
  have c : decide (v.size = o.size) = true := by simp [hv.size, ho.size, hlen]
  simp only [hv.pad, ho.pad, c, check_true, Option.bind_eq_bind, Option.bind_some, e, hr.pad]
  exact ⟨_, rfl, hr⟩

theorem Rep.xorEq (hv : Rep v B) (ho : Rep o C) (hlen : B.length = C.length) :
    ∃ v', v.xorEq o = some v' ∧ Rep v' (List.zipWith (· ^^ ·) B C) := by
  obtain ⟨ws, e, hr⟩ := hv.bin ho hlen (· ^^^ ·) (· ^^ ·) rfl (fun a b i _ => BitVec.getLsbD_xor)
  unfold BitVector.xorEq
  have c : decide (v.size = o.size) = true := by simp [hv.size, ho.size, hlen]
  simp only [hv.pad, ho.pad, c, check_true, Option.bind_eq_bind, Option.bind_some, e, hr.pad]
  exact ⟨_, rfl, hr⟩

theorem Rep.andEq (hv : Rep v B) (ho : Rep o C) (hlen : B.length = C.length) :
    ∃ v', v.andEq o = some v' ∧ Rep v' (List.zipWith (· && ·) B C) := by
  obtain ⟨ws, e, hr⟩ := hv.bin ho hlen (· &&& ·) (· && ·) rfl (fun a b i _ => BitVec.getLsbD_and)
  unfold BitVector.andEq
  have c : decide (v.size = o.size) = true := by simp [hv.size, ho.size, hlen]
  simp only [hv.pad, ho.pad, c, check_true, Option.bind_eq_bind, Option.bind_some, e, hr.pad]
  exact ⟨_, rfl, hr⟩

/-! ### Counting and comparing -/

theorem countP_range_add (f : Nat → Bool) (a b : Nat) :
    (List.range (a + b)).countP f = (List.range a).countP f + (List.range b).countP (fun i => f (a + i)) := by
  rw [List.range_add, List.countP_append, List.countP_map]
  rfl

theorem popcount_word {ws : List Word} {i : Nat} :
    popcount (wordAt ws i) = (List.range 64).countP (fun b => bit ws (64 * i + b)) := by
  unfold popcount
  apply List.countP_congr
  intro b hb
  simp only [List.mem_range] at hb
  rw [bit_word hb]

theorem countP_at (B : List Bool) (n : Nat) (hn : B.length ≤ n) :
    (List.range n).countP (at' B) = B.count true := by
  obtain ⟨k, rfl⟩ := Nat.exists_eq_add_of_le hn
  rw [countP_range_add]
  have h0 : (List.range k).countP (fun i => at' B (B.length + i)) = 0 := by
    rw [List.countP_eq_zero]
    intro i _
    rw [at_ge (by omega)]; simp
  rw [h0, Nat.add_zero]
  have : B = (List.range B.length).map (at' B) := by
    apply List.ext_getElem
    · simp
    · intro i h1 h2; simp [at_lt h1]
  conv => rhs; rw [this, List.count, List.countP_map]
  apply List.countP_congr
  intro i _
  simp

theorem Rep.populationCount (h : Rep v B) : v.populationCount = some (B.count true) := by
  unfold BitVector.populationCount
  simp only [h.pad, Option.bind_eq_bind, Option.bind_some]
  have hlen := h.shape.len
  obtain ⟨n, e, hn⟩ := forRange_inv (lo := 0) (hi := u64Count v.size) (s := 0)
    (f := fun n i => (rd v.words i).map fun w => n + popcount w)
    (fun i n => n = (List.range (64 * i)).countP (bit v.words)) (by omega) (by simp)
    (by
      rintro i n _ hi rfl
      refine ⟨_, by rw [rd_wordAt (by omega)]; rfl, ?_⟩
      rw [show 64 * (i + 1) = 64 * i + 64 by ring, countP_range_add, ← popcount_word])
  rw [e, hn]
  congr 1
  have hl := h.shape.len_eq
  have hs := h.size
  rw [← countP_at B (64 * u64Count v.size) (by omega)]
  apply List.countP_congr
  intro x _
  rw [h.bits]

theorem Rep.countFalse (h : Rep v B) : v.countFalse = some (B.count false) := by
  unfold BitVector.countFalse
  simp only [h.populationCount, Option.bind_eq_bind, Option.bind_some, h.size]
  congr 1
  have : ∀ B : List Bool, B.length - B.count true = B.count false := by
    intro B
    induction B with
    | nil => rfl
    | cons b B ih =>
      have := List.count_le_length (a := true) (l := B)
      cases b <;> simp <;> omega
  exact this B

theorem mem_true_iff {B : List Bool} : true ∈ B ↔ ∃ x, at' B x = true := by
  rw [List.mem_iff_getElem]
  constructor
  · rintro ⟨i, hi, h⟩; exact ⟨i, by rw [at_lt hi]; exact h⟩
  · rintro ⟨x, hx⟩
    have := at_eq_true_lt hx
    exact ⟨x, this, by rw [← at_lt this]; exact hx⟩

theorem Rep.isAnySet (h : Rep v B) : ∃ b, v.isAnySet = some b ∧ (b = true ↔ true ∈ B) := by
  unfold BitVector.isAnySet
  simp only [h.pad, Option.bind_eq_bind, Option.bind_some]
  by_cases h0 : v.size = 0
  · rw [if_pos h0]
    have : B = [] := by
      have := h.size; rw [h0] at this
      exact List.length_eq_zero_iff.1 this.symm
    exact ⟨false, rfl, by simp [this]⟩
  · rw [if_neg h0]
    have hlen := h.shape.len
    obtain ⟨x, e, hx, hb⟩ := foldLanes_or (lo := 0) (hi := u64Count v.size)
      (acc := List.replicate 8 0) (f := fun i a => (rd v.words i).map fun w => a ||| w)
      (wordAt v.words) (by omega) (by simp) (by
        intro i a _ hi; rw [rd_wordAt (by omega)]; rfl)
    obtain ⟨r, e2, hr⟩ := isAnyBitSet_spec hx
    simp only [e, e2, Option.bind_some]
    refine ⟨r, rfl, ?_⟩
    rw [hr, mem_true_iff]
    constructor
    · rintro ⟨k, b, hk, hb', ht⟩
      rcases (hb k b hk).1 ht with h1 | ⟨i, _, hi, _, hi2⟩
      · rw [wordAt_replicate] at h1
        split at h1 <;> simp at h1
      · exact ⟨64 * i + b, by rw [← h.bits, bit_word hb']; exact hi2⟩
    · rintro ⟨y, hy⟩
      have hlt := at_eq_true_lt hy
      rw [← h.bits] at hy
      have := h.word_lt hlt
      exact ⟨y / 64 % 8, y % 64, by omega, by omega, (hb _ _ (by omega)).2
        (Or.inr ⟨y / 64, by omega, by omega, rfl, hy⟩)⟩

theorem Rep.eq (hv : Rep v B) (ho : Rep o C) : ∃ b, v.eq o = some b ∧ (b = true ↔ B = C) := by
  unfold BitVector.eq
  simp only [hv.pad, ho.pad, Option.bind_eq_bind, Option.bind_some]
  by_cases hs : v.size = o.size
  · rw [if_neg (by simpa using hs)]
    have hlen := hv.shape.len
    have hlen2 := ho.shape.len
    rw [← hs] at hlen2
    have hBC : B.length = C.length := by rw [← hv.size, ← ho.size, hs]
    obtain ⟨x, e, hx, hb⟩ := foldLanes_or (lo := 0) (hi := u64Count v.size)
      (acc := List.replicate 8 0)
      (f := fun i a => (rd v.words i).bind fun w => (rd o.words i).map fun u => a ||| (w ^^^ u))
      (fun i => wordAt v.words i ^^^ wordAt o.words i) (by omega) (by simp) (by
        intro i a _ hi; rw [rd_wordAt (by omega), rd_wordAt (by omega)]; rfl)
    obtain ⟨r, e2, hr⟩ := isAnyBitSet_spec hx
    simp only [e, e2, Option.bind_some]
    refine ⟨!r, rfl, ?_⟩
    have key : r = true ↔ B ≠ C := by
      rw [hr]
      constructor
      · rintro ⟨k, b, hk, hb', ht⟩ hBeq
        rcases (hb k b hk).1 ht with h1 | ⟨i, _, hi, _, hi2⟩
        · rw [wordAt_replicate] at h1
          split at h1 <;> simp at h1
        · rw [BitVec.getLsbD_xor, ← bit_word hb', ← bit_word hb', hv.bits, ho.bits, hBeq] at hi2
          simp at hi2
      · intro hne
        by_contra hc
        apply hne
        apply list_ext_at hBC
        intro y hy
        by_contra hd
        apply hc
        have := hv.word_lt hy
        refine ⟨y / 64 % 8, y % 64, by omega, by omega, (hb _ _ (by omega)).2
          (Or.inr ⟨y / 64, by omega, by omega, rfl, ?_⟩)⟩
        rw [BitVec.getLsbD_xor]
        have h1 := hv.bits y
        have h2 := ho.bits y
        unfold bit at h1 h2
        rw [h1, h2]
        revert hd
        cases at' B y <;> cases at' C y <;> simp
    constructor
    · intro hr
      by_contra hne
      rw [key.2 hne] at hr; cases hr
    · intro heq
      cases r with
      | false => rfl
      | true => exact absurd heq (key.1 rfl)
  · rw [if_pos (by simpa using hs)]
    refine ⟨false, rfl, ?_⟩
    constructor
    · intro h; cases h
    · intro h; exfalso; apply hs; rw [hv.size, ho.size, h]

/-- `are_all_set` is right unless the size is a positive multiple of 512. -/
theorem Rep.areAllSet (h : Rep v B) (h512 : B.length % 512 ≠ 0 ∨ B.length = 0) :
    ∃ b, v.areAllSet = some b ∧ (b = true ↔ ∀ x ∈ B, x = true) := by
  unfold BitVector.areAllSet
  simp only [h.pad, Option.bind_eq_bind, Option.bind_some]
  by_cases h0 : v.size = 0
  · rw [if_pos h0]
    have : B = [] := by
      have := h.size; rw [h0] at this
      exact List.length_eq_zero_iff.1 this.symm
    exact ⟨true, rfl, by simp [this]⟩
  · rw [if_neg h0]
    have hsz := h.size
    have hle := h.shape.len_eq
    have hv8 := v8Count_eq h.shape.bound
    generalize hn : v8Count v.size - 1 = n
    have hn' : n = v.size / 512 := by omega
    obtain ⟨x1, e1, hx1, hb1⟩ := foldLanes_and (lo := 0) (hi := 8 * n)
      (acc := List.replicate 8 (BitVec.allOnes 64))
      (f := fun i a => (rd v.words i).map fun w => a &&& w)
      (wordAt v.words) (by omega) (by simp) (by
        intro i a _ hi; rw [rd_wordAt (by omega)]; rfl)
    obtain ⟨m, e2, hm, hmb⟩ := paddingMask_spec v.size
    obtain ⟨x2, e3, hx2, hb2⟩ := foldLanes_and (lo := 8 * n) (hi := 8 * n + 8) (acc := x1)
      (f := fun i a => (rd v.words i).bind fun w => (rd m (i % 8)).map fun m => a &&& (w ||| ~~~m))
      (fun i => wordAt v.words i ||| ~~~(wordAt m (i % 8))) (by omega) hx1 (by
        intro i a _ hi; rw [rd_wordAt (by omega), rd_wordAt (by omega)]; rfl)
    obtain ⟨r, e4, hr⟩ := areAllBitsSet_spec hx2
    simp only [e1, e2, e3, e4, Option.bind_some]
    refine ⟨r, rfl, ?_⟩
    rw [hr]
    constructor
    · intro hall y hy
      obtain ⟨x, hx, rfl⟩ := List.getElem_of_mem hy
      rw [← at_lt hx, ← h.bits]
      unfold bit
      have h2 := (hb2 (x / 64 % 8) (x % 64) (by omega)).1 (hall _ _ (by omega) (by omega))
      have h1 := (hb1 (x / 64 % 8) (x % 64) (by omega)).1 h2.1
      by_cases hxn : x / 64 < 8 * n
      · exact h1.2 (x / 64) (by omega) hxn rfl
      · have h3 := h2.2 (x / 64) (by omega) (by omega) rfl
        rw [BitVec.getLsbD_or, BitVec.getLsbD_not, hmb _ _ (by omega)] at h3
        have hlt : 64 * (x / 64 % 8) + x % 64 < v.size % 512 := by omega
        simpa [hlt] using h3
    · intro hall k b hk hb'
      rw [hb2 k b hk, hb1 k b hk]
      have hset : ∀ x, x < B.length → bit v.words x = true := by
        intro x hx; rw [h.bits, at_lt hx]; exact hall _ (List.getElem_mem _)
      refine ⟨⟨?_, ?_⟩, ?_⟩
      · rw [wordAt_replicate, if_pos hk]; exact allOnes_bit hb'
      · intro i _ hi _
        rw [← bit_word hb']
        exact hset _ (by omega)
      · intro i hi1 hi2 hik
        rw [BitVec.getLsbD_or, BitVec.getLsbD_not, hmb _ _ hb']
        by_cases hlt : 64 * (i % 8) + b < v.size % 512
        · rw [← bit_word hb', hset _ (by omega)]; rfl
        · simp [hlt, hb']

/-! ### Construction -/

theorem rep_newUninit {n : Nat} (hn : n + 511 < u64) (junk : Nat → Word) :
    ∃ v B, newUninit n junk = some v ∧ Rep v B ∧ B.length = n := by
  unfold newUninit
  by_cases h0 : n = 0
  · subst h0
    simp only [ne_eq, not_true_eq_false, if_false, Option.bind_eq_bind, Option.bind_some, rep_null.pad]
    exact ⟨null, [], rfl, rep_null, rfl⟩
  · rw [if_pos h0]
    have hs : Shape ⟨some ((List.range (u64Count n)).map junk), n⟩ :=
      ⟨hn, by rw [words_some]; simp⟩
    obtain ⟨v', e, h1, h2, h3⟩ := resetPadding_spec hs
    have h1' : v'.size = n := h1
    have hr : Rep v' ((List.range n).map (bit v'.words)) := by
      refine ⟨h2, by simpa using h1', ?_⟩
      intro x
      by_cases hx : x < n
      · rw [at_lt (by simpa using hx)]; simp
      · rw [at_ge (by simpa using hx), h3]; simp; intro _; omega
    simp only [e, Option.bind_eq_bind, Option.bind_some, hr.pad]
    exact ⟨v', _, rfl, hr, by simp⟩

theorem rep_new {n : Nat} (hn : n + 511 < u64) (b : Bool) :
    ∃ v, new n b = some v ∧ Rep v (List.replicate n b) ∧ (n ≠ 0 → v.data ≠ none) := by
  unfold new
  by_cases h0 : n = 0
  · subst h0
    simp only [ne_eq, not_true_eq_false, if_false, Option.bind_eq_bind, Option.bind_some, rep_null.pad]
    exact ⟨null, rfl, rep_null, by simp⟩
  · rw [if_pos h0]
    have hs : Shape ⟨some (List.replicate (u64Count n) (if b then BitVec.allOnes 64 else 0)), n⟩ :=
      ⟨hn, by rw [words_some]; simp⟩
    have hle := hs.len_eq
    rw [words_some] at hle
    simp only [List.length_replicate] at hle
    have hbit : ∀ x, bit (List.replicate (u64Count n) (if b then BitVec.allOnes 64 else 0)) x =
        (decide (x / 64 < u64Count n) && b) := by
      intro x
      unfold bit
      rw [wordAt_replicate]
      by_cases hx : x / 64 < u64Count n
      · cases b
        · simp
        · rw [if_pos hx, if_pos rfl, allOnes_bit (by omega)]; simp [hx]
      · simp [hx]
    cases b with
    | true =>
      simp only [if_true] at hs hbit ⊢
      obtain ⟨v', e, h1, h2, h3⟩ := resetPadding_spec hs
      have h1' : v'.size = n := h1
      have hr : Rep v' (List.replicate n true) := by
        refine ⟨h2, by simpa using h1', ?_⟩
        intro x
        rw [h3, words_some, hbit, at_replicate]
        by_cases hx : x < n
        · simp [hx]; omega
        · simp [hx]
      simp only [e, Option.bind_eq_bind, Option.bind_some, hr.pad]
      refine ⟨v', rfl, hr, ?_⟩
      intro _ hd
      have := h2.len_eq
      rw [words, hd, h1'] at this
      simp at this; omega
    | false =>
      simp only [Bool.false_eq_true, if_false, Option.bind_eq_bind, Option.bind_some] at hs hbit ⊢
      have hr : Rep ⟨some (List.replicate (u64Count n) 0), n⟩ (List.replicate n false) := by
        refine ⟨hs, by simp, ?_⟩
        intro x
        rw [words_some, hbit, at_replicate]; simp
      rw [hr.pad]
      exact ⟨_, rfl, hr, by simp⟩

theorem Rep.copy (h : Rep o B) : ∃ v, copy o = some v ∧ Rep v B := by
  unfold BitVector.copy
  have hlen := h.shape.len
  obtain ⟨ws, e, h1, h2⟩ := mapWords_spec (lo := 0) (hi := u64Count o.size)
    (ws := List.replicate (u64Count o.size) 0) (f := fun i _ => rd o.words i)
    (fun i _ => wordAt o.words i) (by omega) (by simp) (by
      intro i w _ hi; rw [rd_wordAt (by omega)])
  have hr : Rep ⟨some ws, o.size⟩ B := by
    refine ⟨⟨h.shape.bound, by rw [words_some, h1]; simp⟩, h.size, ?_⟩
    intro x
    rw [words_some, ← h.bits]
    unfold bit
    rw [h2]
    by_cases hx : x / 64 < u64Count o.size
    · rw [if_pos ⟨by omega, hx⟩]
    · rw [if_neg (by omega), wordAt_ge (by simp; omega), wordAt_ge (by omega)]
  simp only [h.pad, e, Option.bind_eq_bind, Option.bind_some, hr.pad]
  exact ⟨_, rfl, hr⟩

theorem rep_make {n : Nat} (hn : n + 511 < u64) (f : Nat → Bool) (junk : Nat → Word) :
    ∃ v, make n f junk = some v ∧ Rep v ((List.range n).map f) := by
  obtain ⟨v0, B0, e0, hr0, hl0⟩ := rep_newUninit hn junk
  unfold make
  simp only [e0, Option.bind_eq_bind, Option.bind_some]
  obtain ⟨v, e, B, hr, hl, hv⟩ := forRange_inv (lo := 0) (hi := n) (s := v0)
    (f := fun (v : BitVector) x => v.setTo x (f x))
    (fun i v => ∃ B, Rep v B ∧ B.length = n ∧ ∀ x, x < i → at' B x = f x) (by omega)
    ⟨B0, hr0, hl0, by intro x hx; omega⟩
    (by
      rintro i v _ hi ⟨B, hr, hl, hv⟩
      obtain ⟨v', e, hr'⟩ := hr.setTo (x := i) (by omega) (f i)
      refine ⟨v', e, _, hr', by simpa using hl, ?_⟩
      intro x hx
      rw [at_set (by omega)]
      by_cases hxi : x = i
      · rw [if_pos hxi, hxi]
      · rw [if_neg hxi]; exact hv x (by omega))
  refine ⟨v, e, ?_⟩
  have : B = (List.range n).map f := by
    apply list_ext_at (by simpa using hl)
    intro x hx
    rw [hv x (by omega), at_lt (by simp; omega)]
    simp
  rw [← this]; exact hr

end BitVector
end RK
