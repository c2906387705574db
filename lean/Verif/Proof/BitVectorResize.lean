import Verif.Proof.BitVector
import Mathlib.Tactic.Linarith
/-! `BitVector::resize`, `make_large_enough_for` and `operator<`. -/
namespace RK
namespace BitVector

variable {v o : BitVector} {B C : List Bool}

theorem at_map_range {n x : Nat} {f : Nat → Bool} :
    at' ((List.range n).map f) x = (decide (x < n) && f x) := by
  by_cases h : x < n
  · rw [at_lt (by simpa using h)]; simp [h]
  · rw [at_ge (by simpa using h)]; simp [h]

theorem at_take_append {n x : Nat} {b : Bool} :
    at' (B.take n ++ List.replicate (n - B.length) b) x =
      (decide (x < n) && if x < B.length then at' B x else b) := by
  by_cases h : x < n
  · by_cases hB : x < B.length
    · rw [at_lt (by simp; omega), List.getElem_append_left (by simp; omega)]
      simp [h, hB, at_lt hB]
    · rw [at_lt (by simp; omega), List.getElem_append_right (by simp; omega)]
      simp [h, hB]
  · rw [at_ge (by simp; omega)]; simp [h]

theorem length_take_append {n : Nat} {b : Bool} :
    (B.take n ++ List.replicate (n - B.length) b).length = n := by simp; omega

theorem Rep.resizeUninit (h : Rep v B) {n : Nat} (hn : n + 511 < u64) (junk : Nat → Word) :
    ∃ v' B', v.resizeUninit n junk = some v' ∧ Rep v' B' ∧ B'.length = n ∧
      (∀ x, x < n → x < B.length → at' B' x = at' B x) ∧
      (v.data ≠ none → ∀ x, B.length ≤ x → at' B' x = false) := by
  unfold BitVector.resizeUninit
  cases hd : v.data with
  | none =>
    obtain ⟨v', B', e, hr, hl⟩ := rep_newUninit hn junk
    refine ⟨v', B', e, hr, hl, ?_, fun hh => absurd rfl hh⟩
    intro x _ hx
    have := h.shape.len_eq
    have hs := h.size
    simp [words, hd] at this
    omega
  | some ws =>
    simp only
    have hws : v.words = ws := by simp [words, hd]
    have hc1 := v8Count_eq h.shape.bound
    have hc2 := v8Count_eq hn
    have hlen := h.shape.len_eq
    have hsz := h.size
    rw [hws] at hlen
    have key : ∃ v', ((if v8Count n = v8Count v.size then
        resetPadding ⟨some ws, n⟩
      else (new n false).bind fun o =>
        (mapWords 0 (8 * min (v8Count v.size) (v8Count n)) o.words fun i _ => rd ws i).bind fun ws' =>
          (resetPadding (o.withWords ws')).bind fun o => (assertPad o).bind fun _ => some o)
            : Option BitVector) = some v' ∧ Rep v' ((List.range n).map (at' B)) := by
      by_cases hcnt : v8Count n = v8Count v.size
      · rw [if_pos hcnt]
        have hs : Shape ⟨some ws, n⟩ := ⟨hn, by
          have := h.shape.len
          rw [hws] at this
          simp only [u64Count, words_some] at this ⊢
          rw [hcnt]; exact this⟩
        obtain ⟨v', e, h1, h2, h3⟩ := resetPadding_spec hs
        refine ⟨v', e, h2, by simpa using h1, ?_⟩
        intro x
        rw [h3, at_map_range, Bool.and_comm]
        rw [words_some, ← hws, h.bits]
      · rw [if_neg hcnt]
        obtain ⟨o, eo, ho, _⟩ := rep_new hn false
        have hol := ho.shape.len_eq
        have hos := ho.size
        simp at hos
        rw [hos] at hol
        obtain ⟨ws', e, h1, h2⟩ := mapWords_spec (lo := 0)
          (hi := 8 * min (v8Count v.size) (v8Count n)) (ws := o.words) (f := fun i _ => rd ws i)
          (fun i _ => wordAt ws i) (by omega) (by omega) (by
            intro i w _ hi; rw [rd_wordAt (by omega)])
        obtain ⟨h3, h4⟩ := withWords_words (v := o) h1
        obtain ⟨v', e', h5, h6, h7⟩ := resetPadding_spec (ho.shape.withWords h1)
        have hr : Rep v' ((List.range n).map (at' B)) := by
          refine ⟨h6, by rw [h5, h4, hos]; simp, ?_⟩
          intro x
          rw [h7, h3, h4, hos, at_map_range, Bool.and_comm]
          by_cases hx : x < n
          · simp only [hx, decide_true, Bool.true_and]
            have hb := h.bits x
            have hob := ho.bits x
            rw [at_replicate] at hob
            unfold bit at hb hob ⊢
            rw [h2]
            by_cases hc : x / 64 < 8 * min (v8Count v.size) (v8Count n)
            · rw [if_pos ⟨by omega, hc⟩, ← hb, hws]
            · rw [if_neg (by omega), hob, at_ge (by omega)]; simp
          · simp [hx]
        simp only [eo, e, e', Option.bind_eq_bind, Option.bind_some, hr.pad]
        exact ⟨v', rfl, hr⟩
    obtain ⟨v', e, hr⟩ := key
    simp only [h.pad, Option.bind_eq_bind, Option.bind_some]
    simp only [e, Option.bind_some, hr.pad]
    refine ⟨v', _, rfl, hr, by simp, ?_, ?_⟩
    · intro x hx _; rw [at_map_range]; simp [hx]
    · intro _ x hx; rw [at_map_range, at_ge hx]; simp

/-- Sizes for which growing with `true` works (see C12 for the other ones). -/
def ResizeTrueOK (v : BitVector) (n : Nat) : Prop :=
  v.data = none ∨ n < v.size ∨ (v.size % 512 ≠ 0 ∧ n % 512 ≠ 0)

theorem Rep.resize (h : Rep v B) {n : Nat} (hn : n + 511 < u64) (b : Bool)
    (hok : b = true → ResizeTrueOK v n) :
    ∃ v', v.resize n b = some v' ∧ Rep v' (B.take n ++ List.replicate (n - B.length) b) := by
  unfold BitVector.resize
  cases hd : v.data with
  | none =>
    have hB : B = [] := by
      have := h.shape.len_eq
      have hs := h.size
      simp [words, hd] at this
      exact List.length_eq_zero_iff.1 (by omega)
    obtain ⟨v', e, hr, _⟩ := rep_new hn b
    refine ⟨v', e, ?_⟩
    subst hB
    simpa using hr
  | some ws =>
    have hws : v.words = ws := by simp [words, hd]
    have hc1 := v8Count_eq h.shape.bound
    have hc2 := v8Count_eq hn
    have hlen := h.shape.len_eq
    have hsz := h.size
    rw [hws] at hlen
    simp only [h.pad, Option.bind_eq_bind, Option.bind_some]
    -- it suffices to handle the inner conditional
    have fin : ∀ {e : Option BitVector}, (∃ v', e = some v' ∧
        Rep v' (B.take n ++ List.replicate (n - B.length) b)) →
        ∃ v', (e.bind fun v => (assertPad v).bind fun _ => some v) = some v' ∧
          Rep v' (B.take n ++ List.replicate (n - B.length) b) := by
      rintro e ⟨v', rfl, hr⟩
      exact ⟨v', by simp [hr.pad], hr⟩
    apply fin
    by_cases hlt : n < v.size
    · rw [if_pos hlt]
      obtain ⟨v', B', e, hr, hl, h1, h2⟩ := h.resizeUninit hn (fun _ => 0)
      refine ⟨v', e, ?_⟩
      have : B' = B.take n ++ List.replicate (n - B.length) b := by
        apply list_ext_at (by rw [hl, length_take_append])
        intro x hx
        rw [at_take_append, h1 x (by omega) (by omega), if_pos (by omega)]
        simp; omega
      rw [← this]; exact hr
    · rw [if_neg hlt]
      by_cases hcnt : v8Count n = v8Count v.size
      · rw [if_pos hcnt]
        cases b with
        | false =>
          simp only [if_true]
          refine ⟨_, rfl, ⟨hn, ?_⟩, by rw [length_take_append], ?_⟩
          · have := h.shape.len
            rw [hws] at this
            simp only [u64Count, words_some] at this ⊢
            rw [hcnt]; exact this
          · intro x
            rw [at_take_append, words_some, ← hws, h.bits]
            by_cases hx : x < B.length
            · rw [if_pos hx]; simp; intro _; omega
            · rw [if_neg hx, at_ge (by omega)]; simp
        | true =>
          simp only [Bool.true_eq_false, if_false]
          have hok' : v.size % 512 ≠ 0 ∧ n % 512 ≠ 0 := by
            rcases hok rfl with h1 | h1 | h1
            · rw [hd] at h1; cases h1
            · omega
            · exact h1
          obtain ⟨m1, e1, hm1, hb1⟩ := paddingMask_spec n
          obtain ⟨m2, e2, hm2, hb2⟩ := paddingMask_spec v.size
          obtain ⟨ws', e, h1, h2⟩ := mapWords_spec (lo := 8 * (v.size / 512))
            (hi := 8 * (v.size / 512) + 8) (ws := ws)
            (f := fun i w => (rd m1 (i - 8 * (v.size / 512))).bind fun x =>
              (rd m2 (i - 8 * (v.size / 512))).map fun y => w ||| (x &&& ~~~y))
            (fun i w => w ||| (wordAt m1 (i - 8 * (v.size / 512)) &&&
              ~~~(wordAt m2 (i - 8 * (v.size / 512))))) (by omega) (by omega) (by
              intro i w _ hi; rw [rd_wordAt (by omega), rd_wordAt (by omega)]; rfl)
          simp only [e1, e2, e, Option.bind_some]
          refine ⟨_, rfl, ⟨hn, ?_⟩, by rw [length_take_append], ?_⟩
          · rw [words_some, h1]
            have := h.shape.len
            rw [hws] at this
            simp only [u64Count] at this ⊢
            rw [hcnt]; exact this
          · intro x
            rw [words_some, at_take_append]
            have hb := h.bits x
            rw [hws] at hb
            unfold bit at hb ⊢
            rw [h2]
            by_cases hc : 8 * (v.size / 512) ≤ x / 64 ∧ x / 64 < 8 * (v.size / 512) + 8
            · rw [if_pos hc, BitVec.getLsbD_or, hb, BitVec.getLsbD_and, BitVec.getLsbD_not,
                hb1 _ _ (by omega), hb2 _ _ (by omega)]
              by_cases hx : x < B.length
              · rw [if_pos hx]
                have a1 : x < n := by omega
                have a2 : 64 * (x / 64 - 8 * (v.size / 512)) + x % 64 < v.size % 512 := by omega
                simp [a1, a2]
              · rw [if_neg hx, at_ge (by omega)]
                have a2 : ¬ (64 * (x / 64 - 8 * (v.size / 512)) + x % 64 < v.size % 512) := by omega
                have a3 : x % 64 < 64 := by omega
                simp only [a2, a3, decide_true, decide_false, Bool.not_false, Bool.and_true,
                  Bool.false_or]
                congr 1
                exact propext (by omega)
            · rw [if_neg hc, hb]
              by_cases hx : x < B.length
              · rw [if_pos hx]; simp; intro _; omega
              · rw [if_neg hx, at_ge (by omega)]
                simp; omega
      · rw [if_neg hcnt]
        obtain ⟨o, eo, ho, _⟩ := rep_new hn false
        have hol := ho.shape.len_eq
        have hos := ho.size
        simp at hos
        rw [hos] at hol
        have hob : ∀ x, bit o.words x = false := by
          intro x; rw [ho.bits, at_replicate]; simp
        have hB : B.length ≤ 512 * v8Count v.size := by omega
        obtain ⟨ws1, e1, hl1, hw1⟩ := mapWords_spec (lo := 0) (hi := 8 * v8Count v.size)
          (ws := o.words) (f := fun i _ => rd ws i) (fun i _ => wordAt ws i) (by omega) (by omega) (by
            intro i w _ hi; rw [rd_wordAt (by omega)])
        have hbit1 : ∀ x, bit ws1 x = at' B x := by
          intro x
          have hb := h.bits x
          have hx := hob x
          rw [hws] at hb
          unfold bit at hb hx ⊢
          rw [hw1]
          by_cases hc : x / 64 < 8 * v8Count v.size
          · rw [if_pos ⟨by omega, hc⟩, hb]
          · rw [if_neg (by omega), hx, at_ge (by omega)]
        simp only [eo, e1, Option.bind_some]
        cases b with
        | false =>
          simp only [Bool.false_eq_true, if_false]
          obtain ⟨ws2, e2, hl2, hw2⟩ := mapWords_spec (lo := 8 * v8Count v.size)
            (hi := 8 * v8Count n) (ws := ws1) (f := fun _ _ => some 0) (fun _ _ => 0) (by omega)
            (by omega) (fun _ _ _ _ => rfl)
          have hl2' : ws2.length = o.words.length := by omega
          obtain ⟨h3, h4⟩ := withWords_words (v := o) hl2'
          have hr : Rep (o.withWords ws2) (B.take n ++ List.replicate (n - B.length) false) := by
            refine ⟨ho.shape.withWords hl2', by rw [length_take_append, h4, hos], ?_⟩
            intro x
            rw [h3, at_take_append]
            have hb := hbit1 x
            unfold bit at hb ⊢
            rw [hw2]
            by_cases hc : 8 * v8Count v.size ≤ x / 64 ∧ x / 64 < 8 * v8Count n
            · rw [if_pos hc, if_neg (by omega)]; simp
            · rw [if_neg hc, hb]
              by_cases hx : x < B.length
              · rw [if_pos hx]; simp; intro _; omega
              · rw [if_neg hx, at_ge (by omega)]; simp
          simp only [e2, Option.bind_some, hr.pad]
          exact ⟨_, rfl, hr⟩
        | true =>
          have hok' : v.size % 512 ≠ 0 ∧ n % 512 ≠ 0 := by
            rcases hok rfl with h1 | h1 | h1
            · rw [hd] at h1; cases h1
            · omega
            · exact h1
          simp only [if_true]
          have c8 : decide (8 ≤ 8 * v8Count v.size) = true := by simp; omega
          obtain ⟨m2, em2, hm2, hb2⟩ := paddingMask_spec v.size
          obtain ⟨m1, em1, hm1, hb1⟩ := paddingMask_spec n
          obtain ⟨ws2, e2, hl2, hw2⟩ := mapWords_spec (lo := 8 * v8Count v.size - 8)
            (hi := 8 * v8Count v.size) (ws := ws1)
            (f := fun i w => (rd m2 (i - (8 * v8Count v.size - 8))).map fun y => w ||| ~~~y)
            (fun i w => w ||| ~~~(wordAt m2 (i - (8 * v8Count v.size - 8)))) (by omega)
            (by omega) (by intro i w _ hi; rw [rd_wordAt (by omega)]; rfl)
          obtain ⟨ws3, e3, hl3, hw3⟩ := mapWords_spec (lo := 8 * v8Count v.size)
            (hi := 8 * v8Count n) (ws := ws2) (f := fun _ _ => some (BitVec.allOnes 64))
            (fun _ _ => BitVec.allOnes 64) (by omega) (by omega) (fun _ _ _ _ => rfl)
          obtain ⟨ws4, e4, hl4, hw4⟩ := mapWords_spec (lo := 8 * v8Count n - 8)
            (hi := 8 * v8Count n) (ws := ws3)
            (f := fun i w => (rd m1 (i - (8 * v8Count n - 8))).map fun y => w &&& y)
            (fun i w => w &&& wordAt m1 (i - (8 * v8Count n - 8))) (by omega)
            (by omega) (by intro i w _ hi; rw [rd_wordAt (by omega)]; rfl)
          have hl4' : ws4.length = o.words.length := by omega
          obtain ⟨h3, h4⟩ := withWords_words (v := o) hl4'
          have hr : Rep (o.withWords ws4) (B.take n ++ List.replicate (n - B.length) true) := by
            refine ⟨ho.shape.withWords hl4', by rw [length_take_append, h4, hos], ?_⟩
            intro x
            rw [h3, at_take_append]
            have hb := hbit1 x
            unfold bit at hb ⊢
            rw [hw4]
            by_cases c4 : 8 * v8Count n - 8 ≤ x / 64 ∧ x / 64 < 8 * v8Count n
            · rw [if_pos c4, hw3, if_pos (by omega), BitVec.getLsbD_and, allOnes_bit (by omega),
                hb1 _ _ (by omega), if_neg (by omega)]
              simp only [Bool.true_and, Bool.and_true]
              congr 1
              exact propext (by omega)
            · rw [if_neg c4, hw3]
              by_cases c3 : 8 * v8Count v.size ≤ x / 64 ∧ x / 64 < 8 * v8Count n
              · rw [if_pos c3, allOnes_bit (by omega), if_neg (by omega)]
                have : x < n := by omega
                simp [this]
              · rw [if_neg c3, hw2]
                by_cases c2 : 8 * v8Count v.size - 8 ≤ x / 64 ∧ x / 64 < 8 * v8Count v.size
                · rw [if_pos c2, BitVec.getLsbD_or, hb, BitVec.getLsbD_not, hb2 _ _ (by omega)]
                  have hxn : x < n := by omega
                  by_cases hx : x < B.length
                  · have a2 : 64 * (x / 64 - (8 * v8Count v.size - 8)) + x % 64 < v.size % 512 := by
                      omega
                    simp [hx, hxn, a2]
                  · have a2 : ¬ (64 * (x / 64 - (8 * v8Count v.size - 8)) + x % 64 <
                        v.size % 512) := by omega
                    have a3 : x % 64 < 64 := by omega
                    simp [hx, hxn, a2, a3]
                · rw [if_neg c2, hb]
                  by_cases hx : x < B.length
                  · have : x < n := by omega
                    simp [hx, this]
                  · have : ¬ x < n := by omega
                    rw [at_ge (by omega)]; simp [this]
          simp only [c8, check_true, em1, em2, e2, e3, e4, Option.bind_some, hr.pad]
          exact ⟨_, rfl, hr⟩

theorem doubleLoop_spec : ∀ {fuel x k : Nat}, x < 2 ^ 63 → k + fuel = 65 → fuel ≠ 0 → k ≤ 63 →
    (k = 0 ∨ 2 ^ (k - 1) ≤ x) →
    ∃ k', k' ≤ 63 ∧ doubleLoop fuel (2 ^ k) x = some (2 ^ k') ∧ x < 2 ^ k' ∧
      (k' = 0 ∨ 2 ^ (k' - 1) ≤ x)
  | 0, _, _, _, _, h, _, _ => absurd rfl h
  | fuel + 1, x, k, hx, hk, _, hk63, hprev => by
    unfold doubleLoop
    by_cases h : 2 ^ k ≤ x
    · rw [if_pos h]
      have hk62 : k ≤ 62 := by
        by_contra hc
        have : k = 63 := by omega
        subst this; omega
      have hb : 2 ^ (k + 1) ≤ 2 ^ 63 := Nat.pow_le_pow_right (by omega) (by omega)
      have e : (2 * 2 ^ k) % u64 = 2 ^ (k + 1) := by
        rw [show 2 * 2 ^ k = 2 ^ (k + 1) by ring]
        apply Nat.mod_eq_of_lt
        norm_num at hb; unfold u64; omega
      rw [e]
      exact doubleLoop_spec hx (by omega) (by omega) (by omega) (Or.inr (by simpa using h))
    · rw [if_neg h]
      exact ⟨k, hk63, rfl, by omega, hprev⟩

theorem Rep.makeLargeEnoughFor (h : Rep v B) {x : Nat} (hx : x < 2 ^ 63) (b : Bool)
    (hok : b = true → v.size ≤ x → v.data = none ∨ x < 256 ∧ v.size % 512 ≠ 0) :
    ∃ v' n, v.makeLargeEnoughFor x b = some v' ∧
      Rep v' (B ++ List.replicate n b) ∧ x < B.length + n := by
  unfold BitVector.makeLargeEnoughFor
  simp only [h.pad, Option.bind_eq_bind, Option.bind_some]
  have hsz := h.size
  by_cases hc : v.size ≤ x
  · rw [if_pos hc]
    obtain ⟨k, hk, e, hxk, hprev⟩ := doubleLoop_spec (fuel := 65) (k := 0) hx rfl (by omega) (by omega)
      (Or.inl rfl)
    rw [pow_zero] at e
    have hb : 2 ^ k ≤ 2 ^ 63 := Nat.pow_le_pow_right (by omega) hk
    have c1 : decide (2 ^ k > x) = true := by simpa using hxk
    have hok2 : b = true → ResizeTrueOK v (2 ^ k) := by
      intro hb'
      rcases hok hb' hc with h1 | ⟨h1, h2⟩
      · exact Or.inl h1
      · refine Or.inr (Or.inr ⟨h2, ?_⟩)
        rcases hprev with h0 | h0
        · subst h0; simp
        · have : k ≤ 8 := by
            by_contra hcc
            have : 2 ^ 8 ≤ 2 ^ (k - 1) := Nat.pow_le_pow_right (by omega) (by omega)
            norm_num at this; omega
          have h8 : 2 ^ k ≤ 2 ^ 8 := Nat.pow_le_pow_right (by omega) this
          have h0 : 1 ≤ 2 ^ k := Nat.one_le_two_pow
          norm_num at h8
          omega
    obtain ⟨v', e', hr⟩ := h.resize (n := 2 ^ k) (by norm_num at hb; unfold u64; omega) b hok2
    rw [List.take_of_length_le (by omega)] at hr
    have c2 : decide (v'.size > x) = true := by
      rw [hr.size]; simp; omega
    simp only [e, c1, e', Option.bind_some, check_true, hr.pad, c2]
    exact ⟨v', _, rfl, hr, by omega⟩
  · rw [if_neg hc]
    have c2 : decide (v.size > x) = true := by simp; omega
    simp only [Option.bind_some, h.pad, c2, check_true]
    exact ⟨v, 0, rfl, by simpa using h, by omega⟩

/-! ### are_all_set on multiples of 512 -/

/-- On a positive multiple of 512 bits `are_all_set` ignores the last 512 bits. -/
theorem Rep.areAllSet_mult (h : Rep v B) {k : Nat} (hk : B.length = 512 * (k + 1)) :
    ∃ b, v.areAllSet = some b ∧ (b = true ↔ ∀ x, x < 512 * k → at' B x = true) := by
  unfold BitVector.areAllSet
  simp only [h.pad, Option.bind_eq_bind, Option.bind_some]
  have hsz := h.size
  rw [if_neg (by omega)]
  have hle := h.shape.len_eq
  have hv8 := v8Count_eq h.shape.bound
  generalize hn : v8Count v.size - 1 = n
  have hn' : n = k := by omega
  obtain ⟨x1, e1, hx1, hb1⟩ := foldLanes_and (lo := 0) (hi := 8 * n)
    (acc := List.replicate 8 (BitVec.allOnes 64))
    (f := fun i a => (rd v.words i).map fun w => a &&& w)
    (wordAt v.words) (by omega) (by simp) (by
      intro i a _ hi; rw [rd_wordAt (by omega)]; rfl)
  obtain ⟨m, e2, hm, hmb⟩ := paddingMask_spec v.size
  obtain ⟨x2, e3, hx2, hb2⟩ := foldLanes_and (lo := 8 * n) (hi := 8 * n + 8) (acc := x1)
    (f := fun i a => (rd v.words i).bind fun w => (rd m (i % 8)).map fun m => a &&& (w ||| ~~~m))
    (fun i => wordAt v.words i ||| ~~~(wordAt m (i % 8))) (by omega) hx1 (by
      intro i a _ hi; rw [rd_wordAt (by omega), rd_wordAt (by omega)]; rfl)
  obtain ⟨r, e4, hr⟩ := areAllBitsSet_spec hx2
  simp only [e1, e2, e3, e4, Option.bind_some]
  refine ⟨r, rfl, ?_⟩
  rw [hr]
  constructor
  · intro hall x hx
    rw [← h.bits]
    unfold bit
    have h2 := (hb2 (x / 64 % 8) (x % 64) (by omega)).1 (hall _ _ (by omega) (by omega))
    have h1 := (hb1 (x / 64 % 8) (x % 64) (by omega)).1 h2.1
    exact h1.2 (x / 64) (by omega) (by omega) rfl
  · intro hall k' b hk' hb'
    rw [hb2 k' b hk', hb1 k' b hk']
    refine ⟨⟨?_, ?_⟩, ?_⟩
    · rw [wordAt_replicate, if_pos hk']; exact allOnes_bit hb'
    · intro i _ hi _
      rw [← bit_word hb', h.bits]
      exact hall _ (by omega)
    · intro i hi1 hi2 hik
      rw [BitVec.getLsbD_or, BitVec.getLsbD_not, hmb _ _ hb']
      have : ¬ (64 * (i % 8) + b < v.size % 512) := by omega
      simp [this, hb']

/-! ### operator< -/

/-- the words differ first at `j`, where `l` is smaller -/
def LexLt (l r : List Word) (n : Nat) : Prop :=
  ∃ j, j < n ∧ (∀ i, i < j → wordAt l i = wordAt r i) ∧ (wordAt l j).toNat < (wordAt r j).toNat

theorem ltLoop_spec {l r : List Word} : ∀ {k i : Nat}, i + k ≤ l.length → i + k ≤ r.length →
    (∀ j, j < i → wordAt l j = wordAt r j) →
    ∃ b, ltLoop l r k i = some b ∧ (b = true ↔ LexLt l r (i + k))
  | 0, i, _, _, heq => ⟨false, rfl, by
      constructor
      · intro h; cases h
      · rintro ⟨j, hj, _, hlt⟩
        rw [heq j (by omega)] at hlt; omega⟩
  | k + 1, i, h1, h2, heq => by
    unfold ltLoop
    simp only [rd_wordAt (show i < l.length by omega), rd_wordAt (show i < r.length by omega),
      Option.bind_eq_bind, Option.bind_some]
    by_cases hne : wordAt l i = wordAt r i
    · rw [if_neg (by simpa using hne)]
      obtain ⟨b, e, hb⟩ := ltLoop_spec (l := l) (r := r) (k := k) (i := i + 1) (by omega) (by omega)
        (by intro j hj
            by_cases hji : j = i
            · rw [hji]; exact hne
            · exact heq j (by omega))
      exact ⟨b, e, by rw [hb, show i + 1 + k = i + (k + 1) by omega]⟩
    · rw [if_pos hne]
      refine ⟨_, rfl, ?_⟩
      rw [decide_eq_true_eq]
      constructor
      · intro hlt; exact ⟨i, by omega, heq, hlt⟩
      · rintro ⟨j, hj, hje, hjlt⟩
        by_cases hji : j < i
        · rw [heq j hji] at hjlt; omega
        · by_cases hji' : j = i
          · rw [hji'] at hjlt; exact hjlt
          · exact absurd (hje i (by omega)) hne

theorem Rep.lt (hv : Rep v B) (ho : Rep o C) : ∃ b, v.lt o = some b ∧
    (b = true ↔ v.size < o.size ∨ (v.size = o.size ∧ LexLt v.words o.words (u64Count v.size))) := by
  unfold BitVector.lt
  simp only [hv.pad, ho.pad, Option.bind_eq_bind, Option.bind_some]
  by_cases hs : v.size = o.size
  · rw [if_neg (by simpa using hs)]
    have hlen := hv.shape.len
    have hlen2 := ho.shape.len
    rw [← hs] at hlen2
    obtain ⟨b, e, hb⟩ := ltLoop_spec (l := v.words) (r := o.words) (k := u64Count v.size) (i := 0)
      (by omega) (by omega) (by intro j hj; omega)
    refine ⟨b, e, ?_⟩
    rw [hb, Nat.zero_add]
    constructor
    · intro h; exact Or.inr ⟨hs, h⟩
    · rintro (h | ⟨_, h⟩)
      · omega
      · exact h
  · rw [if_pos hs]
    refine ⟨_, rfl, ?_⟩
    rw [decide_eq_true_eq]
    constructor
    · exact Or.inl
    · rintro (h | ⟨h, _⟩)
      · exact h
      · exact absurd h hs

theorem LexLt.trans {a b c : List Word} {n : Nat} (h1 : LexLt a b n) (h2 : LexLt b c n) :
    LexLt a c n := by
  obtain ⟨i, hi, hie, hil⟩ := h1
  obtain ⟨j, hj, hje, hjl⟩ := h2
  rcases Nat.lt_trichotomy i j with h | h | h
  · exact ⟨i, hi, fun k hk => (hie k hk).trans (hje k (by omega)), by rw [← hje i h]; exact hil⟩
  · subst h; exact ⟨i, hi, fun k hk => (hie k hk).trans (hje k hk), by omega⟩
  · exact ⟨j, hj, fun k hk => (hie k (by omega)).trans (hje k hk), by rw [hie j h]; exact hjl⟩

theorem LexLt.irrefl {a : List Word} {n : Nat} : ¬ LexLt a a n := by
  rintro ⟨j, _, _, h⟩; omega

theorem lexLt_total {a b : List Word} : ∀ {n : Nat}, (∃ i, i < n ∧ wordAt a i ≠ wordAt b i) →
    LexLt a b n ∨ LexLt b a n := by
  intro n
  induction n using Nat.strongRecOn with
  | _ n ih =>
    rintro ⟨i, hi, hne⟩
    by_cases hprev : ∃ j, j < i ∧ wordAt a j ≠ wordAt b j
    · rcases ih i hi hprev with ⟨j, h1, h2, h3⟩ | ⟨j, h1, h2, h3⟩
      · exact Or.inl ⟨j, by omega, h2, h3⟩
      · exact Or.inr ⟨j, by omega, h2, h3⟩
    · have heq : ∀ j, j < i → wordAt a j = wordAt b j := by
        intro j hj
        by_contra hc
        exact hprev ⟨j, hj, hc⟩
      rcases Nat.lt_trichotomy (wordAt a i).toNat (wordAt b i).toNat with h | h | h
      · exact Or.inl ⟨i, hi, heq, h⟩
      · exact absurd (BitVec.eq_of_toNat_eq h) hne
      · exact Or.inr ⟨i, hi, fun j hj => (heq j hj).symm, h⟩

theorem Rep.words_differ (hv : Rep v B) (ho : Rep o C) (hl : B.length = C.length) (hne : B ≠ C) :
    ∃ i, i < u64Count v.size ∧ wordAt v.words i ≠ wordAt o.words i := by
  by_contra hc
  apply hne
  apply list_ext_at hl
  intro x hx
  rw [← hv.bits, ← ho.bits]
  unfold bit
  have : wordAt v.words (x / 64) = wordAt o.words (x / 64) := by
    by_contra hd
    exact hc ⟨x / 64, by rw [← hv.shape.len]; exact hv.word_lt hx, hd⟩
  rw [this]

end BitVector
end RK
