import Verif.Model.FloatText
import Verif.Proof.VectorText
import Verif.Proof.Ieee
/-! # Floating point numbers as text: proofs -/
namespace RK
open Spec Ieee

theorem stripZeros_spec (b : Text) : ∃ n, b = stripZeros b ++ List.replicate n '0' := by
  unfold stripZeros
  have h := List.takeWhile_append_dropWhile (p := (· = '0')) (l := b.reverse)
  have h2 : b.reverse.takeWhile (· = '0') = List.replicate (b.reverse.takeWhile (· = '0')).length '0' := by
    rw [List.eq_replicate_iff]
    exact ⟨rfl, fun c hc => by simpa using mem_takeWhile hc⟩
  refine ⟨(b.reverse.takeWhile (· = '0')).length, ?_⟩
  have h3 := congrArg List.reverse h
  rw [List.reverse_append, List.reverse_reverse, h2, List.reverse_replicate] at h3
  exact h3.symm

theorem readFraction_point {b t : Text} (hb : ∀ c ∈ b, c.isDigit = true) (ht : ∀ c, t.head? = some c → c.isDigit = false) :
    readFraction Char.isDigit ('.' :: (b ++ t)) = (b, t) := by
  show (List.takeWhile Char.isDigit (b ++ t), List.dropWhile Char.isDigit (b ++ t)) = _
  rw [takeWhile_append_of hb ht, dropWhile_append_of hb ht]

theorem readFraction_none {t : Text} (ht : t.head? ≠ some '.') : readFraction Char.isDigit t = ([], t) := by
  unfold readFraction
  split
  · exact absurd rfl ht
  · rfl

/-- Reading what `withFraction` writes. -/
theorem scanDecimal_withFraction {neg : Bool} {a b t : Text} (ha : a ≠ []) (had : ∀ c ∈ a, c.isDigit = true) (hb : ∀ c ∈ b, c.isDigit = true)
    (ht : ∀ c, t.head? = some c → c.isDigit = false) (ht2 : t.head? ≠ some '.') :
    ∃ mant exp, scanDecimal neg (withFraction a b ++ t) = some (.finite neg mant 10 exp) ∧
      (mant : ℝ) * 10 ^ exp = Nat.ofDigitChars 10 (a ++ b) 0 * 10 ^ (readExponent 'e' t - b.length) ∧ (Nat.ofDigitChars 10 (a ++ b) 0 ≠ 0 → mant ≠ 0) := by
  obtain ⟨n, hn⟩ := stripZeros_spec b
  have hs : ∀ c ∈ stripZeros b, c.isDigit = true := fun c hc => hb c (by rw [hn]; exact List.mem_append_left _ hc)
  have key : scanDecimal neg (withFraction a b ++ t) =
      some (.finite neg (Nat.ofDigitChars 10 (a ++ stripZeros b) 0) 10 (readExponent 'e' t - (stripZeros b).length)) := by
    unfold scanDecimal withFraction
    by_cases h : stripZeros b = []
    · simp only [h, if_true]
      rw [takeWhile_append_of had ht, dropWhile_append_of had ht, readFraction_none ht2]
      simp [ha]
    · simp only [h, if_false, List.append_assoc, List.cons_append]
      have hp : ∀ c, ('.' :: (stripZeros b ++ t)).head? = some c → c.isDigit = false := by
        intro c hc
        cases hc
        decide
      rw [takeWhile_append_of had hp, dropWhile_append_of had hp, readFraction_point hs ht]
      simp [ha]
  have hval : Nat.ofDigitChars 10 (a ++ b) 0 = Nat.ofDigitChars 10 (a ++ stripZeros b) 0 * 10 ^ n := by
    conv_lhs => rw [hn, ← List.append_assoc, Nat.ofDigitChars_append, Nat.ofDigitChars_replicate_zero]
    rw [Nat.mul_comm]
  refine ⟨_, _, key, ?_, ?_⟩
  · rw [hval]
    have hl : (b.length : ℤ) = (stripZeros b).length + n := by
      conv_lhs => rw [hn]
      simp
    rw [hl]
    push_cast
    rw [mul_assoc, ← zpow_natCast (10 : ℝ) n, ← zpow_add₀ (by norm_num)]
    congr 2
    ring
  · intro h0 h1
    rw [hval, h1] at h0
    simp at h0

theorem readExponent_print (x : Int) : readExponent 'e' (printExponent x) = x := by
  have hd : ∀ n, ∀ c ∈ printNat n, c.isDigit = true := fun n c hc => Nat.isDigit_of_mem_toDigits (by decide) (by decide) hc
  have hv : ∀ n : Nat, Nat.ofDigitChars 10 ((if n < 10 then '0' :: printNat n else printNat n).takeWhile Char.isDigit) 0 = n := by
    intro n
    have : (if n < 10 then '0' :: printNat n else printNat n).takeWhile Char.isDigit = if n < 10 then '0' :: printNat n else printNat n := by
      refine (congrArg _ (List.append_nil _).symm).trans (takeWhile_append_of (b := []) ?_ (by simp))
      intro c hc
      split at hc
      · rcases List.mem_cons.1 hc with rfl | hc
        · decide
        · exact hd n c hc
      · exact hd n c hc
    rw [this]
    split
    · rw [Nat.ofDigitChars_cons]
      exact Nat.ofDigitChars_ten_toDigits
    · exact Nat.ofDigitChars_ten_toDigits
  unfold readExponent printExponent
  by_cases h : x < 0
  · simp only [h, if_true]
    rw [if_pos (by decide)]
    simp only [readSign, if_true]
    rw [hv]
    omega
  · simp only [h, if_false]
    rw [if_pos (by decide)]
    simp only [readSign]
    rw [hv]
    simp
    omega

theorem digit_toLower {c : Char} (h : c.isDigit = true) : c.toLower = c := by
  unfold Char.isDigit at h
  simp only [Bool.and_eq_true, decide_eq_true_eq, ge_iff_le] at h
  unfold Char.toLower
  rw [dif_neg]
  intro hc
  have h1 : (65 : UInt32).toNat ≤ c.val.toNat := hc.1
  have h2 : c.val.toNat ≤ (57 : UInt32).toNat := h.2
  have e1 : (65 : UInt32).toNat = 65 := rfl
  have e2 : (57 : UInt32).toNat = 57 := rfl
  omega

theorem startsCI_digit {w : Char} {ws r : Text} {c : Char} (hw : w.isDigit = false) (hc : c.isDigit = true) : startsCI (w :: ws) (c :: r) = false := by
  unfold startsCI
  rw [List.map_cons, digit_toLower hc, List.isPrefixOf_cons₂]
  have : (w == c) = false := by
    rw [beq_eq_false_iff_ne]
    intro e
    rw [e, hc] at hw
    cases hw
  rw [this, Bool.false_and]

theorem startsCI_x {s : Text} (h : ∀ c ∈ s, c.toLower ≠ 'x') : startsCI ['0', 'x'] s = false := by
  rw [Bool.eq_false_iff]
  intro hp
  unfold startsCI at hp
  rw [List.isPrefixOf_iff_prefix] at hp
  have : 'x' ∈ s.map Char.toLower := hp.subset (by simp)
  obtain ⟨c, hc, e⟩ := List.mem_map.1 this
  exact h c hc e

/-- The sign and a decimal number. -/
theorem scanNumber_decimal {neg : Bool} {c : Char} {s : Text} (hc : c.isDigit = true) (hx : ∀ d ∈ c :: s, d.toLower ≠ 'x') :
    scanNumber (printSign neg ++ c :: s) = scanDecimal neg (c :: s) := by
  have hsp := isDigit_not_isSpace hc
  have h1 : readSign ((printSign neg ++ c :: s).dropWhile isSpace) = (neg, c :: s) := by
    cases neg with
    | true => rfl
    | false =>
      simp only [printSign, List.nil_append, List.dropWhile_cons, hsp, Bool.false_eq_true, if_false]
      exact readSign_other (fun e => by subst e; exact absurd hc (by decide)) (fun e => by subst e; exact absurd hc (by decide))
  unfold scanNumber
  rw [h1]
  simp only [startsCI_digit (w := 'i') (by decide) hc, startsCI_digit (w := 'n') (by decide) hc, startsCI_x hx, Bool.false_eq_true, if_false]

theorem withFraction_cons {a b : Text} {c : Char} : withFraction (c :: a) b = c :: withFraction a b := by
  unfold withFraction
  split <;> rfl

theorem mem_withFraction {a b : Text} {c : Char} (h : c ∈ withFraction a b) : c ∈ a ∨ c ∈ b ∨ c = '.' := by
  obtain ⟨n, hn⟩ := stripZeros_spec b
  unfold withFraction at h
  split at h
  · exact Or.inl h
  · rcases List.mem_append.1 h with h | h
    · exact Or.inl h
    · rcases List.mem_cons.1 h with h | h
      · exact Or.inr (Or.inr h)
      · right; left
        rw [hn]
        exact List.mem_append_left _ h

theorem mem_printExponent {x : Int} {c : Char} (h : c ∈ printExponent x) : c.isDigit = true ∨ c = 'e' ∨ c = '-' ∨ c = '+' := by
  unfold printExponent at h
  rcases List.mem_cons.1 h with h | h
  · exact Or.inr (Or.inl h)
  rcases List.mem_cons.1 h with h | h
  · split at h
    · exact Or.inr (Or.inr (Or.inl h))
    · exact Or.inr (Or.inr (Or.inr h))
  · left
    have hd : ∀ n, ∀ c ∈ printNat n, c.isDigit = true := fun n c hc => Nat.isDigit_of_mem_toDigits (by decide) (by decide) hc
    split at h
    · rcases List.mem_cons.1 h with h | h
      · rw [h]; decide
      · exact hd _ _ h
    · exact hd _ _ h

/-- Reading what `%g` writes. -/
theorem scan_layoutG {neg : Bool} {p d : Nat} {x : Int} (h1 : 10 ^ (p - 1) ≤ d) (h2 : d < 10 ^ p) :
    (∃ mant exp, scanNumber (printSign neg ++ layoutG p d x) = some (.finite neg mant 10 exp) ∧ (mant : ℝ) * 10 ^ exp = d * 10 ^ (x + 1 - p) ∧ mant ≠ 0) ∧
      '\n' ∉ layoutG p d x := by
  have hd0 : 0 < d := lt_of_lt_of_le (by positivity) h1
  have hp : 0 < p := by
    rcases Nat.eq_zero_or_pos p with rfl | hp
    · simp at h2; omega
    · exact hp
  have hdig : ∀ c ∈ Nat.toDigits 10 d, c.isDigit = true := fun c hc => Nat.isDigit_of_mem_toDigits (by decide) (by decide) hc
  have hlen : (Nat.toDigits 10 d).length = p := by
    have ha := (Nat.length_toDigits_le_iff (b := 10) (n := d) (k := p) (by decide) hp).2 h2
    have hb : ¬ (Nat.toDigits 10 d).length ≤ p - 1 := by
      intro hle
      rcases Nat.eq_zero_or_pos (p - 1) with h0 | h0
      · have := @Nat.length_toDigits_pos 10 d
        omega
      · have := (Nat.length_toDigits_le_iff (b := 10) (n := d) (k := p - 1) (by decide) h0).1 hle
        omega
    omega
  have main : ∃ a b t, layoutG p d x = withFraction a b ++ t ∧ a ≠ [] ∧ (∀ c ∈ a, c.isDigit = true) ∧ (∀ c ∈ b, c.isDigit = true) ∧
      (∀ c ∈ t, c.isDigit = true ∨ c = 'e' ∨ c = '-' ∨ c = '+') ∧ (t.head? = none ∨ t.head? = some 'e') ∧
      Nat.ofDigitChars 10 (a ++ b) 0 = d ∧ readExponent 'e' t - (b.length : ℤ) = x + 1 - p := by
    unfold layoutG
    simp only
    split
    · rename_i hx
      split
      · rename_i h0
        refine ⟨(Nat.toDigits 10 d).take (x.toNat + 1), (Nat.toDigits 10 d).drop (x.toNat + 1), [], by simp, ?_, fun c hc => hdig c (List.mem_of_mem_take hc),
          fun c hc => hdig c (List.mem_of_mem_drop hc), by simp, Or.inl rfl, ?_, ?_⟩
        · intro e
          have := congrArg List.length e
          simp [hlen] at this
          omega
        · rw [List.take_append_drop]; exact Nat.ofDigitChars_ten_toDigits
        · rw [List.length_drop, hlen]
          show (0 : ℤ) - _ = _
          omega
      · rename_i h0
        refine ⟨['0'], List.replicate (-x - 1).toNat '0' ++ Nat.toDigits 10 d, [], by simp, by simp, by simp, ?_, by simp, Or.inl rfl, ?_, ?_⟩
        · intro c hc
          rcases List.mem_append.1 hc with hc | hc
          · rw [List.eq_of_mem_replicate hc]; decide
          · exact hdig c hc
        · rw [List.singleton_append, Nat.ofDigitChars_cons, Nat.ofDigitChars_append]
          have : 10 * 0 + ('0'.toNat - '0'.toNat) = 0 := rfl
          rw [this, Nat.ofDigitChars_replicate_zero, Nat.mul_zero]
          exact Nat.ofDigitChars_ten_toDigits
        · rw [List.length_append, List.length_replicate, hlen]
          show (0 : ℤ) - _ = _
          omega
    · refine ⟨(Nat.toDigits 10 d).take 1, (Nat.toDigits 10 d).drop 1, printExponent x, rfl, ?_, fun c hc => hdig c (List.mem_of_mem_take hc),
        fun c hc => hdig c (List.mem_of_mem_drop hc), fun c hc => mem_printExponent hc, Or.inr rfl, ?_, ?_⟩
      · intro e
        have := congrArg List.length e
        simp [hlen] at this
        omega
      · rw [List.take_append_drop]; exact Nat.ofDigitChars_ten_toDigits
      · rw [readExponent_print, List.length_drop, hlen]
        omega
  obtain ⟨a, b, t, e, ha, had, hbd, ht, hth, hv, he⟩ := main
  have hmem : ∀ c ∈ layoutG p d x, c.isDigit = true ∨ c = '.' ∨ c = 'e' ∨ c = '-' ∨ c = '+' := by
    intro c hc
    rw [e] at hc
    rcases List.mem_append.1 hc with hc | hc
    · rcases mem_withFraction hc with hc | hc | hc
      · exact Or.inl (had c hc)
      · exact Or.inl (hbd c hc)
      · exact Or.inr (Or.inl hc)
    · rcases ht c hc with h | h
      · exact Or.inl h
      · exact Or.inr (Or.inr h)
  constructor
  · obtain ⟨mant, exp, hs, hval, hne⟩ := scanDecimal_withFraction (neg := neg) (t := t) ha had hbd
      (by intro c hc; rcases hth with h | h <;> rw [h] at hc <;> cases hc; decide) (by rcases hth with h | h <;> rw [h] <;> decide)
    refine ⟨mant, exp, ?_, by rw [hval, hv, he], hne (by omega)⟩
    rw [← hs, ← e]
    obtain ⟨c, a', rfl⟩ := List.exists_cons_of_ne_nil ha
    rw [withFraction_cons, List.cons_append] at e
    rw [e]
    refine scanNumber_decimal (had c (List.mem_cons_self ..)) ?_
    rw [← e]
    intro c hc
    rcases hmem c hc with h | rfl | rfl | rfl | rfl
    · rw [digit_toLower h]
      intro hx
      rw [hx] at h
      cases h
    all_goals decide
  · intro hc
    rcases hmem _ hc with h | h | h | h | h <;> revert h <;> decide

end RK
