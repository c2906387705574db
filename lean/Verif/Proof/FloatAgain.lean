import Verif.Proof.FloatRound
import Verif.Proof.FloatText
import Verif.Spec.FloatText
/-! # Floating point numbers as text: reading what was printed -/
namespace RK
open Spec Ieee

theorem longDouble_emin : longDouble.emin = -16382 := rfl

theorem longDouble_bits : longDouble.bits = 64 := rfl

/-- If `x` is stored for the number `d`, then also for every number that is at most as far away from `x`. -/
theorem round_again {T : FloatType} (hb : 0 < T.bits) (hb2 : T.bits ≤ 62) (hT : -16380 ≤ T.emin - T.bits) {j : ℤ} (hj : T.emin ≤ j) {n : ℕ} {x d v : ℝ}
    (hxn : x = n * 2 ^ (j + 1 - T.bits)) (h1 : (2 : ℝ) ^ j < x) (h2 : x < 2 ^ (j + 1)) (hd : 0 ≤ d) (hx : T.round (longDouble.round d) = x) (hv : |v - x| ≤ |d - x|) :
    T.round (longDouble.round v) = x := by
  obtain ⟨b, hbb⟩ : ∃ b : ℕ, T.bits = b := ⟨_, rfl⟩
  rw [hbb] at hxn hT hb2 hb
  set u : ℝ := 2 ^ (j + 1 - (b : ℤ)) with hu
  have hu0 : 0 < u := by positivity
  have eJ : (2 : ℝ) ^ j = 2 ^ (b - 1) * u := by
    rw [hu, ← zpow_natCast, ← zpow_add₀ (by norm_num)]; congr 1
    rw [Nat.cast_sub (by omega)]; push_cast; ring
  have eJ1 : (2 : ℝ) ^ (j + 1) = 2 ^ b * u := by
    rw [hu, ← zpow_natCast, ← zpow_add₀ (by norm_num)]; congr 1; ring
  have hn1 : 2 ^ (b - 1) + 1 ≤ n := by
    rw [eJ, hxn] at h1
    have := lt_of_mul_lt_mul_right h1 hu0.le
    exact_mod_cast this
  have hn2 : n + 1 ≤ 2 ^ b := by
    rw [eJ1, hxn] at h2
    have := lt_of_mul_lt_mul_right h2 hu0.le
    exact_mod_cast this
  have hlo : (2 : ℝ) ^ j + u ≤ x := by
    rw [eJ, hxn]
    have : ((2 ^ (b - 1) + 1 : ℕ) : ℝ) ≤ n := by exact_mod_cast hn1
    push_cast at this
    nlinarith
  have hhi : x + u ≤ 2 ^ (j + 1) := by
    rw [eJ1, hxn]
    have : ((n + 1 : ℕ) : ℝ) ≤ (2 ^ b : ℕ) := by exact_mod_cast hn2
    push_cast at this
    nlinarith
  have hJ0 : (0 : ℝ) < 2 ^ j := by positivity
  have hJ2 : (2 : ℝ) ^ (j + 1) = 2 * 2 ^ j := by rw [zpow_add_one₀ (by norm_num)]; ring
  set z := longDouble.round d with hz
  have hz0 : 0 ≤ z := longDouble.round_nonneg hd
  have eb : (2 : ℝ) ^ (-(b : ℤ)) * 2 ^ (j + 1) = u := by
    rw [hu, ← zpow_add₀ (by norm_num)]; congr 1; ring
  have hemin : (2 : ℝ) ^ T.emin ≤ 2 ^ j := zpow_le_zpow_right₀ (by norm_num) hj
  have htiny : T.tiny ≤ u := by
    unfold FloatType.tiny
    rw [hu, hbb]
    exact zpow_le_zpow_right₀ (by norm_num) (by omega)
  have hpb : (0 : ℝ) < 2 ^ (-(b : ℤ)) := by positivity
  have hpb1 : (2 : ℝ) ^ (-(b : ℤ)) ≤ 1 / 2 := by
    have : (2 : ℝ) ^ (-(b : ℤ)) ≤ 2 ^ (-1 : ℤ) := zpow_le_zpow_right₀ (by norm_num) (by omega)
    norm_num at this ⊢
    exact this
  -- z is in the binade
  have hzI : (2 : ℝ) ^ j ≤ z ∧ z ≤ 2 ^ (j + 1) := by
    rcases lt_or_ge z (2 ^ T.emin) with hzl | hzl
    · exfalso
      have h3 := T.round_near hz0
      have h4 : T.round z = roundEven (z / T.tiny) * T.tiny := by unfold FloatType.round; rw [if_pos hzl]
      have h5 := roundEven_near (z / T.tiny)
      have h6 : |T.round z - z| ≤ T.tiny / 2 := by
        have ht := T.tiny_pos
        rw [h4, show (roundEven (z / T.tiny) : ℝ) * T.tiny - z = -((z / T.tiny - roundEven (z / T.tiny)) * T.tiny) by field_simp; ring, abs_neg, abs_mul, abs_of_pos ht]
        have := mul_le_mul_of_nonneg_right h5 ht.le
        linarith
      rw [hx] at h6
      have := (abs_le.1 h6).2
      have ht := T.tiny_pos
      linarith
    · have h3 := T.round_near_normal hzl
      rw [hx, hbb] at h3
      have h4 := abs_le.1 h3
      constructor
      · by_contra hc
        rw [not_le] at hc
        have h6 : z * 2 ^ (-(b : ℤ)) ≤ 2 ^ j * 2 ^ (-(b : ℤ)) := mul_le_mul_of_nonneg_right hc.le hpb.le
        have h7 : (2 : ℝ) ^ j * 2 ^ (-(b : ℤ)) = u / 2 := by rw [← eb, hJ2]; ring
        linarith [h4.2]
      · by_contra hc
        rw [not_le] at hc
        have h5 : z * (1 - 2 ^ (-(b : ℤ))) ≤ x := by linarith [h4.1]
        have h6 : 2 ^ (j + 1) * (1 - 2 ^ (-(b : ℤ))) < z * (1 - (2 : ℝ) ^ (-(b : ℤ))) := mul_lt_mul_of_pos_right hc (by linarith)
        have h7 : 2 ^ (j + 1) * (1 - (2 : ℝ) ^ (-(b : ℤ))) = 2 ^ (j + 1) - u := by rw [← eb]; ring
        linarith
  have hTgrid : ∀ y : ℝ, 2 ^ j ≤ y → y ≤ 2 ^ (j + 1) → T.round y = roundEven (y / u) * u := by
    intro y hy1 hy2
    have := T.round_grid (by omega) hj (by linarith) (Or.inl hy1) hy2
    rw [hbb] at this
    exact this
  have hzr := hTgrid z hzI.1 hzI.2
  rw [hx] at hzr
  have hzx : |z - x| ≤ u / 2 := by
    have := roundEven_near (z / u)
    rw [hzr, show z - (roundEven (z / u) : ℝ) * u = (z / u - roundEven (z / u)) * u by field_simp, abs_mul, abs_of_pos hu0]
    have := mul_le_mul_of_nonneg_right this hu0.le
    linarith
  -- d is near
  have hLe : (2 : ℝ) ^ longDouble.emin ≤ 2 ^ j / 8 := by
    rw [longDouble_emin, show (2 : ℝ) ^ j / 8 = 2 ^ (j - 3) by rw [zpow_sub₀ (by norm_num)]; norm_num]
    exact zpow_le_zpow_right₀ (by norm_num) (by omega)
  have hdl : (2 : ℝ) ^ longDouble.emin ≤ d := by
    by_contra hc
    rw [not_le] at hc
    have h3 := (abs_le.1 (longDouble.round_near hd)).2
    have h4 : longDouble.tiny ≤ 2 ^ longDouble.emin := by
      unfold FloatType.tiny
      exact zpow_le_zpow_right₀ (by norm_num) (by rw [longDouble_bits]; norm_num)
    have h5 : (2 : ℝ) ^ (-(longDouble.bits : ℤ)) ≤ 1 := by rw [longDouble_bits]; norm_num
    have h6 : d * 2 ^ (-(longDouble.bits : ℤ)) ≤ d * 1 := mul_le_mul_of_nonneg_left h5 hd
    have h7 := hzI.1
    rw [hz] at h7
    linarith
  obtain ⟨ε, hε⟩ : ∃ ε : ℝ, ε = 2 ^ (-(64 : ℤ)) := ⟨_, rfl⟩
  have hε2 : ε ≤ 1 / 2 := by rw [hε]; norm_num
  have hdz : |z - d| ≤ d * ε := by rw [hε]; exact longDouble.round_near_normal hdl
  have hd2 : d ≤ 2 ^ (j + 1) * 2 := by
    have h3 := (abs_le.1 hdz).1
    have : d * ε ≤ d * (1 / 2) := mul_le_mul_of_nonneg_left hε2 hd
    linarith [hzI.2]
  have hdx : |d - x| ≤ u := by
    have h3 : d * ε ≤ u / 2 := by
      rw [hε]
      calc d * 2 ^ (-(64 : ℤ)) ≤ 2 ^ (j + 1) * 2 * 2 ^ (-(64 : ℤ)) := mul_le_mul_of_nonneg_right hd2 (by positivity)
        _ = 2 ^ (j - 62) := by
          rw [mul_assoc, show (2 : ℝ) * 2 ^ (-(64 : ℤ)) = 2 ^ (-63 : ℤ) by norm_num, ← zpow_add₀ (by norm_num)]; congr 1; ring
        _ ≤ 2 ^ (j - b) := zpow_le_zpow_right₀ (by norm_num) (by omega)
        _ = u / 2 := by
          rw [hu, show j + 1 - (b : ℤ) = (j - b) + 1 by ring, zpow_add_one₀ (by norm_num)]; ring
    have := abs_sub_le d z x
    rw [abs_sub_comm d z] at this
    linarith
  -- rounding to long double
  set w : ℝ := 2 ^ (j + 1 - (64 : ℤ)) with hw
  have hw0 : 0 < w := by positivity
  obtain ⟨M, hM, hMx⟩ : ∃ M : ℤ, Even M ∧ x = M * w := by
    refine ⟨n * 2 ^ (64 - b), ?_, ?_⟩
    · rw [Int.even_mul]
      right
      rw [Int.even_pow]
      exact ⟨by decide, by omega⟩
    · rw [hxn, hu, hw]
      push_cast
      rw [mul_assoc, ← zpow_natCast, ← zpow_add₀ (by norm_num)]
      congr 2
      rw [Nat.cast_sub (by omega)]
      push_cast
      ring
  have hL : ∀ y : ℝ, |y - x| ≤ u → longDouble.round y = x + roundEven ((y - x) / w) * w := by
    intro y hy
    have hy' := abs_le.1 hy
    have h3 := longDouble.round_grid (j := j) (by decide) (by rw [longDouble_emin]; omega) (y := y) (by linarith) (Or.inl (by linarith)) (by linarith)
    rw [h3]
    show (roundEven (y / w) : ℝ) * w = _
    have h4 : y / w = M + (y - x) / w := by rw [hMx]; field_simp; ring
    rw [h4, roundEven_shift hM]
    push_cast
    rw [add_mul, ← hMx]
  have hvu : |v - x| ≤ u := hv.trans hdx
  have hs : |(roundEven ((v - x) / w) : ℝ) * w| ≤ |(roundEven ((d - x) / w) : ℝ) * w| := by
    rw [abs_mul, abs_mul]
    refine mul_le_mul_of_nonneg_right ?_ (abs_nonneg _)
    have : |roundEven ((v - x) / w)| ≤ |roundEven ((d - x) / w)| := by
      apply roundEven_abs_mono
      rw [abs_div, abs_div]
      exact div_le_div_of_nonneg_right hv (abs_nonneg _)
    exact_mod_cast this
  rw [hL v hvu]
  have hzs : z = x + roundEven ((d - x) / w) * w := hL d hdx
  set s := (roundEven ((d - x) / w) : ℝ) * w
  set s' := (roundEven ((v - x) / w) : ℝ) * w
  have hs2 : |s| ≤ u / 2 := by rw [hzs, add_sub_cancel_left] at hzx; exact hzx
  have hs3 := abs_le.1 (hs.trans hs2)
  rw [hTgrid (x + s') (by linarith) (by linarith)]
  have hnn : ∀ t : ℝ, (x + t) / u = ((n : ℤ) : ℝ) + t / u := by
    intro t
    rw [hxn]
    push_cast
    field_simp
  have hr : roundEven (((n : ℤ) : ℝ) + s / u) = n := by
    rw [hzs, hnn] at hzr
    have h3 : (roundEven (((n : ℤ) : ℝ) + s / u) : ℝ) * u = n * u := by rw [← hzr, hxn]
    have h4 := mul_right_cancel₀ hu0.ne' h3
    exact_mod_cast h4
  rw [hnn, roundEven_closer hr (by rw [abs_div, abs_div]; exact div_le_div_of_nonneg_right hs (abs_nonneg _)), hxn]
  push_cast
  rfl

theorem scan_plain {l : Text} {neg : Bool} {digits places : Nat} (h : IsPlainDecimal l neg digits places) :
    scanNumber l = some (.finite neg digits 10 (-(places : ℤ))) := by
  obtain ⟨a, b, ha, hd, hv, hp, rfl⟩ := h
  have had : ∀ c ∈ a, c.isDigit = true := fun c hc => hd c (List.mem_append_left _ hc)
  have hbd : ∀ c ∈ b, c.isDigit = true := fun c hc => hd c (List.mem_append_right _ hc)
  have e1 : scanDecimal neg (a ++ (if b = [] then [] else '.' :: b)) = some (.finite neg digits 10 (-(places : ℤ))) := by
    unfold scanDecimal
    by_cases hb : b = []
    · subst hb
      have h1 := takeWhile_append_of (b := []) had (by simp)
      have h2 := dropWhile_append_of (b := []) had (by simp)
      simp only [if_true]
      rw [h1, h2, readFraction_none (by simp)]
      simp only [List.append_nil] at hv ⊢
      rw [if_neg ha, hv, ← hp]
      rfl
    · have hpt : ∀ c, ('.' :: b).head? = some c → c.isDigit = false := by
        intro c hc
        cases hc
        decide
      simp only [hb, if_false]
      rw [takeWhile_append_of had hpt, dropWhile_append_of had hpt]
      have := readFraction_point (b := b) (t := []) hbd (by simp)
      rw [List.append_nil] at this
      rw [this]
      simp only [List.append_eq_nil_iff, ha, false_and, if_false, hv, hp]
      simp [readExponent]
  have e2 : (if neg then ['-'] else []) ++ a ++ (if b = [] then [] else '.' :: b) = printSign neg ++ (a ++ (if b = [] then [] else '.' :: b)) := by
    rw [List.append_assoc]; rfl
  rw [e2, ← e1]
  have hx : ∀ d ∈ a ++ (if b = [] then [] else '.' :: b), d.toLower ≠ 'x' := by
    intro d hd'
    have : d.isDigit = true ∨ d = '.' := by
      rcases List.mem_append.1 hd' with h | h
      · exact Or.inl (had d h)
      · split at h
        · simp at h
        · rcases List.mem_cons.1 h with h | h
          · exact Or.inr h
          · exact Or.inl (hbd d h)
    rcases this with h | h
    · rw [digit_toLower h]
      intro e
      rw [e] at h
      exact absurd h (by decide)
    · rw [h]; decide
  obtain ⟨c, a', rfl⟩ := List.exists_cons_of_ne_nil ha
  exact scanNumber_decimal (had c (List.mem_cons_self ..)) hx

/-- Reading of a number of moderate size. -/
theorem stold_of {line : Text} {neg : Bool} {mant : Nat} {exp : ℤ} {v : ℝ} (hs : scanNumber line = some (.finite neg mant 10 exp))
    (hv : (mant : ℝ) * 10 ^ exp = v) (h : v = 0 ∨ (2 : ℝ) ^ (-16300 : ℤ) ≤ v) (h2 : v ≤ 2 ^ (16300 : ℤ)) :
    stold line = .ok (.finite neg (longDouble.round v)) := by
  unfold stold
  simp only [hs, Nat.cast_ofNat, hv]
  have hv0 : 0 ≤ v := by
    rcases h with h | h
    · rw [h]
    · exact le_trans (by positivity) h
  have hlow : v ≠ 0 → v / 2 ≤ longDouble.round v ∧ longDouble.round v ≤ 2 * v := by
    intro hne
    have h1 : (2 : ℝ) ^ longDouble.emin ≤ v := le_trans (zpow_le_zpow_right₀ (by norm_num) (by rw [longDouble_emin]; norm_num)) (h.resolve_left hne)
    have h2 := abs_le.1 (longDouble.round_near_normal h1)
    have h3 : (2 : ℝ) ^ (-(longDouble.bits : ℤ)) ≤ 1 / 2 := by rw [longDouble_bits]; norm_num
    have h4 := mul_le_mul_of_nonneg_left h3 hv0
    constructor <;> linarith [h2.1, h2.2]
  have hr0 : longDouble.round 0 = 0 := by simpa using longDouble.round_exact (by decide) (n := 0) (e := longDouble.emin + 1 - longDouble.bits) (by decide) le_rfl
  have hc1 : ¬ (2 : ℝ) ^ longDouble.emax ≤ longDouble.round v := by
    rw [not_le]
    by_cases hne : v = 0
    · rw [hne, hr0]; positivity
    · have e1 : (2 : ℝ) ^ longDouble.emax = 2 ^ (16300 : ℤ) * 2 ^ (84 : ℤ) := by
        rw [← zpow_add₀ (by norm_num)]; rfl
      have e2 : (0 : ℝ) < 2 ^ (16300 : ℤ) := by positivity
      have e3 : (4 : ℝ) ≤ 2 ^ (84 : ℤ) := by norm_num
      rw [e1]
      generalize (2 : ℝ) ^ (16300 : ℤ) = A at *
      generalize (2 : ℝ) ^ (84 : ℤ) = B at *
      have := mul_le_mul_of_nonneg_left e3 e2.le
      linarith [(hlow hne).2]
  rw [if_neg hc1, if_neg]
  rintro ⟨hm, hlt⟩
  by_cases hne : v = 0
  · rw [hne] at hv
    rcases mul_eq_zero.1 hv with h0 | h0
    · exact hm (by exact_mod_cast h0)
    · exact absurd h0 (zpow_ne_zero _ (by norm_num))
  · have h1 := (hlow hne).1
    have h2 := h.resolve_left hne
    have e1 : (2 : ℝ) ^ (-16300 : ℤ) = 2 ^ longDouble.emin * 2 ^ (82 : ℤ) := by
      rw [← zpow_add₀ (by norm_num)]; rfl
    have e2 : (0 : ℝ) < 2 ^ longDouble.emin := by positivity
    have e3 : (4 : ℝ) ≤ 2 ^ (82 : ℤ) := by norm_num
    rw [e1] at h2
    generalize (2 : ℝ) ^ longDouble.emin = A at *
    generalize (2 : ℝ) ^ (82 : ℤ) = B at *
    have := mul_le_mul_of_nonneg_left e3 e2.le
    linarith

end RK
