import Verif.Proof.FloatAgain
/-! # Vectors of floating point numbers as text: proofs -/
namespace RK
open Spec Ieee

theorem printed_zero (p : Nat) : printed p 0 = 0 := by
  unfold printed sigDigits
  have h : roundEven ((0 : ℝ) / 10 ^ (Int.log 10 (0 : ℝ) + 1 - (p : ℤ))) = 0 := by
    rw [zero_div]
    simpa using roundEven_int 0
  simp only [h]
  rw [if_neg (by rw [Int.toNat_zero]; exact (pow_pos (by norm_num) p).ne)]
  simp

theorem printed_bounds {p : Nat} (hp : 0 < p) {m : ℝ} (hm : 0 ≤ m) : m / 2 ≤ printed p m ∧ printed p m ≤ 2 * m := by
  rcases hm.eq_or_lt with rfl | hm
  · rw [printed_zero]; simp
  · have h := abs_le.1 (sigDigits_spec hp hm).2.2.1
    have h2 : (10 : ℝ) ^ (1 - p : ℤ) ≤ 10 ^ (0 : ℤ) := zpow_le_zpow_right₀ (by norm_num) (by omega)
    rw [zpow_zero] at h2
    have h3 := mul_le_mul_of_nonneg_left h2 hm.le
    constructor <;> linarith [h.1, h.2]

theorem isPlain_zero (neg : Bool) : IsPlainDecimal (printSign neg ++ ['0']) neg 0 0 := ⟨['0'], [], by simp, by decide, by decide, rfl, by cases neg <;> rfl⟩

theorem stold_print {p : Nat} (hp : 0 < p) {neg : Bool} {m : ℝ} (h : m = 0 ∨ (2 : ℝ) ^ (-16200 : ℤ) ≤ m) (h2 : m ≤ 2 ^ (16200 : ℤ)) :
    stold (printSign neg ++ printMag p m) = .ok (.finite neg (longDouble.round (printed p m))) := by
  rcases h with rfl | h
  · rw [printed_zero]
    unfold printMag
    rw [if_pos rfl]
    exact stold_of (scan_plain (isPlain_zero neg)) (by simp) (Or.inl rfl) (by positivity)
  · have hm : 0 < m := lt_of_lt_of_le (by positivity) h
    obtain ⟨h3, h4, _, _⟩ := sigDigits_spec hp hm
    obtain ⟨⟨mant, exp, hs, hv, _⟩, _⟩ := scan_layoutG (neg := neg) (x := (sigDigits p m).2) h3 h4
    have hb := printed_bounds hp hm.le
    unfold printMag
    rw [if_neg hm.ne']
    refine stold_of hs hv (Or.inr ?_) ?_
    · have e1 : (2 : ℝ) ^ (-16200 : ℤ) = 2 ^ (-16300 : ℤ) * 2 ^ (100 : ℤ) := by
        rw [← zpow_add₀ (by norm_num)]; rfl
      have e2 : (0 : ℝ) < 2 ^ (-16300 : ℤ) := by positivity
      have e3 : (2 : ℝ) ≤ 2 ^ (100 : ℤ) := by norm_num
      rw [e1] at h
      show _ ≤ printed p m
      generalize (2 : ℝ) ^ (-16300 : ℤ) = A at *
      generalize (2 : ℝ) ^ (100 : ℤ) = B at *
      have := mul_le_mul_of_nonneg_left e3 e2.le
      linarith [hb.1]
    · have e1 : (2 : ℝ) ^ (16300 : ℤ) = 2 ^ (16200 : ℤ) * 2 ^ (100 : ℤ) := by
        rw [← zpow_add₀ (by norm_num)]; rfl
      have e2 : (0 : ℝ) < 2 ^ (16200 : ℤ) := by positivity
      have e3 : (2 : ℝ) ≤ 2 ^ (100 : ℤ) := by norm_num
      rw [e1]
      show printed p m ≤ _
      generalize (2 : ℝ) ^ (16200 : ℤ) = A at *
      generalize (2 : ℝ) ^ (100 : ℤ) = B at *
      have := mul_le_mul_of_nonneg_left e3 e2.le
      linarith [hb.2]

theorem printMag_no_newline {p : Nat} (hp : 0 < p) {m : ℝ} (hm : 0 ≤ m) : '\n' ∉ printMag p m := by
  unfold printMag
  split
  · decide
  · rename_i hne
    obtain ⟨h3, h4, _, _⟩ := sigDigits_spec hp (lt_of_le_of_ne hm (Ne.symm hne))
    exact (scan_layoutG (neg := false) h3 h4).2

/-- The absolute values are not negative. -/
def FloatValue.Sane : FloatValue → Prop
  | .finite _ m => 0 ≤ m
  | _ => True

theorem printFloat_no_newline {T : FloatType} {x : FloatValue} (hx : x.Sane) : '\n' ∉ printFloat T x := by
  have hs : ∀ neg, '\n' ∉ printSign neg := by decide
  cases x with
  | finite neg m =>
    intro h
    rcases List.mem_append.1 h with h | h
    · exact hs _ h
    · exact printMag_no_newline (Nat.succ_pos _) hx h
  | infinity neg =>
    show '\n' ∉ printSign neg ++ ['i', 'n', 'f']
    clear hx
    revert neg; decide
  | nan neg =>
    show '\n' ∉ printSign neg ++ ['n', 'a', 'n']
    clear hx
    revert neg; decide

theorem getLines_decodeFloats {T : FloatType} {v : List FloatValue} (hv : ∀ x ∈ v, x.Sane) : getLines (decodeFloats T v) = v.map (printFloat T) := by
  refine getLines_of ⟨?_, Or.inl ?_⟩
  · intro l hl
    obtain ⟨x, hx, rfl⟩ := List.mem_map.1 hl
    exact printFloat_no_newline (hv x hx)
  · unfold decodeFloats
    rw [List.flatMap_map]

theorem encodeFloatLines_ok {T : FloatType} : ∀ {ls : List Text} {ys : List FloatValue} {acc : List FloatValue},
    List.Forall₂ (fun l y => (stold l >>= narrow T) = .ok y) ls ys → encodeFloatLines T acc ls = .ok (acc ++ ys)
  | [], _, acc, h => by cases h; simp [encodeFloatLines]
  | l :: ls, _, acc, h => by
    cases h with
    | cons h1 h2 =>
      obtain ⟨x, e1, e2⟩ := Res.bind_eq_ok.1 h1
      unfold encodeFloatLines
      rw [e1, Res.ok_bind, e2, Res.ok_bind, encodeFloatLines_ok h2]
      simp

theorem encodeFloatLines_inv {T : FloatType} : ∀ {ls : List Text} {w acc : List FloatValue}, encodeFloatLines T acc ls = .ok w →
    ∃ ys, w = acc ++ ys ∧ List.Forall₂ (fun l y => (stold l >>= narrow T) = .ok y) ls ys
  | [], w, acc, h => by cases h; exact ⟨[], by simp, .nil⟩
  | l :: ls, w, acc, h => by
    unfold encodeFloatLines at h
    obtain ⟨x, e1, h⟩ := Res.bind_eq_ok.1 h
    obtain ⟨y, e2, h⟩ := Res.bind_eq_ok.1 h
    obtain ⟨ys, rfl, h3⟩ := encodeFloatLines_inv h
    exact ⟨y :: ys, by simp, .cons (Res.bind_eq_ok.2 ⟨x, e1, e2⟩) h3⟩

/-- The special values are printed and read. -/
theorem special_again {T : FloatType} {x : FloatValue} (hx : ∀ neg m, x ≠ .finite neg m) : (stold (printFloat T x) >>= narrow T) = .ok x := by
  cases x with
  | finite neg m => exact absurd rfl (hx neg m)
  | infinity neg =>
    have : scanNumber (printFloat T (.infinity neg)) = some (.infinity neg) := by
      show scanNumber (printSign neg ++ ['i', 'n', 'f']) = _
      clear hx
      revert neg; decide
    unfold stold
    rw [this]
    rfl
  | nan neg =>
    have : scanNumber (printFloat T (.nan neg)) = some (.nan neg) := by
      show scanNumber (printSign neg ++ ['n', 'a', 'n']) = _
      clear hx
      revert neg; decide
    unfold stold
    rw [this]
    rfl

/-- The size of the numbers of a type is moderate. -/
structure FloatType.Moderate (T : FloatType) : Prop where
  bits_pos : 0 < T.bits
  bits_le : T.bits ≤ 62
  emin_ge : -16200 ≤ T.emin - T.bits
  emax_le : T.emax ≤ 16200

theorem float32_moderate : float32.Moderate := ⟨by decide, by decide, by decide, by decide⟩

theorem float64_moderate : float64.Moderate := ⟨by decide, by decide, by decide, by decide⟩

theorem isBinary_bounds {T : FloatType} (hT : T.Moderate) {m : ℝ} (h : IsBinary T.bits T.emin T.emax m) :
    (m = 0 ∨ (2 : ℝ) ^ (-16200 : ℤ) ≤ m) ∧ m ≤ 2 ^ (16200 : ℤ) ∧ 0 ≤ m := by
  obtain ⟨n, e, h1, h2, rfl, h4⟩ := h
  have := hT.emin_ge
  have := hT.emax_le
  refine ⟨?_, h4.le.trans (zpow_le_zpow_right₀ (by norm_num) (by omega)), by positivity⟩
  rcases Nat.eq_zero_or_pos n with rfl | hn
  · left; simp
  · right
    have h5 : (1 : ℝ) ≤ n := by exact_mod_cast hn
    have h6 : (2 : ℝ) ^ (-16200 : ℤ) ≤ 2 ^ e := zpow_le_zpow_right₀ (by norm_num) (by omega)
    have h7 : (0 : ℝ) < 2 ^ e := by positivity
    generalize (2 : ℝ) ^ (-16200 : ℤ) = A at *
    nlinarith

theorem again_of {T : FloatType} (hT : T.Moderate) {neg : Bool} {m : ℝ} (hm : IsBinary T.bits T.emin T.emax m)
    (hlt : T.round (longDouble.round (printed (T.digits10 + 1) m)) < 2 ^ T.emax) :
    (stold (printFloat T (.finite neg m)) >>= narrow T) = .ok (.finite neg (T.round (longDouble.round (printed (T.digits10 + 1) m)))) := by
  obtain ⟨h1, h2, _⟩ := isBinary_bounds hT hm
  show (stold (printSign neg ++ printMag (T.digits10 + 1) m) >>= narrow T) = _
  rw [stold_print (Nat.succ_pos _) h1 h2, Res.ok_bind]
  exact if_neg (not_le.2 hlt)

/-- The error of printing and reading. -/
theorem again_near {T : FloatType} (hT : T.Moderate) {m r : ℝ} (hm : IsBinary T.bits T.emin T.emax m)
    (hr : (10 : ℝ) ^ (-(T.digits10 : ℤ)) / 2 + 2 ^ (-64 : ℤ) * 2 + 2 ^ (-(T.bits : ℤ)) * (1 + 10 ^ (-(T.digits10 : ℤ)) / 2) * (1 + 2 ^ (-64 : ℤ)) ≤ r) :
    |T.round (longDouble.round (printed (T.digits10 + 1) m)) - m| ≤ r * m + T.tiny / 2 := by
  obtain ⟨h1, h2, h0⟩ := isBinary_bounds hT hm
  rcases h0.eq_or_lt with rfl | hpos
  · rw [printed_zero]
    have hL : longDouble.round 0 = 0 := by simpa using longDouble.round_exact (by decide) (n := 0) (e := longDouble.emin + 1 - longDouble.bits) (by decide) le_rfl
    have h3 := T.round_near (le_refl (0 : ℝ))
    rw [hL]
    simpa using h3
  · have hb := printed_bounds (p := T.digits10 + 1) (Nat.succ_pos _) h0
    have hP := (sigDigits_spec (p := T.digits10 + 1) (Nat.succ_pos _) hpos).2.2.1
    rw [show (1 - ((T.digits10 + 1 : ℕ) : ℤ)) = -(T.digits10 : ℤ) by push_cast; ring] at hP
    set P := printed (T.digits10 + 1) m
    have hPl : (2 : ℝ) ^ longDouble.emin ≤ P := by
      have h3 := h1.resolve_left hpos.ne'
      have e1 : (2 : ℝ) ^ (-16200 : ℤ) = 2 ^ longDouble.emin * 2 ^ (182 : ℤ) := by
        rw [← zpow_add₀ (by norm_num)]; rfl
      have e2 : (0 : ℝ) < 2 ^ longDouble.emin := by positivity
      have e3 : (2 : ℝ) ≤ 2 ^ (182 : ℤ) := by norm_num
      rw [e1] at h3
      generalize (2 : ℝ) ^ longDouble.emin = A at *
      generalize (2 : ℝ) ^ (182 : ℤ) = B at *
      have := mul_le_mul_of_nonneg_left e3 e2.le
      linarith [hb.1]
    have hL := longDouble.round_near_normal hPl
    rw [longDouble_bits, show (-((64 : ℕ) : ℤ)) = -64 by norm_num] at hL
    have hP0 : 0 ≤ P := by linarith [hb.1]
    have hR := T.round_near (longDouble.round_nonneg hP0)
    set L := longDouble.round P
    set R := T.round L
    have hA0 : (0 : ℝ) ≤ 10 ^ (-(T.digits10 : ℤ)) / 2 := by positivity
    have hA1 : (10 : ℝ) ^ (-(T.digits10 : ℤ)) / 2 ≤ 1 := by
      have h2 : (10 : ℝ) ^ (-(T.digits10 : ℤ)) ≤ 10 ^ (0 : ℤ) := zpow_le_zpow_right₀ (by norm_num) (by omega)
      rw [zpow_zero] at h2
      linarith
    have hB0 : (0 : ℝ) < 2 ^ (-64 : ℤ) := by positivity
    have hC0 : (0 : ℝ) < 2 ^ (-(T.bits : ℤ)) := by positivity
    have hP' : |P - m| ≤ (10 ^ (-(T.digits10 : ℤ)) / 2) * m := by
      refine hP.trans (le_of_eq ?_); ring
    generalize (10 : ℝ) ^ (-(T.digits10 : ℤ)) / 2 = A at *
    generalize (2 : ℝ) ^ (-64 : ℤ) = B at *
    generalize (2 : ℝ) ^ (-(T.bits : ℤ)) = C at *
    have hPu : P ≤ (1 + A) * m := by linarith [(abs_le.1 hP').2]
    have hL1 : |L - P| ≤ B * 2 * m := by
      refine hL.trans ?_
      have := mul_le_mul_of_nonneg_right hb.2 hB0.le
      linarith
    have hLu : L ≤ (1 + A) * (1 + B) * m := by
      have h3 := (abs_le.1 hL).2
      have h4 : P * (1 + B) ≤ (1 + A) * m * (1 + B) := mul_le_mul_of_nonneg_right hPu (by linarith)
      linarith
    have hR1 : |R - L| ≤ C * (1 + A) * (1 + B) * m + T.tiny / 2 := by
      refine hR.trans ?_
      have := mul_le_mul_of_nonneg_right hLu hC0.le
      linarith
    have h5 := mul_le_mul_of_nonneg_right hr h0
    have h6 := abs_sub_le R L m
    have h7 := abs_sub_le L P m
    linarith

theorem printed_exact {p : Nat} (hp : 0 < p) {n : Nat} {k : ℤ} (hn : n < 10 ^ p) : printed p (n * 10 ^ k) = n * 10 ^ k := by
  rcases Nat.eq_zero_or_pos n with rfl | hpos
  · simp [printed_zero]
  · have hm : (0 : ℝ) < n * 10 ^ k := by positivity
    have := (sigDigits_spec hp hm).2.2.2 n k hn
    rw [sub_self, abs_zero] at this
    exact sub_eq_zero.1 (abs_eq_zero.1 (le_antisymm this (abs_nonneg _)))

theorem round_binary {T : FloatType} (hT : T.Moderate) {m : ℝ} (hm : IsBinary T.bits T.emin T.emax m) : T.round (longDouble.round m) = m := by
  obtain ⟨n, e, h1, h2, rfl, h4⟩ := hm
  have := hT.emin_ge
  have := hT.bits_le
  rw [longDouble.round_exact (by decide) (lt_of_lt_of_le h1 (Nat.pow_le_pow_right (by norm_num) (by rw [longDouble_bits]; omega)))
    (by rw [longDouble_emin, longDouble_bits]; push_cast; omega), T.round_exact hT.bits_pos h1 h2]

/-- Numbers with few decimal digits come back. -/
theorem again_exact {T : FloatType} (hT : T.Moderate) {neg : Bool} {m : ℝ} (hm : IsBinary T.bits T.emin T.emax m) {n : Nat} {k : ℤ}
    (hn : n < 10 ^ (T.digits10 + 1)) (he : m = n * 10 ^ k) : (stold (printFloat T (.finite neg m)) >>= narrow T) = .ok (.finite neg m) := by
  have h1 : printed (T.digits10 + 1) m = m := by rw [he]; exact printed_exact (Nat.succ_pos _) hn
  have h2 := again_of hT (neg := neg) hm (by rw [h1, round_binary hT hm]; obtain ⟨_, _, _, _, _, h⟩ := hm; exact h)
  rwa [h1, round_binary hT hm] at h2

/-- Numbers that are stored for a number with few decimal digits come back. -/
theorem again_stored {T : FloatType} (hT : T.Moderate) {neg : Bool} {m : ℝ} (hm : IsBinary T.bits T.emin T.emax m) (hl : (2 : ℝ) ^ T.emin ≤ m) (h2 : ∀ k : ℤ, m ≠ 2 ^ k)
    {n : Nat} {k : ℤ} (hn : n < 10 ^ (T.digits10 + 1)) (he : m = T.round (longDouble.round (n * 10 ^ k))) :
    (stold (printFloat T (.finite neg m)) >>= narrow T) = .ok (.finite neg m) := by
  have hm' := hm
  obtain ⟨q, e, h3, h4, h5, h6⟩ := hm'
  have hpos : 0 < m := lt_of_lt_of_le (by positivity) hl
  set j := Int.log 2 m with hj
  have hlo : (2 : ℝ) ^ j ≤ m := by exact_mod_cast Int.zpow_log_le_self (b := 2) (by norm_num) hpos
  have hhi : m < (2 : ℝ) ^ (j + 1) := by exact_mod_cast Int.lt_zpow_succ_log_self (b := 2) (by norm_num) m
  have hje : T.emin ≤ j := by
    have := (zpow_lt_zpow_iff_right₀ (by norm_num : (1 : ℝ) < 2)).1 (lt_of_le_of_lt hl hhi)
    omega
  have hge : j + 1 - T.bits ≤ e := by
    by_contra hc
    rw [not_le] at hc
    have h7 : m < 2 ^ j := by
      rw [h5]
      have h8 : (q : ℝ) < 2 ^ T.bits := by exact_mod_cast h3
      calc (q : ℝ) * 2 ^ e < 2 ^ T.bits * 2 ^ e := mul_lt_mul_of_pos_right h8 (by positivity)
        _ = 2 ^ ((T.bits : ℤ) + e) := by rw [← zpow_natCast, ← zpow_add₀ (by norm_num)]
        _ ≤ 2 ^ j := zpow_le_zpow_right₀ (by norm_num) (by omega)
    linarith
  obtain ⟨i, hi⟩ : ∃ i : ℕ, e = (j + 1 - T.bits) + i := ⟨(e - (j + 1 - T.bits)).toNat, by omega⟩
  have hmn : m = ((q * 2 ^ i : ℕ) : ℝ) * 2 ^ (j + 1 - (T.bits : ℤ)) := by
    rw [h5, hi, zpow_add₀ (by norm_num), zpow_natCast]
    push_cast
    ring
  have hb := hT.emin_ge
  have hr : T.round (longDouble.round (printed (T.digits10 + 1) m)) = m :=
    round_again hT.bits_pos hT.bits_le (by omega) hje hmn (lt_of_le_of_ne hlo (Ne.symm (h2 j))) hhi (by positivity) he.symm
      ((sigDigits_spec (Nat.succ_pos _) hpos).2.2.2 n k hn)
  have h7 := again_of hT (neg := neg) hm (by rw [hr]; exact h6)
  rwa [hr] at h7

/-- The result of rounding is a number of the type. -/
theorem round_isBinary {T : FloatType} (hb : 0 < T.bits) {y : ℝ} (hy : 0 ≤ y) (hlt : T.round y < 2 ^ T.emax) : IsBinary T.bits T.emin T.emax (T.round y) := by
  have grid : ∀ (e : ℤ), T.emin + 1 - T.bits ≤ e → y ≤ 2 ^ ((T.bits : ℤ) + e) → T.round y = roundEven (y / 2 ^ e) * 2 ^ e → IsBinary T.bits T.emin T.emax (T.round y) := by
    intro e he hye hr
    have h0 : (0 : ℝ) < 2 ^ e := by positivity
    have h1 : 0 ≤ y / 2 ^ e := div_nonneg hy h0.le
    have h2 : y / 2 ^ e ≤ 2 ^ T.bits := by
      rw [div_le_iff₀ h0, ← zpow_natCast, ← zpow_add₀ (by norm_num)]
      exact hye
    have h3 := abs_le.1 (roundEven_near (y / 2 ^ e))
    have h4 : 0 ≤ roundEven (y / 2 ^ e) := by
      have : (-1 : ℝ) < roundEven (y / 2 ^ e) := by linarith [h3.2]
      have : -1 < roundEven (y / 2 ^ e) := by exact_mod_cast this
      omega
    have h5 : roundEven (y / 2 ^ e) ≤ 2 ^ T.bits := by
      have : (roundEven (y / 2 ^ e) : ℝ) < ((2 ^ T.bits : ℤ) : ℝ) + 1 := by push_cast; linarith [h3.1]
      have : roundEven (y / 2 ^ e) < 2 ^ T.bits + 1 := by exact_mod_cast this
      omega
    obtain ⟨n, hn⟩ := Int.eq_ofNat_of_zero_le h4
    rw [hn] at h5 hr
    have h5' : n ≤ 2 ^ T.bits := by exact_mod_cast h5
    rcases h5'.lt_or_eq with h6 | h6
    · exact ⟨n, e, h6, he, by rw [hr]; simp, hlt⟩
    · refine ⟨2 ^ (T.bits - 1), e + 1, Nat.pow_lt_pow_right (by norm_num) (by omega), by omega, ?_, hlt⟩
      rw [hr, h6]
      obtain ⟨b, hb'⟩ : ∃ b, T.bits = b + 1 := ⟨T.bits - 1, by omega⟩
      rw [hb', zpow_add_one₀ (by norm_num)]
      push_cast
      ring
  rcases lt_or_ge y (2 ^ T.emin) with h | h
  · refine grid (T.emin + 1 - T.bits) le_rfl ?_ ?_
    · refine h.le.trans (zpow_le_zpow_right₀ (by norm_num) (by omega))
    · unfold FloatType.round
      rw [if_pos h]
      rfl
  · have hpos : 0 < y := lt_of_lt_of_le (by positivity) h
    have hhi : y < (2 : ℝ) ^ (Int.log 2 y + 1) := by exact_mod_cast Int.lt_zpow_succ_log_self (b := 2) (by norm_num) y
    have hj : T.emin ≤ Int.log 2 y := by
      have := (zpow_lt_zpow_iff_right₀ (by norm_num : (1 : ℝ) < 2)).1 (lt_of_le_of_lt h hhi)
      omega
    refine grid (Int.log 2 y + 1 - T.bits) (by omega) (by rw [show (T.bits : ℤ) + (Int.log 2 y + 1 - T.bits) = Int.log 2 y + 1 by ring]; exact hhi.le) ?_
    have hlo : (2 : ℝ) ^ (Int.log 2 y) ≤ y := by exact_mod_cast Int.zpow_log_le_self (b := 2) (by norm_num) hpos
    exact T.round_grid hb hj hy (Or.inl hlo) hhi.le

/-- What is stored for a decimal number. -/
theorem stored_plain {T : FloatType} {l : Text} {neg : Bool} {n places : Nat} (h : IsPlainDecimal l neg n places) {y : FloatValue} (hy : (stold l >>= narrow T) = .ok y) :
    y = .finite neg (T.round (longDouble.round (n * 10 ^ (-(places : ℤ))))) ∧ T.round (longDouble.round (n * 10 ^ (-(places : ℤ)))) < 2 ^ T.emax := by
  obtain ⟨x, e1, e2⟩ := Res.bind_eq_ok.1 hy
  unfold stold at e1
  rw [scan_plain h] at e1
  simp only [Nat.cast_ofNat] at e1
  split at e1
  · cases e1
  split at e1
  · cases e1
  cases e1
  unfold narrow at e2
  simp only at e2
  split at e2
  · cases e2
  · rename_i h3
    cases e2
    exact ⟨rfl, not_le.1 h3⟩

/-- The error of reading. -/
theorem read_near {T : FloatType} {v r M : ℝ} (hv : v = 0 ∨ (2 : ℝ) ^ (-16300 : ℤ) ≤ v) (hvM : v ≤ M)
    (hr : 2 ^ (-64 : ℤ) + 2 ^ (-(T.bits : ℤ)) * (1 + 2 ^ (-64 : ℤ)) ≤ r) (hM : (1 + r) * M + T.tiny / 2 < 2 ^ T.emax) :
    |T.round (longDouble.round v) - v| ≤ r * v + T.tiny / 2 ∧ T.round (longDouble.round v) < 2 ^ T.emax := by
  have h0 : 0 ≤ v := by
    rcases hv with h | h
    · rw [h]
    · exact le_trans (by positivity) h
  have hB0 : (0 : ℝ) < 2 ^ (-64 : ℤ) := by positivity
  have hC0 : (0 : ℝ) < 2 ^ (-(T.bits : ℤ)) := by positivity
  have hL : |longDouble.round v - v| ≤ v * 2 ^ (-64 : ℤ) := by
    rcases hv with h | h
    · have hL : longDouble.round 0 = 0 := by simpa using longDouble.round_exact (by decide) (n := 0) (e := longDouble.emin + 1 - longDouble.bits) (by decide) le_rfl
      rw [h, hL]; simp
    · exact longDouble.round_near_normal (le_trans (zpow_le_zpow_right₀ (by norm_num) (by rw [longDouble_emin]; norm_num)) h)
  have hR := T.round_near (longDouble.round_nonneg h0)
  have key : |T.round (longDouble.round v) - v| ≤ r * v + T.tiny / 2 := by
    generalize longDouble.round v = L at *
    generalize (2 : ℝ) ^ (-64 : ℤ) = B at *
    generalize (2 : ℝ) ^ (-(T.bits : ℤ)) = C at *
    have h1 : L ≤ (1 + B) * v := by linarith [(abs_le.1 hL).2]
    have h2 := mul_le_mul_of_nonneg_right h1 hC0.le
    have h3 := abs_sub_le (T.round L) L v
    have h4 := mul_le_mul_of_nonneg_right hr h0
    linarith
  refine ⟨key, ?_⟩
  have hr0 : 0 ≤ r := le_trans (by positivity) hr
  have h5 : (1 + r) * v ≤ (1 + r) * M := mul_le_mul_of_nonneg_left hvM (by linarith)
  linarith [(abs_le.1 key).2]

theorem scan_none {l : Text} (h : NoNumber l) : scanNumber l = none := by
  obtain ⟨gap, sign, rest, rfl, hg, hs, hc⟩ := h
  have h1 : ∃ neg, readSign ((gap ++ sign ++ rest).dropWhile isSpace) = (neg, rest) := by
    rw [List.append_assoc]
    have hgap : ∀ c ∈ gap, isSpace c = true := fun c hc => isBlank_isSpace (hg c hc)
    rcases hs with rfl | rfl | rfl
    · refine ⟨false, ?_⟩
      rw [dropWhile_append_of hgap, List.nil_append]
      · cases rest with
        | nil => rfl
        | cons c r =>
          have := (hc c rfl).2.2.2 rfl
          exact readSign_other this.2.2.1 this.2.2.2
      · intro c h
        rw [Bool.eq_false_iff]
        intro hsp
        have := (hc c h).2.2.2 rfl
        rcases isSpace_iff.1 hsp with h | h
        · exact this.1 h
        · exact this.2.1 h
    · exact ⟨true, by rw [dropWhile_append_of hgap (by intro c h; cases h; decide)]; rfl⟩
    · exact ⟨false, by rw [dropWhile_append_of hgap (by intro c h; cases h; decide)]; rfl⟩
  obtain ⟨neg, h1⟩ := h1
  unfold scanNumber
  rw [h1]
  cases rest with
  | nil => rfl
  | cons c r =>
    obtain ⟨h2, h3, h4, _⟩ := hc c rfl
    have h2' : c.isDigit = false := by simpa using h2
    have hci : ∀ (w : Char) (ws : Text), w ≠ c.toLower → startsCI (w :: ws) (c :: r) = false := by
      intro w ws hw
      unfold startsCI
      rw [List.map_cons, List.isPrefixOf_cons₂, beq_eq_false_iff_ne.2 hw, Bool.false_and]
    have hlow : c.toLower = c ∨ (65 ≤ c.toNat ∧ c.toNat ≤ 90 ∧ c.toLower.toNat = c.toNat + 32) := by
      unfold Char.toLower
      split
      · rename_i h
        right
        have a1 : (65 : UInt32).toNat ≤ c.val.toNat := h.1
        have a2 : c.val.toNat ≤ (90 : UInt32).toNat := h.2
        have b1 : (65 : UInt32).toNat = 65 := rfl
        have b2 : (90 : UInt32).toNat = 90 := rfl
        refine ⟨by show 65 ≤ c.val.toNat; omega, by show c.val.toNat ≤ 90; omega, ?_⟩
        show (c.val + 32).toNat = c.val.toNat + 32
        rw [UInt32.toNat_add]
        have : (32 : UInt32).toNat = 32 := rfl
        rw [this]
        omega
      · exact Or.inl rfl
    have hni : ∀ (w W : Char), w.toNat = W.toNat + 32 → c ≠ w → c ≠ W → w ≠ c.toLower := by
      intro w W hw h5 h6 e
      rcases hlow with h | ⟨_, _, h⟩
      · exact h5 (by rw [e, h])
      · refine h6 (Char.toNat_inj.1 ?_)
        rw [← e] at h
        omega
    have h0 : '0' ≠ c.toLower := by
      intro e
      rcases hlow with h | ⟨_, _, h⟩
      · rw [h] at e; subst e; exact absurd h2' (by decide)
      · rw [← e] at h
        have : '0'.toNat = 48 := rfl
        omega
    simp only [List.mem_cons, List.not_mem_nil, or_false, not_or] at h4
    simp only [hci 'i' _ (hni 'i' 'I' rfl h4.1 h4.2.1), hci 'n' _ (hni 'n' 'N' rfl h4.2.2.1 h4.2.2.2), hci '0' _ h0, Bool.false_eq_true, if_false]
    unfold scanDecimal
    have ht : (c :: r).takeWhile Char.isDigit = [] := by rw [List.takeWhile_cons, h2']; rfl
    have hdr : (c :: r).dropWhile Char.isDigit = c :: r := by rw [List.dropWhile_cons, h2']; rfl
    rw [ht, hdr, readFraction_none (by intro e; cases e; exact h3 rfl)]
    rfl

end RK
