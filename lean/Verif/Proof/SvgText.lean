import Verif.Model.SvgText
import Verif.Spec.Svg
import Verif.Proof.ArcTools
import Verif.Proof.FloatVector
/-! # The text of the drawing of a graph: proofs -/
namespace RK
open Spec Ieee

/-! ### Printed numbers -/

theorem denotes_withFraction {neg : Bool} {a b t : Text} {x : ℤ} (ha : a ≠ []) (had : ∀ c ∈ a, c.isDigit = true) (hb : ∀ c ∈ b, c.isDigit = true)
    (ht : (t = [] ∧ x = 0) ∨ t = printExponent x) :
    DenotesDecimal (printSign neg ++ (withFraction a b ++ t)) ((if neg then -1 else 1) * (Nat.ofDigitChars 10 (a ++ b) 0 * 10 ^ (x - b.length))) := by
  obtain ⟨n, hn⟩ := stripZeros_spec b
  have hs : ∀ c ∈ stripZeros b, c.isDigit = true := fun c hc => hb c (by rw [hn]; exact List.mem_append_left _ hc)
  have hval : Nat.ofDigitChars 10 (a ++ b) 0 = Nat.ofDigitChars 10 (a ++ stripZeros b) 0 * 10 ^ n := by
    conv_lhs => rw [hn, ← List.append_assoc, Nat.ofDigitChars_append, Nat.ofDigitChars_replicate_zero]
    rw [Nat.mul_comm]
  refine ⟨neg, a, stripZeros b, t, x, ?_, ha, ?_, ?_, ?_⟩
  · unfold withFraction printSign
    by_cases h : stripZeros b = []
    · simp [h]
    · simp [h]
  · intro c hc
    rcases List.mem_append.1 hc with h | h
    · exact had c h
    · exact hs c h
  · rcases ht with h | h
    · exact Or.inl h
    · right
      have hd : ∀ n, ∀ c ∈ printNat n, c.isDigit = true := fun n c hc => Nat.isDigit_of_mem_toDigits (by decide) (by decide) hc
      have hv : ∀ n, Nat.ofDigitChars 10 (printNat n) 0 = n := fun n => Nat.ofDigitChars_ten_toDigits
      have key : ∃ ds, ds ≠ [] ∧ (∀ c ∈ ds, c.isDigit = true) ∧ printExponent x = 'e' :: (if x < 0 then '-' else '+') :: ds ∧
          Nat.ofDigitChars 10 ds 0 = x.natAbs := by
        unfold printExponent
        refine ⟨_, ?_, ?_, rfl, ?_⟩
        · split
          · simp
          · exact Nat.toDigits_ne_nil
        · split
          · intro c hc
            rcases List.mem_cons.1 hc with h | h
            · rw [h]; decide
            · exact hd _ _ h
          · exact hd _
        · split
          · rw [Nat.ofDigitChars_cons]
            exact hv _
          · exact hv _
      obtain ⟨ds, h1, h2, h3, h4⟩ := key
      refine ⟨ds, h1, h2, ?_⟩
      rw [h, h3, h4]
      by_cases h0 : x < 0
      · left
        rw [if_pos h0]
        exact ⟨rfl, by omega⟩
      · right
        rw [if_neg h0]
        exact ⟨rfl, by omega⟩
  · congr 1
    rw [hval]
    have hl : (b.length : ℤ) = (stripZeros b).length + n := by
      conv_lhs => rw [hn]
      simp
    rw [hl]
    push_cast
    rw [mul_assoc, ← zpow_natCast (10 : ℝ) n, ← zpow_add₀ (by norm_num)]
    congr 2
    ring

/-- What `%g` writes is a decimal number. -/
theorem denotes_layoutG {neg : Bool} {p d : Nat} {x : Int} (h1 : 10 ^ (p - 1) ≤ d) (h2 : d < 10 ^ p) :
    DenotesDecimal (printSign neg ++ layoutG p d x) ((if neg then -1 else 1) * (d * 10 ^ (x + 1 - p))) := by
  have hd0 : 0 < d := lt_of_lt_of_le (by positivity) h1
  have hp : 0 < p := by
    rcases Nat.eq_zero_or_pos p with rfl | hp
    · simp at h2; omega
    · exact hp
  have hdig : ∀ c ∈ Nat.toDigits 10 d, c.isDigit = true := fun c hc => Nat.isDigit_of_mem_toDigits (by decide) (by decide) hc
  have hlen : (Nat.toDigits 10 d).length = p := by
    have ha := (Nat.length_toDigits_le_iff (b := 10) (n := d) (k := p) (by decide) hp).2 h2
    have hb : ¬ (Nat.toDigits 10 d).length ≤ p - 1 := by
      intro hle
      rcases Nat.eq_zero_or_pos (p - 1) with h0 | h0
      · have := @Nat.length_toDigits_pos 10 d
        omega
      · have := (Nat.length_toDigits_le_iff (b := 10) (n := d) (k := p - 1) (by decide) h0).1 hle
        omega
    omega
  have main : ∃ a b t e, layoutG p d x = withFraction a b ++ t ∧ a ≠ [] ∧ (∀ c ∈ a, c.isDigit = true) ∧ (∀ c ∈ b, c.isDigit = true) ∧
      ((t = [] ∧ e = 0) ∨ t = printExponent e) ∧ Nat.ofDigitChars 10 (a ++ b) 0 = d ∧ e - (b.length : ℤ) = x + 1 - p := by
    unfold layoutG
    simp only
    split
    · rename_i hx
      split
      · rename_i h0
        refine ⟨(Nat.toDigits 10 d).take (x.toNat + 1), (Nat.toDigits 10 d).drop (x.toNat + 1), [], 0, by simp, ?_, fun c hc => hdig c (List.mem_of_mem_take hc),
          fun c hc => hdig c (List.mem_of_mem_drop hc), Or.inl ⟨rfl, rfl⟩, ?_, ?_⟩
        · intro e
          have := congrArg List.length e
          simp [hlen] at this
          omega
        · rw [List.take_append_drop]; exact Nat.ofDigitChars_ten_toDigits
        · rw [List.length_drop, hlen]
          omega
      · rename_i h0
        refine ⟨['0'], List.replicate (-x - 1).toNat '0' ++ Nat.toDigits 10 d, [], 0, by simp, by simp, by simp, ?_, Or.inl ⟨rfl, rfl⟩, ?_, ?_⟩
        · intro c hc
          rcases List.mem_append.1 hc with hc | hc
          · rw [List.eq_of_mem_replicate hc]; decide
          · exact hdig c hc
        · rw [List.singleton_append, Nat.ofDigitChars_cons, Nat.ofDigitChars_append]
          have : 10 * 0 + ('0'.toNat - '0'.toNat) = 0 := rfl
          rw [this, Nat.ofDigitChars_replicate_zero, Nat.mul_zero]
          exact Nat.ofDigitChars_ten_toDigits
        · rw [List.length_append, List.length_replicate, hlen]
          omega
    · refine ⟨(Nat.toDigits 10 d).take 1, (Nat.toDigits 10 d).drop 1, printExponent x, x, rfl, ?_, fun c hc => hdig c (List.mem_of_mem_take hc),
        fun c hc => hdig c (List.mem_of_mem_drop hc), Or.inr rfl, ?_, ?_⟩
      · intro e
        have := congrArg List.length e
        simp [hlen] at this
        omega
      · rw [List.take_append_drop]; exact Nat.ofDigitChars_ten_toDigits
      · rw [List.length_drop, hlen]
        omega
  obtain ⟨a, b, t, e, hl, ha, had, hbd, ht, hv, he⟩ := main
  have h := denotes_withFraction (neg := neg) ha had hbd ht
  rwa [← hl, hv, he] at h

/-- The number that is printed. -/
theorem denotes_printMag {p : Nat} (hp : 0 < p) {neg : Bool} {m : ℝ} (hm : 0 ≤ m) :
    DenotesDecimal (printSign neg ++ printMag p m) ((if neg then -1 else 1) * printed p m) := by
  unfold printMag
  split
  · rename_i h0
    rw [h0, printed_zero]
    refine ⟨neg, ['0'], [], [], 0, by cases neg <;> rfl, by simp, by decide, Or.inl ⟨rfl, rfl⟩, ?_⟩
    simp [Nat.ofDigitChars]
  · rename_i hne
    obtain ⟨h3, h4, _, _⟩ := sigDigits_spec hp (lt_of_le_of_ne hm (Ne.symm hne))
    exact denotes_layoutG h3 h4

theorem printed_nonneg (p : Nat) (m : ℝ) : 0 ≤ printed p m := by unfold printed; positivity

/-- Numbers below 1000 are printed with an error of at most 0.0005. -/
theorem printed6_near {m : ℝ} (hm : 0 ≤ m) (h : m ≤ 900) : |printed 6 m - m| ≤ 1 / 2000 := by
  rcases hm.eq_or_lt with rfl | hm
  · rw [printed_zero]; norm_num
  have h1 := (sigDigits_spec (p := 6) (by norm_num) hm).2.2.2 (roundEven (m * 1000)).toNat (-3)
  have h2 := abs_le.1 (roundEven_near (m * 1000))
  have h3 : 0 ≤ roundEven (m * 1000) := by
    have : (-1 : ℝ) < roundEven (m * 1000) := by linarith [h2.2]
    have : -1 < roundEven (m * 1000) := by exact_mod_cast this
    omega
  have h4 : ((roundEven (m * 1000)).toNat : ℝ) = roundEven (m * 1000) := by
    exact_mod_cast Int.toNat_of_nonneg h3
  have h5 : (roundEven (m * 1000)).toNat < 10 ^ 6 := by
    have : ((roundEven (m * 1000)).toNat : ℝ) < 10 ^ 6 := by rw [h4]; linarith [h2.1]
    exact_mod_cast this
  refine (h1 h5).trans ?_
  rw [h4, abs_le, show (10 : ℝ) ^ (-3 : ℤ) = 1 / 1000 by norm_num]
  constructor <;> linarith [h2.1, h2.2]

/-- Numbers that are hardly above 300 are printed as 300. -/
theorem printed6_le {m : ℝ} (hm : 0 ≤ m) (h : m ≤ 300 + 1 / 10000) : printed 6 m ≤ 300 := by
  rcases hm.eq_or_lt with rfl | hm
  · rw [printed_zero]; norm_num
  rcases le_or_gt m 300 with h3 | h3
  · have h1 := (sigDigits_spec (p := 6) (by norm_num) hm).2.2.2 300 0 (by norm_num)
    rw [zpow_zero, mul_one, abs_of_nonneg (a := ((300 : ℕ) : ℝ) - m) (by push_cast; linarith)] at h1
    have := (abs_le.1 h1).2
    push_cast at this
    linarith
  · have hlo : (10 : ℝ) ^ (2 : ℤ) ≤ m := by norm_num; linarith
    have hhi : m < (10 : ℝ) ^ ((2 : ℤ) + 1) := by norm_num; linarith
    have hlog : Int.log 10 m = 2 := by
      apply le_antisymm
      · have := (Int.lt_zpow_iff_log_lt (b := 10) (by norm_num) hm (x := 3)).1 (by exact_mod_cast hhi)
        omega
      · exact (Int.zpow_le_iff_le_log (b := 10) (by norm_num) hm).1 (by exact_mod_cast hlo)
    have hr : roundEven (m / 10 ^ (Int.log 10 m + 1 - ((6 : ℕ) : ℤ))) = 300000 := by
      rw [hlog, roundEven_iff]
      left
      rw [show (10 : ℝ) ^ ((2 : ℤ) + 1 - ((6 : ℕ) : ℤ)) = 1 / 1000 by norm_num, abs_lt]
      push_cast
      constructor <;> linarith
    have hs : sigDigits 6 m = (300000, 2) := by
      unfold sigDigits
      simp only [hr]
      rw [hlog]
      rfl
    unfold printed
    rw [hs]
    norm_num

/-! ### Arithmetic -/

/-- A multiple of the smallest number. -/
def TinyMultiple (x : ℝ) : Prop := ∃ n : ℕ, x = n * float32.tiny

theorem round_multiple {x : ℝ} (h : TinyMultiple x) : |float32.round x - x| ≤ x * (1 / 16777216) := by
  obtain ⟨n, rfl⟩ := h
  have ht := float32.tiny_pos
  by_cases hlt : (n : ℝ) * float32.tiny < 2 ^ float32.emin
  · have : float32.round (n * float32.tiny) = n * float32.tiny := by
      unfold FloatType.round
      rw [if_pos hlt, mul_div_assoc, div_self ht.ne', mul_one]
      have := roundEven_int (n : ℤ)
      push_cast at this
      rw [this]
      push_cast
      rfl
    rw [this, sub_self, abs_zero]
    positivity
  · have h := float32.round_near_normal (not_lt.1 hlt)
    have e : (2 : ℝ) ^ (-float32.bits : ℤ) = 1 / 16777216 := by
      show (2 : ℝ) ^ (-((24 : ℕ) : ℤ)) = _
      norm_num
    rwa [e] at h

theorem binary_multiple {m : ℝ} (h : IsBinary 24 (-126) 128 m) : TinyMultiple m := by
  obtain ⟨n, e, _, he, rfl, _⟩ := h
  obtain ⟨j, hj⟩ : ∃ j : ℕ, e = (-126 + 1 - ((24 : ℕ) : ℤ)) + j := ⟨(e - (-126 + 1 - ((24 : ℕ) : ℤ))).toNat, by omega⟩
  refine ⟨n * 2 ^ j, ?_⟩
  rw [hj, zpow_add₀ (by norm_num), zpow_natCast]
  show _ = _ * (2 : ℝ) ^ ((-126 : ℤ) + 1 - ((24 : ℕ) : ℤ))
  push_cast
  ring

theorem multiple_sub {x y : FloatValue} {a b : Bool} {m k : ℝ} (hx : x = .finite a m) (hy : y = .finite b k) (hm : TinyMultiple m) (hk : TinyMultiple k)
    (h : y.value ≤ x.value) : TinyMultiple (x.value - y.value) := by
  obtain ⟨n, rfl⟩ := hm
  obtain ⟨n', rfl⟩ := hk
  subst hx hy
  have ht := float32.tiny_pos
  have key : ∀ z : ℤ, 0 ≤ (z : ℝ) * float32.tiny → TinyMultiple (z * float32.tiny) := by
    intro z hz
    have : (0 : ℝ) ≤ z := by
      by_contra hn
      have := mul_neg_of_neg_of_pos (not_le.1 hn) ht
      linarith
    have hz' : 0 ≤ z := by exact_mod_cast this
    obtain ⟨w, rfl⟩ := Int.eq_ofNat_of_zero_le hz'
    exact ⟨w, by simp⟩
  have h0 := sub_nonneg.2 h
  have e : (FloatValue.finite a (n * float32.tiny)).value - (FloatValue.finite b (n' * float32.tiny)).value =
      (((if a then -(n : ℤ) else n) - (if b then -(n' : ℤ) else n') : ℤ) : ℝ) * float32.tiny := by
    unfold FloatValue.value
    cases a <;> cases b <;> simp <;> ring
  rw [e] at h0 ⊢
  exact key _ h0

theorem tiny32_small : float32.tiny / 2 ≤ 1 / 10 ^ 9 := by
  show (2 : ℝ) ^ ((-126 : ℤ) + 1 - ((24 : ℕ) : ℤ)) / 2 ≤ _
  have : (2 : ℝ) ^ ((-126 : ℤ) + 1 - ((24 : ℕ) : ℤ)) ≤ 2 ^ (-40 : ℤ) := zpow_le_zpow_right₀ (by norm_num) (by norm_num)
  have h2 : (2 : ℝ) ^ (-40 : ℤ) ≤ 1 / 10 ^ 9 := by norm_num
  linarith [float32.tiny_pos]

theorem round32_near {x : ℝ} (hx : 0 ≤ x) : |float32.round x - x| ≤ x * (1 / 16777216) + 1 / 10 ^ 9 := by
  have h := float32.round_near hx
  have e : (2 : ℝ) ^ (-float32.bits : ℤ) = 1 / 16777216 := by
    show (2 : ℝ) ^ (-((24 : ℕ) : ℤ)) = _
    norm_num
  rw [e] at h
  linarith [tiny32_small]

theorem round32_zero : float32.round 0 = 0 := by
  have := float32.round_exact (by decide) (n := 0) (e := 0) (by decide) (by decide)
  simpa using this

theorem pow128 : (10 : ℝ) ^ 38 ≤ 2 ^ float32.emax := by
  show _ ≤ (2 : ℝ) ^ (128 : ℤ)
  norm_num

theorem result_finite {neg : Bool} {m : ℝ} (h : float32.round m < 10 ^ 38) : float32.result neg m = .finite neg (float32.round m) := by
  unfold FloatType.result
  rw [if_neg]
  have := pow128
  intro h2
  linarith

/-- The difference of two numbers. -/
theorem sub_ok {a b : Bool} {m k : ℝ} (hm : TinyMultiple m) (hk : TinyMultiple k) (hm2 : m ≤ 10 ^ 30) (hk2 : k ≤ 10 ^ 30)
    (h : (FloatValue.finite b k).value ≤ (FloatValue.finite a m).value) :
    ∃ neg c, float32.sub (.finite a m) (.finite b k) = .finite neg c ∧ TinyMultiple c ∧ 0 ≤ c ∧ (neg = true → c = 0) ∧ c ≤ 10 ^ 31 ∧
      |c - ((FloatValue.finite a m).value - (FloatValue.finite b k).value)| ≤ ((FloatValue.finite a m).value - (FloatValue.finite b k).value) * (1 / 16777216) := by
  have h1 := multiple_sub rfl rfl hm hk h
  have ht := float32.tiny_pos
  have hbig : (FloatValue.finite a m).value - (FloatValue.finite b k).value ≤ 2 * 10 ^ 30 := by
    have hm0 : 0 ≤ m := by obtain ⟨n, rfl⟩ := hm; positivity
    have hk0 : 0 ≤ k := by obtain ⟨n, rfl⟩ := hk; positivity
    unfold FloatValue.value
    cases a <;> cases b <;> simp <;> linarith
  unfold FloatType.sub
  simp only
  generalize (FloatValue.finite a m).value - (FloatValue.finite b k).value = d at *
  have hd : 0 ≤ d := by obtain ⟨n, rfl⟩ := h1; positivity
  have hr := round_multiple h1
  split
  · rename_i h0
    refine ⟨_, 0, rfl, ⟨0, by simp⟩, le_rfl, fun _ => rfl, by norm_num, by rw [h0]; simp⟩
  · rename_i h0
    have hr2 := (abs_le.1 hr).2
    have hr3 : float32.round d ≤ 10 ^ 31 := by
      norm_num at *
      linarith
    have hr4 := float32.round_nonneg hd
    refine ⟨false, float32.round d, ?_, ?_, hr4, by simp, hr3, hr⟩
    · rw [abs_of_nonneg hd, result_finite (by norm_num at *; linarith)]
      congr
      simpa using hd
    · exact binary_multiple (round_isBinary (T := float32) (by decide) hd (by have := pow128; norm_num at *; linarith))

/-- The position of a number on the scale. -/
theorem scaled_ok {x lo hi : FloatValue} {a b c : Bool} {m k l : ℝ} (ex : x = .finite a m) (el : lo = .finite b k) (eh : hi = .finite c l)
    (hm : TinyMultiple m) (hk : TinyMultiple k) (hl : TinyMultiple l) (hm2 : m ≤ 10 ^ 30) (hk2 : k ≤ 10 ^ 30) (hl2 : l ≤ 10 ^ 30)
    (h1 : lo.value ≤ x.value) (h2 : x.value ≤ hi.value) (h3 : lo.value < hi.value) :
    ∃ neg r, float32.div (float32.mul (float32.sub x lo) float300) (float32.sub hi lo) = .finite neg r ∧ 0 ≤ r ∧ (neg = true → r = 0) ∧
      |r - 300 * (x.value - lo.value) / (hi.value - lo.value)| ≤ 9 / 100000 := by
  subst ex el eh
  obtain ⟨n1, d1, e1, t1, p1, z1, g1, r1⟩ := sub_ok hm hk hm2 hk2 h1
  obtain ⟨n2, d2, e2, t2, p2, z2, g2, r2⟩ := sub_ok hl hk hl2 hk2 h3.le
  rw [e1, e2]
  have hd : 0 ≤ (FloatValue.finite a m).value - (FloatValue.finite b k).value := sub_nonneg.2 h1
  have hD : 0 < (FloatValue.finite c l).value - (FloatValue.finite b k).value := sub_pos.2 h3
  have hdD : (FloatValue.finite a m).value - (FloatValue.finite b k).value ≤ (FloatValue.finite c l).value - (FloatValue.finite b k).value := by linarith
  generalize (FloatValue.finite a m).value - (FloatValue.finite b k).value = d at *
  generalize (FloatValue.finite c l).value - (FloatValue.finite b k).value = D at *
  have r1' := abs_le.1 r1
  have r2' := abs_le.1 r2
  have hd2 : 0 < d2 := by linarith [r2'.1]
  have hn2 : n2 = false := by
    cases n2 with
    | false => rfl
    | true => exact absurd (z2 rfl) hd2.ne'
  subst hn2
  have t3 : TinyMultiple (d1 * 300) := by
    obtain ⟨n, rfl⟩ := t1
    exact ⟨n * 300, by push_cast; ring⟩
  have r3 := abs_le.1 (round_multiple t3)
  have p3 := float32.round_nonneg (x := d1 * 300) (by linarith)
  have em : float32.mul (.finite n1 d1) float300 = .finite n1 (float32.round (d1 * 300)) := by
    show float32.result (n1 != false) (d1 * 300) = _
    rw [result_finite (by norm_num at *; linarith [r3.2]), Bool.bne_false]
  have z3 : n1 = true → float32.round (d1 * 300) = 0 := fun h => by rw [z1 h, zero_mul, round32_zero]
  rw [em]
  generalize float32.round (d1 * 300) = c3 at *
  have hq : 0 ≤ c3 / d2 := div_nonneg p3 hd2.le
  set P := 300 * d / D with hP
  have hP0 : 0 ≤ P := div_nonneg (by linarith) hD.le
  have hP3 : P ≤ 300 := by rw [hP, div_le_iff₀ hD]; linarith
  have hPD : P * D = 300 * d := by rw [hP, div_mul_cancel₀ _ hD.ne']
  have q1 : c3 / d2 ≤ P * (1 + 4 / 16777216) := by
    rw [div_le_iff₀ hd2]
    have : P * (D * (1 - 1 / 16777216)) ≤ P * d2 := mul_le_mul_of_nonneg_left (by linarith [r2'.1]) hP0
    nlinarith [r1'.2, r3.2]
  have q2 : P * (1 - 4 / 16777216) ≤ c3 / d2 := by
    rw [le_div_iff₀ hd2]
    have : P * d2 ≤ P * (D * (1 + 1 / 16777216)) := mul_le_mul_of_nonneg_left (by linarith [r2'.2]) hP0
    nlinarith [r1'.1, r3.1]
  have r4 := abs_le.1 (round32_near hq)
  have p4 := float32.round_nonneg hq
  refine ⟨n1, float32.round (c3 / d2), ?_, p4, ?_, ?_⟩
  · show (if d2 = 0 then _ else float32.result (n1 != false) (c3 / d2)) = _
    rw [if_neg hd2.ne', result_finite (by norm_num at *; linarith [r4.2]), Bool.bne_false]
  · intro h
    rw [z3 h, zero_div, round32_zero]
  · rw [abs_le]
    constructor <;> norm_num at * <;> linarith [r4.1, r4.2]

theorem right_text {neg : Bool} {r P : ℝ} (hr : 0 ≤ r) (hz : neg = true → r = 0) (h : |r - P| ≤ 9 / 100000) (hP : 0 ≤ P) (hP3 : P ≤ 300) :
    ∃ t, DenotesDecimal (printDefault (.finite neg r)) t ∧ |t - P| ≤ 1 / 1000 ∧ 0 ≤ t ∧ t ≤ 300 := by
  have h' := abs_le.1 h
  have h1 := denotes_printMag (p := 6) (by norm_num) (neg := neg) hr
  have e : (if neg then (-1 : ℝ) else 1) * printed 6 r = printed 6 r := by
    cases neg with
    | false => simp
    | true => rw [hz rfl, printed_zero]; simp
  rw [e] at h1
  have h2 := abs_le.1 (printed6_near hr (by linarith))
  refine ⟨_, h1, ?_, printed_nonneg 6 r, printed6_le hr (by linarith)⟩
  rw [abs_le]
  constructor <;> linarith [h2.1, h2.2, h'.1, h'.2]

theorem down_text {neg : Bool} {r P : ℝ} (hr : 0 ≤ r) (hz : neg = true → r = 0) (h : |r - P| ≤ 9 / 100000) (hP : 0 ≤ P) (hP3 : P ≤ 300) :
    ∃ t, DenotesDecimal (printDefault (float32.sub float300 (.finite neg r))) t ∧ |t - (300 - P)| ≤ 1 / 1000 ∧ -1 / 10000 ≤ t ∧ t ≤ 300 := by
  have h' := abs_le.1 h
  have ev : (FloatValue.finite neg r).value = r := by
    unfold FloatValue.value
    cases neg with
    | false => simp
    | true => rw [hz rfl]; simp
  have ev3 : (FloatValue.finite false 300).value = 300 := by simp [FloatValue.value]
  have es : float32.sub float300 (.finite neg r) = if 300 - r = 0 then .finite (false && !neg) 0 else float32.result (decide (300 - r < 0)) |300 - r| := by
    unfold float300 FloatType.sub
    simp only [ev, ev3]
  rw [es]
  split
  · rename_i h0
    refine ⟨0, ?_, ?_, by norm_num, by norm_num⟩
    · have h1 := denotes_printMag (p := 6) (by norm_num) (neg := false) le_rfl
      rw [printed_zero, mul_zero] at h1
      exact h1
    · rw [abs_le]
      constructor <;> linarith [h'.1, h'.2]
  · rename_i h0
    have hd := abs_nonneg (300 - r)
    have hd2 : |300 - r| ≤ 300 := by rw [abs_le]; constructor <;> linarith [h'.1, h'.2]
    have r1 := abs_le.1 (round32_near hd)
    have p1 := float32.round_nonneg hd
    rw [result_finite (by norm_num at *; linarith [r1.2])]
    have h1 := denotes_printMag (p := 6) (by norm_num) (neg := decide (300 - r < 0)) p1
    have h2 := abs_le.1 (printed6_near p1 (by norm_num at *; linarith [r1.2]))
    have h3 := printed6_le p1 (by norm_num at *; linarith [r1.2])
    have h4 := printed_nonneg 6 (float32.round |300 - r|)
    refine ⟨_, h1, ?_⟩
    by_cases hneg : 300 - r < 0
    · have hs : printed 6 (float32.round |300 - r|) ≤ 1 / 10000 := by
        rcases p1.eq_or_lt with hz0 | hz0
        · rw [← hz0, printed_zero]; norm_num
        · have h5 := (abs_le.1 (sigDigits_spec (p := 6) (by norm_num) hz0).2.2.1).2
          rw [show (10 : ℝ) ^ (1 - ((6 : ℕ) : ℤ)) = 1 / 100000 by norm_num] at h5
          have : |300 - r| ≤ 9 / 100000 := by rw [abs_of_neg hneg]; linarith [h'.2]
          norm_num at *
          linarith [r1.2]
      rw [abs_of_neg hneg] at *
      simp only [hneg, decide_true, if_true]
      refine ⟨?_, by linarith, by linarith⟩
      rw [abs_le]
      constructor <;> norm_num at * <;> linarith [h2.1, h2.2, h'.1, h'.2, r1.1, r1.2]
    · rw [abs_of_nonneg (not_lt.1 hneg)] at *
      simp only [hneg, decide_false, Bool.false_eq_true, if_false, one_mul]
      refine ⟨?_, by linarith, by linarith⟩
      rw [abs_le]
      constructor <;> norm_num at * <;> linarith [h2.1, h2.2, h'.1, h'.2, r1.1, r1.2]

end RK
