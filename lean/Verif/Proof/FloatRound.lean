import Verif.Model.FloatText
import Verif.Proof.GeoFloat
/-! # Rounding to decimal digits and to floating point types: proofs -/
namespace RK
open Ieee

theorem roundEven_iff {y : ℝ} {n : ℤ} : roundEven y = n ↔ |y - n| < 1 / 2 ∨ (|y - n| = 1 / 2 ∧ Even n) := by
  constructor
  · rintro rfl
    rcases (roundEven_near y).lt_or_eq with h | h
    · exact Or.inl h
    · refine Or.inr ⟨h, ?_⟩
      rcases (abs_eq (by norm_num)).1 h with h1 | h1
      · have ht := roundEven_tie (y := y) (n := roundEven y) (by linarith)
        split at ht
        · assumption
        · omega
      · have ht := roundEven_tie (y := y) (n := roundEven y - 1) (by push_cast; linarith)
        split at ht
        · omega
        · rename_i ho
          rw [Int.not_even_iff_odd] at ho
          have := ho.add_one
          simpa using this
  · rintro (h | ⟨h, he⟩)
    · exact roundEven_eq h
    · rcases (abs_eq (by norm_num)).1 h with h1 | h1
      · have ht := roundEven_tie (y := y) (n := n) (by linarith)
        rwa [if_pos he] at ht
      · have ht := roundEven_tie (y := y) (n := n - 1) (by push_cast; linarith)
        rw [if_neg (by rw [Int.not_even_iff_odd]; exact Even.sub_odd he odd_one)] at ht
        omega

theorem roundEven_closer {n : ℤ} {t t' : ℝ} (h : roundEven (n + t) = n) (hle : |t'| ≤ |t|) : roundEven (n + t') = n := by
  rw [roundEven_iff] at h ⊢
  simp only [add_sub_cancel_left] at h ⊢
  rcases h with h | ⟨h, he⟩
  · exact Or.inl (lt_of_le_of_lt hle h)
  · rcases hle.lt_or_eq with h1 | h1
    · exact Or.inl (by rw [← h]; exact h1)
    · exact Or.inr ⟨h1.trans h, he⟩

theorem roundEven_shift {M : ℤ} (hM : Even M) (y : ℝ) : roundEven (M + y) = M + roundEven y := by
  have h := (roundEven_iff (y := y) (n := roundEven y)).1 rfl
  rw [roundEven_iff]
  have e : (M : ℝ) + y - ((M + roundEven y : ℤ) : ℝ) = y - roundEven y := by push_cast; ring
  rw [e]
  rcases h with h | ⟨h, he⟩
  · exact Or.inl h
  · exact Or.inr ⟨h, hM.add he⟩

theorem roundEven_abs_mono {a b : ℝ} (h : |a| ≤ |b|) : |roundEven a| ≤ |roundEven b| := by
  by_contra hc
  rw [not_le] at hc
  have ha := (roundEven_iff (y := a) (n := roundEven a)).1 rfl
  have hb := (roundEven_iff (y := b) (n := roundEven b)).1 rfl
  have h1 : (|roundEven b| : ℝ) + 1 ≤ |(roundEven a : ℝ)| := by exact_mod_cast hc
  have h2 : |(roundEven a : ℝ)| - |a| ≤ |a - roundEven a| := by
    rw [abs_sub_comm]; exact abs_sub_abs_le_abs_sub _ _
  have h3 : |b| - |(roundEven b : ℝ)| ≤ |b - roundEven b| := abs_sub_abs_le_abs_sub _ _
  have ha' : |a - roundEven a| ≤ 1 / 2 := roundEven_near a
  have hb' : |b - roundEven b| ≤ 1 / 2 := roundEven_near b
  have ea : Even (roundEven a) := by
    rcases ha with ha | ha
    · linarith
    · exact ha.2
  have eb : Even (roundEven b) := by
    rcases hb with hb | hb
    · linarith
    · exact hb.2
  have h5 : |(roundEven a : ℝ)| = |(roundEven b : ℝ)| + 1 := by linarith
  have h6 : |roundEven a| = |roundEven b| + 1 := by exact_mod_cast h5
  have e1 := even_abs.2 ea
  have e2 := even_abs.2 eb
  rw [h6] at e1
  obtain ⟨r, hr⟩ := e1
  obtain ⟨s, hs⟩ := e2
  omega

/-- No integer is nearer than the result of rounding. -/
theorem roundEven_nearest (y : ℝ) (n : ℤ) : |(roundEven y : ℝ) - y| ≤ |n - y| := by
  have h := roundEven_near y
  rw [abs_sub_comm] at h
  by_cases hn : n = roundEven y
  · rw [hn]
  · have h1 : (1 : ℝ) ≤ |(n : ℝ) - roundEven y| := by
      have : 1 ≤ |n - roundEven y| := Int.one_le_abs (sub_ne_zero.2 hn)
      exact_mod_cast this
    have h2 := abs_sub_le (n : ℝ) y (roundEven y)
    rw [abs_sub_comm y] at h2
    linarith

/-- The number that is printed with `p` significant digits. -/
noncomputable def printed (p : Nat) (m : ℝ) : ℝ := (sigDigits p m).1 * 10 ^ ((sigDigits p m).2 + 1 - p)

theorem sigDigits_spec {p : Nat} (hp : 0 < p) {m : ℝ} (hm : 0 < m) :
    10 ^ (p - 1) ≤ (sigDigits p m).1 ∧ (sigDigits p m).1 < 10 ^ p ∧ |printed p m - m| ≤ m * 10 ^ (1 - p : ℤ) / 2 ∧
      ∀ (a : Nat) (k : ℤ), a < 10 ^ p → |printed p m - m| ≤ |a * 10 ^ k - m| := by
  obtain ⟨q, rfl⟩ : ∃ q, p = q + 1 := ⟨p - 1, by omega⟩
  set e := Int.log 10 m with he
  have hlo : (10 : ℝ) ^ e ≤ m := by exact_mod_cast Int.zpow_log_le_self (b := 10) (by norm_num) hm
  have hhi : m < (10 : ℝ) ^ (e + 1) := by exact_mod_cast Int.lt_zpow_succ_log_self (b := 10) (by norm_num) m
  have hg : (0 : ℝ) < 10 ^ (e - q) := by positivity
  set g : ℝ := 10 ^ (e - q) with hgd
  have eN : (10 : ℝ) ^ q * g = 10 ^ e := by
    rw [hgd, ← zpow_natCast, ← zpow_add₀ (by norm_num)]; congr 1; ring
  have eN1 : (10 : ℝ) ^ (q + 1) * g = 10 ^ (e + 1) := by
    rw [hgd, ← zpow_natCast, ← zpow_add₀ (by norm_num)]; congr 1; push_cast; ring
  have h1 : (10 : ℝ) ^ q ≤ m / g := by rw [le_div_iff₀ hg, eN]; exact hlo
  have h2 : m / g < (10 : ℝ) ^ (q + 1) := by rw [div_lt_iff₀ hg, eN1]; exact hhi
  have hn := abs_le.1 (roundEven_near (m / g))
  set r := roundEven (m / g) with hr
  have h3 : (10 : ℤ) ^ q ≤ r := by
    have : ((10 : ℤ) ^ q : ℝ) - 1 < r := by push_cast; linarith
    have : (10 : ℤ) ^ q - 1 < r := by exact_mod_cast this
    omega
  have h4 : r ≤ (10 : ℤ) ^ (q + 1) := by
    have : (r : ℝ) < ((10 : ℤ) ^ (q + 1) : ℝ) + 1 := by push_cast; linarith
    have : r < (10 : ℤ) ^ (q + 1) + 1 := by exact_mod_cast this
    omega
  have h0 : (0 : ℤ) < 10 ^ q := by positivity
  have hrn : ((r.toNat : ℕ) : ℤ) = r := Int.toNat_of_nonneg (by omega)
  have hrR : ((r.toNat : ℕ) : ℝ) = r := by exact_mod_cast hrn
  have hs : sigDigits (q + 1) m = if r.toNat = 10 ^ (q + 1) then (10 ^ q, e + 1) else (r.toNat, e) := by
    unfold sigDigits
    simp only [Nat.add_sub_cancel]
    have : e + 1 - ((q + 1 : ℕ) : ℤ) = e - q := by push_cast; ring
    simp only [← he, this, ← hgd, ← hr]
  have hpr : printed (q + 1) m = r * g := by
    unfold printed
    rw [hs]
    split
    · rename_i h
      have : (r : ℝ) = 10 ^ (q + 1) := by rw [← hrR, h]; push_cast; rfl
      rw [this, eN1]
      push_cast
      rw [← zpow_natCast, ← zpow_add₀ (by norm_num)]
      congr 1
      ring
    · rw [hrR, hgd]
      congr 2
      push_cast
      ring
  have hdist : ∀ y : ℝ, |y * g - m| = |y - m / g| * g := by
    intro y
    rw [show y * g - m = (y - m / g) * g by field_simp, abs_mul, abs_of_pos hg]
  refine ⟨?_, ?_, ?_, ?_⟩
  · rw [hs]
    split
    · simp
    · simp only [Nat.add_sub_cancel]
      zify
      rw [hrn]; exact h3
  · rw [hs]
    split
    · exact Nat.pow_lt_pow_right (by norm_num) (by omega)
    · rename_i h
      have h5 : r.toNat ≤ 10 ^ (q + 1) := by zify; rw [hrn]; exact h4
      exact lt_of_le_of_ne h5 h
  · rw [hpr, hdist]
    have h5 : |(r : ℝ) - m / g| ≤ 1 / 2 := by rw [abs_sub_comm]; exact roundEven_near _
    have h6 : g ≤ m * 10 ^ (1 - ((q + 1 : ℕ) : ℤ)) := by
      rw [show (1 - ((q + 1 : ℕ) : ℤ)) = -q by push_cast; ring, hgd, sub_eq_add_neg, zpow_add₀ (by norm_num)]
      exact mul_le_mul_of_nonneg_right hlo (by positivity)
    calc |(r : ℝ) - m / g| * g ≤ 1 / 2 * g := mul_le_mul_of_nonneg_right h5 hg.le
      _ ≤ _ := by linarith
  · intro a k ha
    rw [hpr]
    rcases le_or_gt (e - q) k with hk | hk
    · obtain ⟨j, hj⟩ : ∃ j : ℕ, k = (e - q) + j := ⟨(k - (e - q)).toNat, by omega⟩
      have : (a : ℝ) * 10 ^ k = ((a * 10 ^ j : ℤ) : ℝ) * g := by
        rw [hj, zpow_add₀ (by norm_num), ← hgd, zpow_natCast]
        push_cast
        ring
      rw [this, hdist, hdist]
      exact mul_le_mul_of_nonneg_right (roundEven_nearest _ _) hg.le
    · have h5 : (a : ℝ) * 10 ^ k ≤ 10 ^ e := by
        have ha' : (a : ℝ) ≤ 10 ^ (q + 1) := by exact_mod_cast ha.le
        calc (a : ℝ) * 10 ^ k ≤ 10 ^ (q + 1) * 10 ^ k := mul_le_mul_of_nonneg_right ha' (by positivity)
          _ = 10 ^ ((q + 1 : ℕ) + k) := by rw [← zpow_natCast, ← zpow_add₀ (by norm_num)]
          _ ≤ 10 ^ e := zpow_le_zpow_right₀ (by norm_num) (by push_cast; omega)
      have h6 := roundEven_nearest (m / g) (10 ^ q)
      have h7 : |((10 ^ q : ℤ) : ℝ) * g - m| = m - 10 ^ e := by
        push_cast
        rw [eN, abs_sub_comm, abs_of_nonneg (by linarith)]
      rw [hdist]
      rw [hdist] at h7
      rw [abs_sub_comm _ m, abs_of_nonneg (a := m - _) (by linarith)]
      have := mul_le_mul_of_nonneg_right h6 hg.le
      linarith

namespace FloatType

theorem tiny_pos (T : FloatType) : 0 < T.tiny := by unfold tiny; positivity

theorem round_near (T : FloatType) {x : ℝ} (hx : 0 ≤ x) : |T.round x - x| ≤ x * 2 ^ (-T.bits : ℤ) + T.tiny / 2 := by
  have ht := T.tiny_pos
  unfold round
  split
  · have h := roundEven_near (x / T.tiny)
    rw [show (roundEven (x / T.tiny) : ℝ) * T.tiny - x = -((x / T.tiny - roundEven (x / T.tiny)) * T.tiny) by field_simp; ring, abs_neg, abs_mul, abs_of_pos ht]
    have h1 := mul_le_mul_of_nonneg_right h ht.le
    have h2 : 0 ≤ x * 2 ^ (-T.bits : ℤ) := by positivity
    linarith
  · have h := rnd_rel T.bits x
    rw [abs_of_nonneg hx] at h
    linarith

theorem round_near_normal (T : FloatType) {x : ℝ} (hx : 2 ^ T.emin ≤ x) : |T.round x - x| ≤ x * 2 ^ (-T.bits : ℤ) := by
  unfold round
  rw [if_neg (not_lt.2 hx)]
  have h := rnd_rel T.bits x
  have h0 : (0 : ℝ) < 2 ^ T.emin := by positivity
  rwa [abs_of_nonneg (a := x) (by linarith)] at h

theorem round_nonneg (T : FloatType) {x : ℝ} (hx : 0 ≤ x) : 0 ≤ T.round x := by
  unfold round
  split
  · refine mul_nonneg ?_ T.tiny_pos.le
    have h1 : 0 ≤ x / T.tiny := div_nonneg hx T.tiny_pos.le
    have h2 := (abs_le.1 (roundEven_near (x / T.tiny))).2
    have h3 : (-1 : ℝ) < roundEven (x / T.tiny) := by linarith
    have h4 : -1 < roundEven (x / T.tiny) := by exact_mod_cast h3
    exact_mod_cast (show 0 ≤ roundEven (x / T.tiny) by omega)
  · exact rnd_nonneg hx

/-- Within a binade, including its upper end, rounding is rounding to multiples of a fixed number; the subnormal numbers belong to the first binade. -/
theorem round_grid (T : FloatType) (hb : 0 < T.bits) {j : ℤ} (hj : T.emin ≤ j) {y : ℝ} (hy : 0 ≤ y) (h1 : (2 : ℝ) ^ j ≤ y ∨ j = T.emin) (h2 : y ≤ 2 ^ (j + 1)) :
    T.round y = roundEven (y / 2 ^ (j + 1 - T.bits)) * 2 ^ (j + 1 - T.bits) := by
  unfold round
  split
  · rename_i hlt
    have : j = T.emin := by
      rcases h1 with h1 | h1
      · have := (zpow_lt_zpow_iff_right₀ (by norm_num : (1 : ℝ) < 2)).1 (lt_of_le_of_lt h1 hlt)
        omega
      · exact h1
    rw [this]
    rfl
  · rename_i hge
    have h1' : (2 : ℝ) ^ j ≤ y := by
      rcases h1 with h1 | h1
      · exact h1
      · rw [h1]; exact not_lt.1 hge
    rcases h2.lt_or_eq with h2 | h2
    · unfold rnd
      have := ulp_eq T.bits (x := y) (e := j + 1 - T.bits) (by rw [abs_of_nonneg hy, show j + 1 - (T.bits : ℤ) + T.bits - 1 = j by ring]; exact h1')
        (by rw [abs_of_nonneg hy, show j + 1 - (T.bits : ℤ) + T.bits = j + 1 by ring]; exact h2)
      rw [this]
    · have e : y = ((2 ^ T.bits : ℤ) : ℝ) * 2 ^ (j + 1 - T.bits) := by
        rw [h2]
        push_cast
        rw [← zpow_natCast, ← zpow_add₀ (by norm_num)]
        congr 1
        ring
      rw [e, rnd_exact hb (by rw [abs_of_nonneg (by positivity)]), mul_div_assoc, div_self (by positivity), mul_one, roundEven_int]

/-- Numbers of the type are not changed. -/
theorem round_exact (T : FloatType) (hb : 0 < T.bits) {n : ℕ} {e : ℤ} (hn : n < 2 ^ T.bits) (he : T.emin + 1 - T.bits ≤ e) : T.round (n * 2 ^ e) = n * 2 ^ e := by
  unfold round
  split
  · obtain ⟨j, hj⟩ : ∃ j : ℕ, e = (T.emin + 1 - T.bits) + j := ⟨(e - (T.emin + 1 - T.bits)).toNat, by omega⟩
    have : (n : ℝ) * 2 ^ e = ((n * 2 ^ j : ℤ) : ℝ) * T.tiny := by
      rw [hj, zpow_add₀ (by norm_num), zpow_natCast]
      unfold tiny
      push_cast
      ring
    rw [this, mul_div_assoc, div_self T.tiny_pos.ne', mul_one, roundEven_int]
  · have := rnd_exact (p := T.bits) hb (e := e) (n := (n : ℤ)) (by rw [abs_of_nonneg (by positivity)]; exact_mod_cast hn.le)
    exact_mod_cast this

end FloatType
end RK
