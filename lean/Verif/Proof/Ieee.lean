import Verif.Model.Ieee
import Mathlib.Tactic.Linarith
import Mathlib.Tactic.Ring
import Mathlib.Tactic.FieldSimp
/-! # Rounding to floating point numbers -/
namespace RK.Ieee

theorem roundEven_near (y : ℝ) : |y - roundEven y| ≤ 1 / 2 := by
  have h1 := Int.fract_nonneg y
  have h2 := Int.fract_lt_one y
  have h3 := Int.self_sub_floor y
  unfold roundEven
  rw [abs_le]
  split_ifs <;> push_cast <;> constructor <;> linarith

theorem roundEven_eq {y : ℝ} {n : ℤ} (h : |y - n| < 1 / 2) : roundEven y = n := by
  have h1 := abs_lt.1 h
  have h2 := abs_le.1 (roundEven_near y)
  have h3 : (n : ℝ) - 1 < roundEven y := by linarith
  have h4 : (roundEven y : ℝ) < n + 1 := by linarith
  have h3' : n - 1 < roundEven y := by exact_mod_cast h3
  have h4' : roundEven y < n + 1 := by exact_mod_cast h4
  omega

/-- At a tie the result is even. -/
theorem roundEven_tie {y : ℝ} {n : ℤ} (h : y = n + 1 / 2) : roundEven y = if Even n then n else n + 1 := by
  have hf : ⌊y⌋ = n := by
    rw [Int.floor_eq_iff]
    constructor <;> linarith
  have hr : Int.fract y = 1 / 2 := by
    rw [← Int.self_sub_floor, hf]; linarith
  unfold roundEven
  rw [hr, hf, if_neg (lt_irrefl _), if_neg (lt_irrefl _)]

theorem roundEven_int (n : ℤ) : roundEven (n : ℝ) = n := roundEven_eq (by simp)

theorem ulp_pos (p : Nat) (x : ℝ) : 0 < ulp p x := zpow_pos two_pos _

theorem rnd_near (p : Nat) (x : ℝ) : |x - rnd p x| ≤ ulp p x / 2 := by
  have h := roundEven_near (x / ulp p x)
  have hu := ulp_pos p x
  have : x - rnd p x = (x / ulp p x - roundEven (x / ulp p x)) * ulp p x := by
    unfold rnd
    field_simp
  rw [this, abs_mul, abs_of_pos hu]
  nlinarith

theorem log_eq {x : ℝ} {e : ℤ} (h1 : (2 : ℝ) ^ e ≤ |x|) (h2 : |x| < (2 : ℝ) ^ (e + 1)) : Int.log 2 |x| = e := by
  have hx : 0 < |x| := lt_of_lt_of_le (zpow_pos two_pos _) h1
  have a := (Int.zpow_le_iff_le_log (R := ℝ) (b := 2) (by norm_num) (x := e) hx).1 (by exact_mod_cast h1)
  have b := (Int.lt_zpow_iff_log_lt (R := ℝ) (b := 2) (by norm_num) (x := e + 1) hx).1 (by exact_mod_cast h2)
  omega

theorem ulp_eq (p : Nat) {x : ℝ} {e : ℤ} (h1 : (2 : ℝ) ^ (e + p - 1) ≤ |x|) (h2 : |x| < (2 : ℝ) ^ (e + p)) : ulp p x = 2 ^ e := by
  unfold ulp
  rw [log_eq h1 (by rw [sub_add_cancel]; exact h2)]
  congr 1; omega

theorem ulp_le (p : Nat) {x : ℝ} {e : ℤ} (hx : x ≠ 0) (h2 : |x| < (2 : ℝ) ^ (e + p)) : ulp p x ≤ 2 ^ e := by
  unfold ulp
  have hx : 0 < |x| := abs_pos.2 hx
  have b := (Int.lt_zpow_iff_log_lt (R := ℝ) (b := 2) (by norm_num) (x := e + p) hx).1 (by exact_mod_cast h2)
  exact zpow_le_zpow_right₀ (by norm_num) (by omega)

@[simp] theorem rnd_zero (p : Nat) : rnd p 0 = 0 := by
  unfold rnd
  have := roundEven_int 0
  simp only [Int.cast_zero] at this
  rw [zero_div, this]
  simp

theorem rnd_eq (p : Nat) {x : ℝ} {e n : ℤ} (h1 : (2 : ℝ) ^ (e + p - 1) ≤ |x|) (h2 : |x| < (2 : ℝ) ^ (e + p)) (h : |x - n * 2 ^ e| < 2 ^ e / 2) :
    rnd p x = n * 2 ^ e := by
  have hu : (0 : ℝ) < 2 ^ e := zpow_pos two_pos _
  unfold rnd
  rw [ulp_eq p h1 h2, roundEven_eq (n := n)]
  have : x / 2 ^ e - n = (x - n * 2 ^ e) / 2 ^ e := by field_simp
  rw [this, abs_div, abs_of_pos hu, div_lt_iff₀ hu]
  linarith

theorem rnd_tie (p : Nat) {x : ℝ} {e n : ℤ} (h1 : (2 : ℝ) ^ (e + p - 1) ≤ |x|) (h2 : |x| < (2 : ℝ) ^ (e + p)) (h : x = (n + 1 / 2) * 2 ^ e) :
    rnd p x = (if Even n then n else n + 1 : ℤ) * 2 ^ e := by
  have hu : (0 : ℝ) < 2 ^ e := zpow_pos two_pos _
  unfold rnd
  rw [ulp_eq p h1 h2, roundEven_tie (n := n)]
  rw [h]; field_simp

/-- Numbers with `p` bits are not changed. -/
theorem rnd_exact {p : Nat} (hpos : 0 < p) {e n : ℤ} (h : |n| ≤ 2 ^ p) : rnd p (n * 2 ^ e) = n * 2 ^ e := by
  by_cases h0 : n = 0
  · subst h0; simp
  · have hx : (n : ℝ) * 2 ^ e ≠ 0 := mul_ne_zero (by exact_mod_cast h0) (zpow_pos two_pos _).ne'
    -- the unit divides
    obtain ⟨k, hk⟩ : ∃ k : ℤ, (n : ℝ) * 2 ^ e = k * ulp p (n * 2 ^ e) := by
      by_cases hp : |n| = 2 ^ p
      · have hu : ulp p ((n : ℝ) * 2 ^ e) = 2 ^ (e + 1) := by
          have : |(n : ℝ) * 2 ^ e| = 2 ^ (e + p) := by
            rw [abs_mul, abs_of_pos (zpow_pos two_pos e : (0 : ℝ) < 2 ^ e), ← Int.cast_abs, hp, zpow_add₀ two_ne_zero]
            push_cast
            rw [mul_comm, zpow_natCast]
          refine ulp_eq p ?_ ?_
          · rw [this]; exact zpow_le_zpow_right₀ (by norm_num) (by omega)
          · rw [this]; exact zpow_lt_zpow_right₀ (by norm_num) (by omega)
        rw [hu]
        cases p with
        | zero => exact absurd hpos (lt_irrefl _)
        | succ p =>
          rcases abs_eq (by positivity) |>.1 hp with h | h
          · exact ⟨2 ^ p, by rw [h, zpow_add₀ two_ne_zero]; push_cast; ring⟩
          · exact ⟨-2 ^ p, by rw [h, zpow_add₀ two_ne_zero]; push_cast; ring⟩
      · have hlt : |n| < 2 ^ p := lt_of_le_of_ne h hp
        have hlog : Int.log 2 |(n : ℝ) * 2 ^ e| < e + p := by
          refine (Int.lt_zpow_iff_log_lt (R := ℝ) (b := 2) (by norm_num) (abs_pos.2 hx)).1 ?_
          rw [abs_mul, abs_of_pos (zpow_pos two_pos e : (0 : ℝ) < 2 ^ e), ← Int.cast_abs]
          push_cast
          rw [zpow_add₀ two_ne_zero, mul_comm, zpow_natCast]
          have : ((|n| : ℤ) : ℝ) < 2 ^ p := by exact_mod_cast hlt
          exact mul_lt_mul_of_pos_left (by simpa using this) (zpow_pos two_pos _)
        unfold ulp
        generalize Int.log 2 |(n : ℝ) * 2 ^ e| = L at hlog ⊢
        obtain ⟨j, hj⟩ := Int.le.dest (show L + 1 - p ≤ e by omega)
        refine ⟨n * 2 ^ j, ?_⟩
        rw [← hj, zpow_add₀ two_ne_zero]
        push_cast
        rw [zpow_natCast]
        ring
    unfold rnd
    have hu := ulp_pos p ((n : ℝ) * 2 ^ e)
    rw [show (n : ℝ) * 2 ^ e / ulp p (n * 2 ^ e) = (k : ℝ) by rw [div_eq_iff hu.ne']; exact hk, roundEven_int]
    exact hk.symm


/-- Rounding does not cross numbers with `p` bits. -/
theorem rnd_le {p : Nat} (hpos : 0 < p) {x : ℝ} {e n : ℤ} (hx : 0 < x) (hn : n ≤ 2 ^ p) (h : x ≤ n * 2 ^ e) : rnd p x ≤ n * 2 ^ e := by
  have hu := ulp_pos p x
  have hlog := Int.zpow_log_le_self (R := ℝ) (b := 2) (by norm_num) (abs_pos.2 hx.ne')
  obtain ⟨k, hk⟩ : ∃ k : ℤ, (n : ℝ) * 2 ^ e = k * ulp p x := by
    unfold ulp
    rw [abs_of_pos hx] at hlog ⊢
    generalize Int.log 2 x = L at hlog ⊢
    by_cases hle : L + 1 - p ≤ e
    · obtain ⟨j, hj⟩ := Int.le.dest hle
      refine ⟨n * 2 ^ j, ?_⟩
      rw [← hj, zpow_add₀ two_ne_zero]
      push_cast
      rw [zpow_natCast]
      ring
    · obtain ⟨j, hj⟩ := Int.le.dest (show e + p ≤ L by omega)
      have h1 : (2 : ℝ) ^ (e + p) * 2 ^ (j : ℤ) ≤ n * 2 ^ e := by
        rw [← zpow_add₀ two_ne_zero, hj]
        have : ((2 : ℕ) : ℝ) = 2 := by norm_num
        rw [this] at hlog
        exact hlog.trans h
      rw [zpow_add₀ two_ne_zero, zpow_natCast, zpow_natCast] at h1
      have hE : (0 : ℝ) < 2 ^ e := zpow_pos two_pos _
      have h2 : (2 : ℝ) ^ p * 2 ^ j ≤ n := by
        have : (2 : ℝ) ^ e * (2 ^ p * 2 ^ j) ≤ 2 ^ e * n := by linarith
        exact le_of_mul_le_mul_left this hE
      have h3 : (2 : ℤ) ^ p * 2 ^ j ≤ n := by exact_mod_cast h2
      have hj0 : j = 0 := by
        by_contra hj0
        have : (2 : ℤ) ≤ 2 ^ j := by
          calc (2 : ℤ) = 2 ^ 1 := by norm_num
            _ ≤ 2 ^ j := pow_le_pow_right₀ (by norm_num) (by omega)
        have hp : (0 : ℤ) < 2 ^ p := by positivity
        nlinarith
      subst hj0
      have hn' : n = 2 ^ p := by
        rw [pow_zero, mul_one] at h3
        omega
      obtain ⟨p, rfl⟩ : ∃ k, p = k + 1 := ⟨p - 1, by omega⟩
      refine ⟨2 ^ p, ?_⟩
      rw [hn', show L + 1 - ((p + 1 : ℕ) : ℤ) = e + 1 by push_cast at hj ⊢; omega, zpow_add₀ two_ne_zero]
      push_cast
      ring
  have h1 : x / ulp p x ≤ k := by rw [div_le_iff₀ hu, ← hk]; exact h
  have h2 := (abs_le.1 (roundEven_near (x / ulp p x))).1
  have h3 : (roundEven (x / ulp p x) : ℝ) < k + 1 := by linarith
  have h3' : roundEven (x / ulp p x) < k + 1 := by exact_mod_cast h3
  have h4 : (roundEven (x / ulp p x) : ℝ) ≤ k := by exact_mod_cast (show roundEven (x / ulp p x) ≤ k by omega)
  unfold rnd
  rw [hk]
  exact mul_le_mul_of_nonneg_right h4 hu.le

theorem rnd_nonpos {p : Nat} {x : ℝ} (h : x ≤ 0) : rnd p x ≤ 0 := by
  have hu := ulp_pos p x
  have h1 : x / ulp p x ≤ 0 := div_nonpos_of_nonpos_of_nonneg h hu.le
  have h2 := (abs_le.1 (roundEven_near (x / ulp p x))).1
  have h3 : (roundEven (x / ulp p x) : ℝ) < 1 := by linarith
  have h3' : roundEven (x / ulp p x) < 1 := by exact_mod_cast h3
  have h4 : (roundEven (x / ulp p x) : ℝ) ≤ 0 := by exact_mod_cast (show roundEven (x / ulp p x) ≤ 0 by omega)
  exact mul_nonpos_of_nonpos_of_nonneg h4 hu.le

theorem rnd_nonneg {p : Nat} {x : ℝ} (h : 0 ≤ x) : 0 ≤ rnd p x := by
  have hu := ulp_pos p x
  have h1 : 0 ≤ x / ulp p x := div_nonneg h hu.le
  have h2 := (abs_le.1 (roundEven_near (x / ulp p x))).2
  have h3 : (-1 : ℝ) < roundEven (x / ulp p x) := by linarith
  have h3' : -1 < roundEven (x / ulp p x) := by exact_mod_cast h3
  have h4 : (0 : ℝ) ≤ roundEven (x / ulp p x) := by exact_mod_cast (show 0 ≤ roundEven (x / ulp p x) by omega)
  exact mul_nonneg h4 hu.le


/-- The result of rounding is a number with `p` bits. -/
theorem rnd_rnd {p : Nat} (hpos : 0 < p) (x : ℝ) : rnd p (rnd p x) = rnd p x := by
  have hu := ulp_pos p x
  have hlt := Int.lt_zpow_succ_log_self (R := ℝ) (b := 2) (by norm_num) |x|
  have h1 : |x / ulp p x| < 2 ^ p := by
    rw [abs_div, abs_of_pos hu, div_lt_iff₀ hu]
    unfold ulp
    rw [show (2 : ℝ) ^ p = 2 ^ (p : ℤ) by rw [zpow_natCast], ← zpow_add₀ two_ne_zero, show (p : ℤ) + (Int.log 2 |x| + 1 - p) = Int.log 2 |x| + 1 by ring]
    exact_mod_cast hlt
  have h2 := abs_le.1 (roundEven_near (x / ulp p x))
  have h3 := abs_lt.1 h1
  have h4 : |roundEven (x / ulp p x)| ≤ 2 ^ p := by
    rw [abs_le]
    have a : (-2 ^ p : ℝ) - 1 < roundEven (x / ulp p x) := by linarith
    have b : (roundEven (x / ulp p x) : ℝ) < 2 ^ p + 1 := by linarith
    have a' : -2 ^ p - 1 < roundEven (x / ulp p x) := by exact_mod_cast a
    have b' : roundEven (x / ulp p x) < 2 ^ p + 1 := by exact_mod_cast b
    constructor <;> omega
  conv_lhs => rw [show rnd p x = roundEven (x / ulp p x) * 2 ^ (Int.log 2 |x| + 1 - p) from rfl]
  exact rnd_exact hpos h4

end RK.Ieee
