import Mathlib.Analysis.Complex.Exponential
import Mathlib.Analysis.Complex.Trigonometric
import Mathlib.Analysis.SpecialFunctions.Trigonometric.Inverse
import Mathlib.Tactic.Ring
import Mathlib.Tactic.FieldSimp
/-! # The series of the cosine -/
namespace RK

/-- The first `n` terms of the series. -/
def cosSeries (x : ℚ) : Nat → ℚ
  | 0 => 0
  | n + 1 => cosSeries x n + (-1) ^ n * x ^ (2 * n) / (2 * n).factorial

theorem cosSeries_re (x : ℚ) : ∀ n : Nat, ((cosSeries x n : ℚ) : ℝ) = (∑ m ∈ Finset.range (2 * n), (((x : ℝ) : ℂ) * Complex.I) ^ m / m.factorial).re
  | 0 => by simp [cosSeries]
  | n + 1 => by
    rw [show 2 * (n + 1) = 2 * n + 1 + 1 by ring, Finset.sum_range_succ, Finset.sum_range_succ, Complex.add_re, Complex.add_re, ← cosSeries_re x n]
    have h1 : (((x : ℝ) : ℂ) * Complex.I) ^ (2 * n) / (2 * n).factorial = ((((-1) ^ n * (x : ℝ) ^ (2 * n) / (2 * n).factorial : ℝ)) : ℂ) := by
      rw [mul_pow, pow_mul Complex.I, Complex.I_sq]
      push_cast
      ring
    have h2 : (((x : ℝ) : ℂ) * Complex.I) ^ (2 * n + 1) / (2 * n + 1).factorial =
        ((((-1) ^ n * (x : ℝ) ^ (2 * n + 1) / (2 * n + 1).factorial : ℝ)) : ℂ) * Complex.I := by
      rw [mul_pow, pow_succ Complex.I, pow_mul Complex.I, Complex.I_sq]
      push_cast
      ring
    rw [h1, h2, Complex.ofReal_re, Complex.re_ofReal_mul, Complex.I_re, mul_zero, add_zero]
    rw [show cosSeries x (n + 1) = cosSeries x n + (-1) ^ n * x ^ (2 * n) / (2 * n).factorial from rfl]
    push_cast
    ring

theorem cosSeries_near (x : ℚ) (n : Nat) (h : |x| / (2 * n + 1) ≤ 1 / 2) :
    |Real.cos x - (cosSeries x n : ℚ)| ≤ ((|x| ^ (2 * n) / (2 * n).factorial * 2 : ℚ) : ℝ) := by
  have hn : ‖((x : ℝ) : ℂ) * Complex.I‖ = ((|x| : ℚ) : ℝ) := by
    rw [norm_mul, Complex.norm_I, mul_one, Complex.norm_real, Real.norm_eq_abs]
    push_cast
    rfl
  have hb := Complex.exp_bound' (x := ((x : ℝ) : ℂ) * Complex.I) (n := 2 * n) (by
    rw [hn]
    have : ((|x| / (2 * n + 1) : ℚ) : ℝ) ≤ ((1 / 2 : ℚ) : ℝ) := by exact_mod_cast h
    push_cast at this ⊢
    simpa using this)
  rw [hn] at hb
  have hre : Real.cos x - (cosSeries x n : ℚ) =
      (Complex.exp (((x : ℝ) : ℂ) * Complex.I) - ∑ m ∈ Finset.range (2 * n), (((x : ℝ) : ℂ) * Complex.I) ^ m / m.factorial).re := by
    rw [Complex.sub_re, ← cosSeries_re, Complex.exp_mul_I, Complex.add_re, Complex.cos_ofReal_re]
    rw [← Complex.ofReal_sin, Complex.re_ofReal_mul, Complex.I_re, mul_zero, add_zero]
  rw [hre]
  refine (Complex.abs_re_le_norm _).trans (hb.trans_eq ?_)
  push_cast
  rfl

end RK
