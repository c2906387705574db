import Mathlib.Data.Int.Log
import Mathlib.Analysis.SpecialFunctions.Trigonometric.Inverse
/-!
# Floating point numbers with rounding

Numbers of the types `float` (24 bits) and `double` (53 bits) as real numbers; all operations are rounded to nearest, ties to even, as
in IEEE 754. Not modelled: the range of the exponent (overflow, subnormal numbers), the sign of zero. Not a number is `none` in a type `Option ℝ`.
-/
namespace RK.Ieee

/-- The distance of neighbouring numbers with `p` bits in the binade of `x`. -/
noncomputable def ulp (p : Nat) (x : ℝ) : ℝ := (2 : ℝ) ^ (Int.log 2 |x| + 1 - p)

/-- The integer nearest to `y`, the even one of two. -/
noncomputable def roundEven (y : ℝ) : ℤ :=
  if Int.fract y < 1 / 2 then ⌊y⌋ else if 1 / 2 < Int.fract y then ⌊y⌋ + 1 else if Even ⌊y⌋ then ⌊y⌋ else ⌊y⌋ + 1

/-- Rounding to a number with `p` bits. -/
noncomputable def rnd (p : Nat) (x : ℝ) : ℝ := roundEven (x / ulp p x) * ulp p x

/-- `double`. -/
noncomputable abbrev dbl (x : ℝ) : ℝ := rnd 53 x

/-- `float`. -/
noncomputable abbrev flt (x : ℝ) : ℝ := rnd 24 x

/-- The functions `cos` and `acos` of the mathematical library for `double`; `none` is not a number. -/
structure MathLib where
  cos : ℝ → ℝ
  acos : ℝ → Option ℝ

/-- What is assumed about the mathematical library: the results of `cos` are doubles with an error of at most nine tenths of the distance of
neighbouring doubles (half of this distance is optimal), and one for zero; `acos` is not a number outside of its domain (ISO C, Annex F.10.1.1) and otherwise
within the same bound. -/
structure MathLib.Good (m : MathLib) : Prop where
  cos_double : ∀ x, dbl (m.cos x) = m.cos x
  cos_zero : m.cos 0 = 1
  cos_near : ∀ x, |m.cos x - Real.cos x| ≤ 0.9 * ulp 53 (Real.cos x)
  acos_nan : ∀ x, 1 < |x| → m.acos x = none
  acos_double : ∀ x, |x| ≤ 1 → ∃ y, m.acos x = some y ∧ dbl y = y ∧ |y - Real.arccos x| ≤ 0.9 * ulp 53 (Real.arccos x)

end RK.Ieee
