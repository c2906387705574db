import Mathlib.Data.Real.Basic
import Verif.Spec.VectorText
/-! # Specification: floating point numbers and their decimal notation -/
namespace Spec

/-- `m` is zero or a positive number of a binary floating point type: `bits` bits, smallest normal number `2 ^ emin`, all numbers below `2 ^ emax`. -/
def IsBinary (bits : ℕ) (emin emax : ℤ) (m : ℝ) : Prop :=
  ∃ (n : ℕ) (e : ℤ), n < 2 ^ bits ∧ emin + 1 - bits ≤ e ∧ m = n * 2 ^ e ∧ m < 2 ^ emax

/-- `l` is the number `digits / 10 ^ places` in decimal notation: a minus sign or nothing, digits, and either nothing or a point and `places` digits. -/
def IsPlainDecimal (l : List Char) (neg : Bool) (digits places : ℕ) : Prop :=
  ∃ a b, a ≠ [] ∧ (∀ c ∈ a ++ b, c.isDigit = true) ∧ Nat.ofDigitChars 10 (a ++ b) 0 = digits ∧ b.length = places ∧
    l = (if neg then ['-'] else []) ++ a ++ (if b = [] then [] else '.' :: b)

/-- `l` does not start with a number: after blanks and a sign there is nothing, or a character that is neither a digit nor a point nor one of the letters `i`, `n` (numbers can
also be written `inf` and `nan`). -/
def NoNumber (l : List Char) : Prop :=
  ∃ gap sign rest, l = gap ++ sign ++ rest ∧ (∀ c ∈ gap, IsBlank c) ∧ (sign = [] ∨ sign = ['-'] ∨ sign = ['+']) ∧
    ∀ c, rest.head? = some c → ¬ c.isDigit ∧ c ≠ '.' ∧ c ∉ ['i', 'I', 'n', 'N'] ∧ (sign = [] → ¬ IsBlank c ∧ c ≠ '\n' ∧ c ≠ '-' ∧ c ≠ '+')

end Spec
