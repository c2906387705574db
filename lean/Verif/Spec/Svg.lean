import Mathlib.Data.Real.Basic
import Verif.Spec.ArcTools
/-! # Specification: drawings as text -/
namespace Spec

/-- The text `l` is a number in decimal notation, with value `v`: a minus sign or nothing, digits, a point and further digits or nothing, and the letter `e` with
an exponent or nothing. -/
def DenotesDecimal (l : List Char) (v : ℝ) : Prop :=
  ∃ (neg : Bool) (a b e : List Char) (x : ℤ), l = (if neg then ['-'] else []) ++ a ++ (if b = [] then [] else '.' :: b) ++ e ∧
    a ≠ [] ∧ (∀ c ∈ a ++ b, c.isDigit = true) ∧
    ((e = [] ∧ x = 0) ∨ ∃ ds, ds ≠ [] ∧ (∀ c ∈ ds, c.isDigit = true) ∧
      ((e = 'e' :: '-' :: ds ∧ x = -(Nat.ofDigitChars 10 ds 0 : ℤ)) ∨ (e = 'e' :: '+' :: ds ∧ x = (Nat.ofDigitChars 10 ds 0 : ℤ)))) ∧
    v = (if neg then -1 else 1) * (Nat.ofDigitChars 10 (a ++ b) 0 * 10 ^ (x - b.length))

/-- The text of a drawing with the given lines. -/
def svgDocument (lines : List (List Char)) : List Char :=
  "<svg xmlns=\"http://www.w3.org/2000/svg\" xmlns:xlink=\"http://www.w3.org/1999/xlink\" viewBox=\"0 0 300 300\">\n".toList ++ lines.flatten ++ "</svg>\n".toList

/-- The text of a line from (x1, y1) to (x2, y2). -/
def svgLineText (x1 y1 x2 y2 : List Char) : List Char :=
  "<line x1=\"".toList ++ x1 ++ "\" y1=\"".toList ++ y1 ++ "\" x2=\"".toList ++ x2 ++ "\" y2=\"".toList ++ y2 ++
    "\" style=\"stroke:#000000;\"/>\n".toList

/-- The text `l` is a number from 0 to 300 and differs by at most 0.001 from the position of `x` on the scale from 0 to 300 of the numbers `v`. -/
def DrawnRight (v : List ℝ) (x : ℝ) (l : List Char) : Prop :=
  ∃ t p, DenotesDecimal l t ∧ OnScale v x p ∧ |t - p| ≤ 1 / 1000 ∧ 0 ≤ t ∧ t ≤ 300

/-- The same for the vertical axis, which points downwards. The number may be negative, but not below -0.0001. -/
def DrawnDown (v : List ℝ) (x : ℝ) (l : List Char) : Prop :=
  ∃ t p, DenotesDecimal l t ∧ OnScale v x p ∧ |t - (300 - p)| ≤ 1 / 1000 ∧ -1 / 10000 ≤ t ∧ t ≤ 300

end Spec
