import Verif.Spec.Dimacs
/-! # Specification: vectors as text, one element per line -/
namespace Spec

/-- `text` consists of the given lines. The line break after the last line may be missing. -/
def LinesOf (ls : List (List Char)) (text : List Char) : Prop :=
  (∀ l ∈ ls, '\n' ∉ l) ∧
    (text = ls.flatMap (· ++ ['\n']) ∨ ∃ init last, ls = init ++ [last] ∧ last ≠ [] ∧ text = init.flatMap (· ++ ['\n']) ++ last)

/-- The line `l` starts with the number `x`: blanks, a sign or none, decimal digits; what follows is not a digit. -/
def StartsWithNumber (l : List Char) (x : Int) : Prop :=
  ∃ gap sign digits rest v, l = gap ++ sign ++ digits ++ rest ∧ (∀ c ∈ gap, IsBlank c) ∧ IsDecimal digits v ∧
    (∀ c, rest.head? = some c → ¬ c.isDigit) ∧ ((sign = ['-'] ∧ x = -(v : Int)) ∨ ((sign = [] ∨ sign = ['+']) ∧ x = v))

end Spec
