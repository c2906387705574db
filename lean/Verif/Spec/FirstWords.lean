import Verif.Spec.VectorText
/-! # Specification: the words at the start of a line -/
namespace Spec

/-- `FirstWords text ws`: the line `text` starts with the words `ws`; a word ends at a blank or at the end of the line. -/
inductive FirstWords : List Char → List (List Char) → Prop
  | nil (rest : List Char) : FirstWords rest []
  | cons (gap w rest : List Char) (ws : List (List Char)) : (∀ c ∈ gap, IsBlank c) → w ≠ [] → (∀ c ∈ w, ¬ IsBlank c ∧ c ≠ '\n') →
      (∀ c, rest.head? = some c → IsBlank c) → FirstWords rest ws → FirstWords (gap ++ w ++ rest) (w :: ws)

end Spec
