import Verif.Spec.Graph
/-! # Specification of the removal of loops and multi-arcs -/
namespace Spec

/-- Arc `a` is the first of the lightest arcs from `x` to `y`, and it weighs `w`. -/
def IsFirstLightest (A : ArcRel) (x y a w : Nat) : Prop :=
  A a x y w ∧ ∀ b w', A b x y w' → w < w' ∨ (w = w' ∧ a ≤ b)

/-- The arcs are strictly sorted by (tail, head). In particular there is at most one per pair. -/
def StrictlySorted (tail head : List Nat) : Prop :=
  ∀ i j t t' h h' : Nat, i < j → tail[i]? = some t → tail[j]? = some t' → head[i]? = some h →
    head[j]? = some h' → t < t' ∨ (t = t' ∧ h < h')

end Spec
