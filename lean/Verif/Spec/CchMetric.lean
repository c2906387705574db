import Verif.Spec.Cch
/-!
# Specification vocabulary for customization
-/
namespace Spec

/-- A walk along at least one arc; all nodes between its ends satisfy `inner`. The arc ids are `p`, the length is
`l`. -/
inductive InnerWalk (A : ArcRel) (inner : Nat → Prop) : Nat → List Nat → Nat → Nat → Prop
  | edge {a x y w : Nat} : A a x y w → InnerWalk A inner x [a] y w
  | step {a x z y w l : Nat} {p : List Nat} : A a x z w → inner z → InnerWalk A inner z p y l →
      InnerWalk A inner x (a :: p) y (w + l)

/-- The input graph with its nodes renamed to their ranks. -/
def rankArcs (rank tail head weight : List Nat) : ArcRel := fun a x y w =>
  ∃ (t h : Nat), tail[a]? = some t ∧ head[a]? = some h ∧ rank[t]? = some x ∧ rank[h]? = some y ∧ weight[a]? = some w

/-- `v` is the length of a shortest walk from `x` to `y` whose inner nodes satisfy `inner`; `cap` if there is none, or
none shorter than `cap`. -/
def IsInnerMin (A : ArcRel) (inner : Nat → Prop) (cap x y v : Nat) : Prop :=
  v ≤ cap ∧ (∀ p l, InnerWalk A inner x p y l → v ≤ l) ∧ (v = cap ∨ ∃ p, InnerWalk A inner x p y v)

end Spec

namespace Spec

/-- A history of changes to the weights, starting with the weights `w`: each round consists of the ids of the arcs that
are reported as changed and of the new weights. Every arc whose weight changed is reported; more arcs may be reported.
Weights are at most `cap`. -/
def Reported (cap : Nat) : List Nat → List (List Nat × List Nat) → Prop
  | _, [] => True
  | w, (changed, w') :: rounds =>
    w'.length = w.length ∧ (∀ v ∈ w', v ≤ cap) ∧ (∀ i ∈ changed, i < w.length) ∧
      (∀ i : Nat, w[i]? ≠ w'[i]? → i ∈ changed) ∧ Reported cap w' rounds

/-- The weights after the last round. -/
def finalWeights : List Nat → List (List Nat × List Nat) → List Nat
  | w, [] => w
  | _, (_, w') :: rounds => finalWeights w' rounds

end Spec
