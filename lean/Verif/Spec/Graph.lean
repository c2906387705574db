/-!
# Specification vocabulary for weighted directed graphs

Independent of the model.  A graph is a relation `A a x y w`: the arc with id `a` leads from node `x`
to node `y` and has weight `w`.
-/
namespace Spec

/-- `A a x y w`: arc `a` goes from `x` to `y` and weighs `w`. -/
abbrev ArcRel := Nat → Nat → Nat → Nat → Prop

/-- The graph given by the parallel vectors `tail`, `head`, `weight`. -/
def listArcs (tail head weight : List Nat) : ArcRel := fun a x y w =>
  tail[a]? = some x ∧ head[a]? = some y ∧ weight[a]? = some w

/-- `a` is one of the outgoing arcs of `x` in the adjacency array `firstOut`. -/
def OutArc (firstOut : List Nat) (x a : Nat) : Prop :=
  ∃ b e : Nat, firstOut[x]? = some b ∧ firstOut[x + 1]? = some e ∧ b ≤ a ∧ a < e

/-- The graph given by the adjacency array `firstOut`, `head`, `weight`. -/
def csrArcs (firstOut head weight : List Nat) : ArcRel := fun a x y w =>
  OutArc firstOut x a ∧ head[a]? = some y ∧ weight[a]? = some w

/-- A well-formed adjacency array with `n` nodes. -/
structure IsCSR (n : Nat) (firstOut head : List Nat) : Prop where
  length : firstOut.length = n + 1
  mono : ∀ (x b e : Nat), firstOut[x]? = some b → firstOut[x + 1]? = some e → b ≤ e
  first : firstOut[0]? = some 0
  last : firstOut[n]? = some head.length
  head_lt : ∀ (a y : Nat), head[a]? = some y → y < n

/-- `Walk A s p t l`: the arc ids `p` form a walk from `s` to `t` of total weight `l`. -/
inductive Walk (A : ArcRel) : Nat → List Nat → Nat → Nat → Prop
  | nil (s : Nat) : Walk A s [] s 0
  | cons {a s m t w l : Nat} {p : List Nat} : A a s m w → Walk A m p t l → Walk A s (a :: p) t (w + l)

/-- `d` is the length of a shortest walk from `s` to `t`. -/
def IsDist (A : ArcRel) (s t d : Nat) : Prop :=
  (∃ p, Walk A s p t d) ∧ ∀ p l, Walk A s p t l → d ≤ l

/-- `t` can be reached from `s`. -/
def Reachable (A : ArcRel) (s t : Nat) : Prop := ∃ p l, Walk A s p t l

/-- `ns` is the list of all nodes visited by the walk with arcs `p`, starting with `s`. -/
inductive NodesOf (A : ArcRel) : Nat → List Nat → List Nat → Prop
  | nil (s : Nat) : NodesOf A s [] [s]
  | cons {a s m w : Nat} {p ns : List Nat} : A a s m w → NodesOf A m p ns → NodesOf A s (a :: p) (s :: ns)

end Spec
