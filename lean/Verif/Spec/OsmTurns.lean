import Verif.Spec.OsmGraph
/-! # Specification: the turns forbidden by turn restrictions

Arcs are positions in a list of arcs. -/
namespace Spec

/-- The arc `i` belongs to the way `w` and ends at the node `v`. -/
def Enters (arcs : List MapArc) (w v i : Nat) : Prop := ∃ a, arcs[i]? = some a ∧ a.way = w ∧ a.head = v

/-- The arc `i` belongs to the way `w` and begins at the node `v`. -/
def Leaves (arcs : List MapArc) (w v i : Nat) : Prop := ∃ a, arcs[i]? = some a ∧ a.way = w ∧ a.tail = v

/-- The arc `i` begins at the node `v`. -/
def Begins (arcs : List MapArc) (v i : Nat) : Prop := ∃ a, arcs[i]? = some a ∧ a.tail = v

/-- The last node before the head of an arc. -/
def beforeHead (a : MapArc) : Nat := a.inner.getLast?.getD a.tail

/-- The first node behind the tail of an arc. -/
def behindTail (a : MapArc) : Nat := a.inner.head?.getD a.head

/-- The turn that is meant by a restriction from the way `w` over the node `v` to the way `w'`: the only one from an arc of `w`
which ends at `v` to an arc of `w'` which begins at `v`; if there are several of them, the only one which fits to the
direction. -/
def Meant (arcs : List MapArc) (fits : Nat → Nat → Prop) (w v w' f t : Nat) : Prop :=
  Enters arcs w v f ∧ Leaves arcs w' v t ∧
  ((∀ f' t', Enters arcs w v f' → Leaves arcs w' v t' → f' = f ∧ t' = t) ∨
   (fits f t ∧ ∀ f' t', Enters arcs w v f' → Leaves arcs w' v t' → fits f' t' → f' = f ∧ t' = t))

/-- What a restriction with a via node forbids: the turn that is meant, or (if it is mandatory) all other turns from its first
arc. -/
def ForbidsAt (arcs : List MapArc) (fits : Nat → Nat → Prop) (mandatory : Bool) (w v w' f t : Nat) : Prop :=
  if mandatory then ∃ t0, Meant arcs fits w v w' f t0 ∧ Begins arcs v t ∧ t ≠ t0 else Meant arcs fits w v w' f t

/-- The via node if there is none in the restriction: the node where the only arc of `w'` begins which begins where an arc
of `w` ends. -/
def OnlyVia (arcs : List MapArc) (w w' v : Nat) : Prop :=
  ∃ t, Leaves arcs w' v t ∧ (∃ i, Enters arcs w v i) ∧
    ∀ t' v', Leaves arcs w' v' t' → (∃ i, Enters arcs w v' i) → t' = t

/-- One arc into each node is chosen for each way that has any. -/
def Chooses (arcs : List MapArc) (inc : Nat → Nat → Nat) : Prop := ∀ w v, (∃ i, Enters arcs w v i) → Enters arcs w v (inc w v)

/-- What a mandatory restriction without via node from a way to itself forbids: from the chosen arc of the way into a node,
all turns but the one to the arc of the way which begins there. -/
def ForbidsLeaving (arcs : List MapArc) (inc : Nat → Nat → Nat) (w f t : Nat) : Prop :=
  ∃ v out, (∃ i, Enters arcs w v i) ∧ Leaves arcs w v out ∧ f = inc w v ∧ Begins arcs v t ∧ t ≠ out

/-- What a restriction from the way `w` to the way `w'` forbids; `fits v` tells whether a turn at `v` fits to the direction. -/
def Forbids (arcs : List MapArc) (fits : Nat → Nat → Nat → Prop) (inc : Nat → Nat → Nat) (mandatory : Bool) (w : Nat) (via : Option Nat)
    (w' f t : Nat) : Prop :=
  match via with
  | some v => ForbidsAt arcs (fits v) mandatory w v w' f t
  | none =>
    if mandatory = true ∧ w = w' then ForbidsLeaving arcs inc w f t
    else ∃ v, OnlyVia arcs w w' v ∧ ForbidsAt arcs (fits v) mandatory w v w' f t

end Spec
