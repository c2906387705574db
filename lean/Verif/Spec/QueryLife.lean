import Verif.Spec.Query
/-!
# Specification of programs with several hierarchies and several query objects

A query object does not own its hierarchy. `H` is the type of hierarchies.
-/
namespace Spec

/-- Statements about variables of two types; hierarchies and query objects are numbered separately. -/
inductive LifeOp (H : Type)
  /-- variable `i` gets the hierarchy `h`, one for the graph `G` -/
  | build (i : Nat) (h : H) (G : QGraph)
  /-- hierarchy `i = j` -/
  | copyHier (i j : Nat)
  /-- hierarchy `i = std::move(j)` -/
  | moveHier (i j : Nat)
  /-- the end of the life of hierarchy `i` -/
  | endHier (i : Nat)
  /-- query object `k` is constructed for hierarchy `i` -/
  | construct (k i : Nat)
  /-- query object `k = l` -/
  | copyQuery (k l : Nat)
  | endQuery (k : Nat)
  /-- a call on query object `k`; `attach i G` is `reset` with hierarchy `i` -/
  | call (k : Nat) (op : QOp Nat)

/-- What a query object stands for: the variable of its hierarchy, the query, and whether that variable has not been changed since
the query object was told about it. -/
structure QueryView where
  hier : Nat
  query : QState
  intact : Bool

/-- The graphs of the hierarchies, and the query objects. -/
structure LifeView where
  hiers : Nat → Option QGraph
  queries : Nat → Option QueryView

/-- A function changed in one place. -/
def changed {α : Type} (f : Nat → α) (k : Nat) (a : α) : Nat → α := fun x => if x = k then a else f x

/-- A hierarchy changes; the query objects that use it are not intact any more. -/
def LifeView.setHier (S : LifeView) (i : Nat) (G : Option QGraph) : LifeView :=
  ⟨changed S.hiers i G, fun k => (S.queries k).map fun v => if v.hier = i then { v with intact := false } else v⟩

/-- The hierarchy that a query object uses after a call. -/
def QOp.hierAfter (op : QOp Nat) (i : Nat) : Nat :=
  match op with
  | .attach j _ => j
  | _ => i

/-- What the statements mean: a call on a query object is answered as by itself and changes no other object, and copies are
independent. -/
def LifeStep {H : Type} (S : LifeView) (op : LifeOp H) (out : QOut) (S' : LifeView) : Prop :=
  match op with
  | .build i _ G => out = .unit ∧ S' = S.setHier i (some G)
  | .copyHier i j => out = .unit ∧ S' = S.setHier i (S.hiers j)
  | .moveHier i j => out = .unit ∧ S' = (S.setHier i (S.hiers j)).setHier j none
  | .endHier i => out = .unit ∧ S' = S.setHier i none
  | .construct k i => ∃ G, S.hiers i = some G ∧ out = .unit ∧
      S' = ⟨S.hiers, changed S.queries k (some ⟨i, QState.fresh G, true⟩)⟩
  | .copyQuery k l => out = .unit ∧ S' = ⟨S.hiers, changed S.queries k (S.queries l)⟩
  | .endQuery k => out = .unit ∧ S' = ⟨S.hiers, changed S.queries k none⟩
  | .call k op => ∃ v s', S.queries k = some v ∧ QStep v.query op out s' ∧
      S' = ⟨S.hiers, changed S.queries k (some ⟨op.hierAfter v.hier, s', true⟩)⟩

/-- The preconditions. A query object may be copied, destroyed and reset to another hierarchy also if its hierarchy is gone; for
every other call its hierarchy must be intact, besides what is required anyway. -/
def LifePre {H : Type} (Valid : H → QGraph → Prop) (mayPin : Nat → Nat → Prop) (S : LifeView) (op : LifeOp H) : Prop :=
  match op with
  | .build _ h G => Valid h G
  | .copyHier _ j => S.hiers j ≠ none
  | .moveHier i j => i ≠ j ∧ S.hiers j ≠ none
  | .endHier i => S.hiers i ≠ none
  | .construct _ i => S.hiers i ≠ none
  | .copyQuery _ l => S.queries l ≠ none
  | .endQuery k => S.queries k ≠ none
  | .call k op => ∃ v, S.queries k = some v ∧
      match op with
      | .attach j G => S.hiers j = some G
      | op => v.intact = true ∧ QPre (fun _ _ => True) mayPin v.query op

end Spec
