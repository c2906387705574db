import Verif.Spec.OsmPbf
/-! # Specification: nodes and ways used for routing -/
namespace Spec

/-- Tags as a function from keys to values. -/
abbrev TagLookup := Str → Option Str

/-- The value of a key is that of its first occurrence. -/
def lookup (tags : List (Str × Str)) : TagLookup := fun key => (tags.find? fun p => p.1 = key).map Prod.snd

/-- The id is nonnegative and at most 2^63-1. -/
def OsmItem.GoodIds : OsmItem → Prop
  | .node id .. => 0 ≤ id ∧ id < 2 ^ 63
  | .way id nodes _ => (0 ≤ id ∧ id < 2 ^ 63) ∧ ∀ x ∈ nodes, 0 ≤ x ∧ x < 2 ^ 63
  | .relation .. => True

/-- The ways with at least two nodes that are accepted by `use`: ids and nodes. -/
def usedWays (use : Int → TagLookup → Bool) (items : List OsmItem) : List (Int × List Int) :=
  items.filterMap fun i => match i with
    | .way id nodes tags => if 2 ≤ nodes.length ∧ use id (lookup tags) then some (id, nodes) else none
    | _ => none

/-- The nodes that are accepted by `accept`. -/
def acceptedNodes (accept : Int → TagLookup → Bool) (items : List OsmItem) : List Int :=
  items.filterMap fun i => match i with
    | .node id _ _ tags => if accept id (lookup tags) then some id else none
    | _ => none

/-- A node that is accepted or lies on a way. -/
def IsModellingNode (accepted : List Int) (ways : List (Int × List Int)) (x : Int) : Prop :=
  x ∈ accepted ∨ ∃ w ∈ ways, x ∈ w.2

/-- A node that is accepted, or the first or last node of a way, or listed at least twice in all ways together. -/
def IsRoutingNode (accepted : List Int) (ways : List (Int × List Int)) (x : Int) : Prop :=
  x ∈ accepted ∨ (∃ w ∈ ways, w.2.head? = some x ∨ w.2.getLast? = some x) ∨ 2 ≤ (ways.flatMap Prod.snd).count x

/-- A callback for 64 bit ids as a predicate on the ids of the file; nothing is accepted if there is no callback. -/
def accepts (f : Option (BitVec 64 → TagLookup → Bool)) (id : Int) (t : TagLookup) : Bool :=
  match f with
  | none => false
  | some f => f (BitVec.ofInt 64 id) t

/-! ### Arcs -/

/-- The part of a way between two consecutive routing nodes. -/
structure Segment where
  first : Nat
  inner : List Nat
  last : Nat
deriving DecidableEq, Repr, Inhabited

/-- The segments of a way which begins with `first` and `inner` (none of them a routing node) and continues with a list. -/
def segmentsFrom (routing : Nat → Bool) (first : Nat) : List Nat → List Nat → List Segment
  | _, [] => []
  | inner, y :: l =>
    if routing y then ⟨first, inner, y⟩ :: segmentsFrom routing y [] l else segmentsFrom routing first (inner ++ [y]) l

/-- The segments of a way. -/
def segments (routing : Nat → Bool) : List Nat → List Segment
  | [] => []
  | x :: l => segmentsFrom routing x [] l

/-- An arc: a segment of a way, in the direction of the way or against it. -/
structure MapArc where
  way : Nat
  seg : Segment
  anti : Bool
deriving DecidableEq, Repr, Inhabited

def MapArc.tail (a : MapArc) : Nat := if a.anti then a.seg.last else a.seg.first
def MapArc.head (a : MapArc) : Nat := if a.anti then a.seg.first else a.seg.last

/-- The nodes between tail and head. -/
def MapArc.inner (a : MapArc) : List Nat := if a.anti then a.seg.inner.reverse else a.seg.inner

/-- The arcs of a way which may be used forwards, backwards. -/
def arcsOfWay (routing : Nat → Bool) (forwards backwards : Bool) (id : Nat) (nodes : List Nat) : List MapArc :=
  (segments routing nodes).flatMap fun s => (if forwards then [⟨id, s, false⟩] else []) ++ (if backwards then [⟨id, s, true⟩] else [])

/-- The arcs of the ways in a file, in the order of the file. `marked` are the ids of the ways that are used, `localId` are
their numbers. For each of them the callback tells whether the way may be used forwards and backwards; its state is passed
from way to way. -/
def graphArcs {σ : Type} (marked routing : Nat → Bool) (localId : Nat → Nat)
    (callback : σ → Int → Nat → TagLookup → Option (σ × Bool × Bool)) : σ → List OsmItem → Option (σ × List MapArc)
  | u, [] => some (u, [])
  | u, .way id nodes tags :: items =>
    if marked id.toNat then
      match callback u id (localId id.toNat) (lookup tags) with
      | none => none
      | some (u, forwards, backwards) =>
        match graphArcs marked routing localId callback u items with
        | none => none
        | some (u, arcs) => some (u, arcsOfWay routing forwards backwards id.toNat (nodes.map Int.toNat) ++ arcs)
    else graphArcs marked routing localId callback u items
  | u, _ :: items => graphArcs marked routing localId callback u items

/-- What a decoder finds in the relations of a file, in the order of the file. -/
def relationData {ρ : Type} (decode : Int → List (Nat × Int × Str) → TagLookup → Option (List ρ)) : List OsmItem → Option (List ρ)
  | [] => some []
  | .relation id members tags :: items =>
    match decode id members (lookup tags), relationData decode items with
    | some l, some l' => some (l ++ l')
    | _, _ => none
  | _ :: items => relationData decode items

/-- The first and last element of a list, as a list. -/
def ends {α : Type} (l : List α) : List α := l.head?.toList ++ if 2 ≤ l.length then l.getLast?.toList else []

/-- The last node with the id `x` in the file: its coordinates. -/
def position (items : List OsmItem) (x : Nat) : Option (Int × Int) :=
  items.foldl (fun acc i => match i with
    | .node id lat lon _ => if id = x then some (lat, lon) else acc
    | _ => acc) none

/-- The length of a path from `p` over the list of nodes; the parts are added from the left to `d`. -/
def pathLength {D : Type} (add : D → D → D) (dist : Nat → Nat → D) (d : D) (p : Nat) : List Nat → D
  | [] => d
  | y :: l => pathLength add dist (add d (dist p y)) y l

end Spec
