import Verif.Spec.Dimacs
import Verif.Spec.OsmPbf
/-! # Specification of the messages of the speedtest of the PBF reader -/
namespace Spec

/-- The three kinds of OSM objects. -/
inductive OsmKind | node | way | relation
deriving DecidableEq, Repr

/-- The kind of an object of a file. -/
def OsmItem.kind : OsmItem → OsmKind
  | .node .. => .node
  | .way .. => .way
  | .relation .. => .relation

/-- The objects and the times at which they are read; `clock i` is the time of the `i`-th. -/
def timed (clock : Nat → Int) (ks : List OsmKind) : List (OsmKind × Int) := ks.zipIdx.map fun e => (e.1, clock e.2)

/-- The number, right-aligned in nine columns if it fits. -/
def Shows (t : List Char) (n : Nat) : Prop :=
  ∃ digits, IsDecimal digits n ∧ t = List.replicate (9 - digits.length) ' ' ++ digits

/-- The message that names the numbers of objects in `part`. -/
def IsReport (t : List Char) (part : List OsmKind) : Prop :=
  ∃ n w r, Shows n (part.count .node) ∧ Shows w (part.count .way) ∧ Shows r (part.count .relation) ∧
    t = "Read ".toList ++ n ++ " nodes, ".toList ++ w ++ " ways, ".toList ++ r ++ " relations last second".toList

/-- The reports for objects with the times (in microseconds) at which they were read, if the previous report was made at time
`last`: there is one whenever more than a second has passed, and it is about all objects since the previous report.
`rest` are the objects since the last report. -/
inductive SpeedReports : Int → List (OsmKind × Int) → List (List Char) → (rest : List (OsmKind × Int)) → Prop
  | quiet {last objects} (h : ∀ o ∈ objects, o.2 ≤ last + 1000000) : SpeedReports last objects [] objects
  | report {last before o behind t ts rest} (h : ∀ o ∈ before, o.2 ≤ last + 1000000) (late : last + 1000000 < o.2)
      (ht : IsReport t ((before ++ [o]).map (·.1))) (more : SpeedReports o.2 behind ts rest) :
      SpeedReports last (before ++ o :: behind) (t :: ts) rest

end Spec
