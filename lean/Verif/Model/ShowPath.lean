import Verif.Res
import Verif.Model.TextIO
import Verif.Model.ChFile
import Verif.Model.ChQuery
/-!
# Model of the command line tool `/repo/src/show_path.cpp`

A document is represented by the values that are printed into it; the fixed text of the KML format and the conversion of
coordinates to decimal numbers are not modelled. A coordinate is of an arbitrary type.
-/
namespace RK

/-- show_path.cpp:46-69: what is printed for one query; a pair is `longitude,latitude`. -/
structure PathDocument (α : Type) where
  source : α × α
  target : α × α
  distance : Nat
  line : List (α × α)
deriving DecidableEq

/-- show_path.cpp:52, 56 and 63: `longitude[x]` and `latitude[x]`. -/
def coordinateOf {α : Type} (latitude longitude : List α) (x : Nat) : Option (α × α) := do
  let lon ← rd longitude x
  let lat ← rd latitude x
  some (lon, lat)

/-- show_path.cpp:44-69: one query. -/
def pathDocument {α : Type} (latitude longitude : List α) (q : ChQuery) (s t : Nat) : Option (ChQuery × PathDocument α) := do
  let q ← q.reset
  let q ← q.addSource s 0
  let q ← q.addTarget t 0
  let q ← q.run
  let source ← coordinateOf latitude longitude s
  let target ← coordinateOf latitude longitude t
  let distance ← q.getDistance
  let nodes ← q.getNodePath
  let line ← nodes.mapM (coordinateOf latitude longitude)
  some (q, ⟨source, target, distance, line⟩)

/-- How the program ends. -/
inductive PathEnding where
  /-- no further pair of numbers can be read -/
  | finished
  /-- an exception because of a node id -/
  | outOfBounds
deriving DecidableEq

/-- show_path.cpp:38 `cin >> source >> target`. -/
def readPair (text : Text) : Option (Nat × Nat × Text) := do
  let (s, rest) ← readUnsigned text
  let (t, rest) ← readUnsigned rest
  some (s, t, rest)

/-- show_path.cpp:38-71, the loop. Every successful read consumes characters, so the loop ends before `fuel` is exhausted if `fuel` is
larger than the length of the text. What was printed before an exception stays printed. -/
def showPaths {α : Type} (latitude longitude : List α) (nodeCount : Nat) : Nat → ChQuery → Text → List (PathDocument α) →
    Res (List (PathDocument α) × PathEnding)
  | 0, _, _, _ => .ub
  | fuel + 1, q, text, docs =>
    match readPair text with
    | none => .ok (docs, .finished)
    | some (s, t, rest) =>
      if s > nodeCount then .ok (docs, .outOfBounds)
      else if t > nodeCount then .ok (docs, .outOfBounds)
      else do
        let r ← Res.ofOption (pathDocument latitude longitude q s t)
        showPaths latitude longitude nodeCount fuel r.1 rest (docs ++ [r.2])

/-- show_path.cpp:31-71; `text` is the standard input. -/
def toolShowPath {α : Type} (hardened : Bool) (chFile : Option (List Byte)) (latitude longitude : List α) (text : Text) :
    Res (List (PathDocument α) × PathEnding) := do
  let ch ← loadCh hardened chFile
  showPaths latitude longitude ch.rank.length (text.length + 1) (ChQuery.new ch) text []

end RK
