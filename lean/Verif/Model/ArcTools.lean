import Mathlib.Algebra.Order.Field.Basic
import Verif.Model.Verify
import Verif.Model.TextIO
import Verif.Model.MinMax
/-!
# Model of the tools that go through all arcs

`/repo/src/compute_geographic_distance_weights.cpp`, `/repo/src/graph_to_dot.cpp`, `/repo/src/graph_to_svg.cpp`. The vectors
are given; reading and writing them is modelled in `Model/VectorIO`.
-/
namespace RK

/-- compute_geographic_distance_weights.cpp:55-56, graph_to_dot.cpp:44-45, graph_to_svg.cpp:68-69: the two loops around the
body `f`, which gets the node and the arc. If `first_out` is empty then `size()-1` is 2^64-1 and `first_out[0]` is read. -/
def forAllArcs {σ : Type} (firstOut : List Nat) (s : σ) (f : σ → Nat → Nat → Option σ) : Option σ :=
  if firstOut = [] then none
  else forRange 0 (firstOut.length - 1) s fun s x => do
    let b ← rd firstOut x
    let e ← rd firstOut (x + 1)
    forRange b e s fun s xy => f s x xy

/-- compute_geographic_distance_weights.cpp:36-61: the weights. The function `dist` is `geo_dist` followed by the conversion of
the `double` to `unsigned`; it is undefined (`none`) if the number is no number or does not fit. -/
def toolGeoWeights {α : Type} (dist : α → α → α → α → Option Nat) (firstOut head : List Nat) (latitude longitude : List α) : Res (List Nat) := do
  checkIfGraphIsValid firstOut head
  Res.ofOption <| forAllArcs firstOut (List.replicate head.length 0) fun weight x xy => do
    let y ← rd head xy
    let a ← rd latitude x
    let b ← rd longitude x
    let c ← rd latitude y
    let d ← rd longitude y
    let w ← dist a b c d
    wr weight xy w

/-- graph_to_dot.cpp:48: what is printed for an arc. -/
def dotArc (x y w : Nat) : Text :=
  printNat x ++ [' ', '-', '>', ' '] ++ printNat y ++ ['[', 'l', 'a', 'b', 'e', 'l', '=', '"'] ++ printNat w ++ ['"', ']', ';', '\n']

/-- graph_to_dot.cpp:43-51: the text of the file. -/
def toolDot (firstOut head weight : List Nat) : Option Text := do
  let out ← forAllArcs firstOut ['d', 'i', 'g', 'r', 'a', 'p', 'h', ' ', 'G', '{'] fun out x xy => do
    let y ← rd head xy
    let w ← rd weight xy
    some (out ++ dotArc x y w)
  some (out ++ ['}', '\n'])

/-- graph_to_svg.cpp:41-57: the coordinates are scaled to 0, …, 300. Exact arithmetic instead of `float`; a division by zero
yields `none` (the `float` is not a number, this is not an error). -/
def scaleTo300 {K : Type} [Field K] [LinearOrder K] (v : List K) : Option (List (Option K)) := do
  let lo ← minElementOf (fun a b => decide (a < b)) v
  let hi ← maxElement (fun a b => decide (a < b)) v
  some (v.map fun x => if hi - lo = 0 then none else some ((x - lo) * 300 / (hi - lo)))

/-- graph_to_svg.cpp:72-74: the numbers that are printed for an arc. -/
structure SvgLine (K : Type) where
  x1 : Option K
  y1 : Option K
  x2 : Option K
  y2 : Option K

/-- graph_to_svg.cpp:38-77: the lines of the drawing. The fixed text and the conversion to decimal numbers are left out. -/
def toolSvg {K : Type} [Field K] [LinearOrder K] (firstOut head : List Nat) (latitude longitude : List K) : Option (List (SvgLine K)) := do
  let latitude ← scaleTo300 latitude
  let longitude ← scaleTo300 longitude
  forAllArcs firstOut [] fun out x xy => do
    let y ← rd head xy
    let x1 ← rd longitude x
    let y1 ← rd latitude x
    let x2 ← rd longitude y
    let y2 ← rd latitude y
    some (out ++ [⟨x1, y1.map fun v => 300 - v, x2, y2.map fun v => 300 - v⟩])

end RK
