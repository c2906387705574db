import Verif.Res
import Verif.Model.TextIO
import Verif.Model.GraphUtil
import Verif.Model.InverseVector
/-!
# Model of `/repo/src/convert_road_dimacs_graph.cpp` and `/repo/src/export_road_dimacs_graph.cpp`

The functions work on the text of the DIMACS file and on the vectors; reading and writing vector files is modelled in
`Model/VectorIO.lean`. Enough memory is assumed. Error messages are not modelled.
-/
namespace RK

/-- convert_road_dimacs_graph.cpp:42-47, the variables of the reading loop. `header` is (`node_count`, `arc_count`), `none` as
long as they are uninitialised. -/
structure DimacsState where
  header : Option (Nat × Nat)
  tail : List Nat
  head : List Nat
  weight : List Nat
  nextArc : Nat
deriving DecidableEq

/-- Lines 56-57, 66-68: the extraction of the fields of the header. -/
def dimacsHeaderFields (line : Text) : Option (Text × Text × Nat × Nat) := do
  let (p, s) ← readWord line
  let (sp, s) ← readWord s
  let (n, s) ← readUnsigned s
  let (m, _) ← readUnsigned s
  some (p, sp, n, m)

/-- Lines 66-68: the extraction of the fields of an arc. -/
def dimacsArcFields (line : Text) : Option (Text × Nat × Nat × Nat) := do
  let (a, s) ← readWord line
  let (t, s) ← readUnsigned s
  let (h, s) ← readUnsigned s
  let (w, _) ← readUnsigned s
  some (a, t, h, w)

/-- `--x` for an `unsigned`. -/
def dec32 (x : Nat) : Nat := (x + 4294967295) % u32

/-- Lines 55-64. -/
def dimacsHeader (line : Text) : Res DimacsState :=
  match dimacsHeaderFields line with
  | none => .error
  | some (p, sp, n, m) =>
    if p = ['p'] ∧ sp = ['s', 'p'] then
      .ok ⟨some (n, m), List.replicate m 0, List.replicate m 0, List.replicate m 0, 0⟩
    else .error

/-- Lines 66-79. -/
def dimacsArc (s : DimacsState) (n m : Nat) (line : Text) : Res DimacsState :=
  match dimacsArcFields line with
  | none => .error
  | some (a, t, h, w) =>
    let h := dec32 h
    let t := dec32 t
    if a ≠ ['a'] ∨ n ≤ h ∨ n ≤ t then .error
    else if s.nextArc < m then
      Res.ofOption do
        let head ← wr s.head s.nextArc h
        let tail ← wr s.tail s.nextArc t
        let weight ← wr s.weight s.nextArc w
        some { s with tail := tail, head := head, weight := weight, nextArc := add32 s.nextArc 1 }
    else .ok { s with nextArc := add32 s.nextArc 1 }

/-- Lines 50-80, the body of the reading loop. -/
def dimacsLine (s : DimacsState) (line : Text) : Res DimacsState :=
  if line = [] ∨ line.head? = some 'c' then .ok s
  else match s.header with
    | none => dimacsHeader line
    | some (n, m) => dimacsArc s n m line

/-- inverse_vector.h:20-40 `invert_vector` including the wrap-around of `element_count+1`: for the largest
`element_count` the index is empty and line 29 writes out of bounds. -/
def invertVector32 (v : List Nat) (n : Nat) : Option (List Nat) :=
  if n + 1 = u32 then if v = [] then some [] else none else invertVector v n

/-- Lines 92-101: order the arcs by tail and head; returns `first_out`, `head`, `weight`. -/
def orderArcs (n : Nat) (tail head weight : List Nat) : Option (List Nat × List Nat × List Nat) := do
  let p ← computeInverseStableSortPermutationUsingKey head n (fun x => x)
  let tail ← applyInversePermutation p tail
  let q ← computeInverseStableSortPermutationUsingKey tail n (fun x => x)
  let tail ← applyInversePermutation q tail
  let r ← chainPermutation q p
  let head ← applyInversePermutation r head
  let weight ← applyInversePermutation r weight
  let firstOut ← invertVector32 tail n
  some (firstOut, head, weight)

/-- Line 83 and lines 88-101. Without header `arc_count` is read uninitialised. -/
def dimacsFinish (s : DimacsState) : Res (List Nat × List Nat × List Nat) :=
  match s.header with
  | none => .ub
  | some (n, m) => if s.nextArc ≠ m then .error else Res.ofOption (orderArcs n s.tail s.head s.weight)

/-- convert_road_dimacs_graph.cpp:40-101, the conversion of the text of a DIMACS file to `first_out`, `head` and
`weight`. -/
def convertDimacs (text : Text) : Res (List Nat × List Nat × List Nat) := do
  let s ← (getLines text).foldlM dimacsLine ⟨none, [], [], [], 0⟩
  dimacsFinish s

/-- export_road_dimacs_graph.cpp:66, one line of the output. -/
def dimacsArcText (t h w : Nat) : Text :=
  ['a', ' '] ++ printNat (add32 t 1) ++ [' '] ++ printNat (add32 h 1) ++ [' '] ++ printNat w ++ ['\n']

/-- export_road_dimacs_graph.cpp:37-67, the conversion of `first_out`, `head` and `weight` to the text of a DIMACS
file. `invert_inverse_vector` is called before the checks. -/
def exportDimacs (firstOut head weight : List Nat) : Res Text := do
  let tail ← Res.ofOption (invertInverseVector firstOut)
  let n := firstOut.length - 1
  let m := head.length
  let front ← Res.ofOption firstOut.head?
  Res.require (decide (front = 0))
  let back ← Res.ofOption firstOut.getLast?
  Res.require (decide (back = m))
  Res.require (decide (head ≠ []))
  Res.require (head.all fun x => decide (x < n))
  Res.require (decide (weight.length = m))
  Res.ofOption <| forRange 0 m (['p', ' ', 's', 'p', ' '] ++ printNat n ++ [' '] ++ printNat m ++ ['\n']) fun out i => do
    let t ← rd tail i
    let h ← rd head i
    let w ← rd weight i
    some (out ++ dimacsArcText t h w)

end RK
