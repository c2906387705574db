import Verif.Model.FloatText
import Verif.Model.ArcTools
/-!
# Model of `/repo/src/graph_to_svg.cpp` with IEEE arithmetic and the text of the file

`Model/ArcTools.lean` has the same program with exact arithmetic. Here the operations on `float` are rounded (SSE, no excess precision), and the
numbers are printed. The vectors are given; opening the file is left out.
-/
namespace RK

/-- The value; meaningless for infinities and for what is not a number. -/
noncomputable def FloatValue.value : FloatValue → ℝ
  | .finite neg m => if neg then -m else m
  | _ => 0

/-- The result of an operation with sign `neg` and absolute value `m` before rounding. -/
noncomputable def FloatType.result (T : FloatType) (neg : Bool) (m : ℝ) : FloatValue :=
  open Classical in if 2 ^ T.emax ≤ T.round m then .infinity neg else .finite neg (T.round m)

/-- `x < y`. -/
noncomputable def FloatValue.lt : FloatValue → FloatValue → Bool
  | .nan _, _ => false
  | _, .nan _ => false
  | .finite a x, .finite b y => open Classical in decide ((FloatValue.finite a x).value < (FloatValue.finite b y).value)
  | .infinity a, .infinity b => a && !b
  | .infinity a, _ => a
  | _, .infinity b => !b

/-- `x - y`. An exact zero is positive unless both parts are negative zeros. What is not a number has the sign that the x86 gives to it. -/
noncomputable def FloatType.sub (T : FloatType) : FloatValue → FloatValue → FloatValue
  | .nan a, _ => .nan a
  | _, .nan b => .nan b
  | .finite a x, .finite b y =>
    let d := (FloatValue.finite a x).value - (FloatValue.finite b y).value
    open Classical in if d = 0 then .finite (a && !b) 0 else T.result (decide (d < 0)) |d|
  | .infinity a, .infinity b => if a = b then .nan true else .infinity a
  | .infinity a, _ => .infinity a
  | _, .infinity b => .infinity !b

/-- `x * y`. -/
noncomputable def FloatType.mul (T : FloatType) : FloatValue → FloatValue → FloatValue
  | .nan a, _ => .nan a
  | _, .nan b => .nan b
  | .finite a x, .finite b y => T.result (a != b) (x * y)
  | .infinity a, .finite b y => open Classical in if y = 0 then .nan true else .infinity (a != b)
  | .finite a x, .infinity b => open Classical in if x = 0 then .nan true else .infinity (a != b)
  | .infinity a, .infinity b => .infinity (a != b)

/-- `x / y`. -/
noncomputable def FloatType.div (T : FloatType) : FloatValue → FloatValue → FloatValue
  | .nan a, _ => .nan a
  | _, .nan b => .nan b
  | .finite a x, .finite b y =>
    open Classical in if y = 0 then (if x = 0 then .nan true else .infinity (a != b)) else T.result (a != b) (x / y)
  | .infinity a, .finite b _ => .infinity (a != b)
  | .finite a _, .infinity b => .finite (a != b) 0
  | .infinity _, .infinity _ => .nan true

/-- The `int` 300 as `float`. -/
def float300 : FloatValue := .finite false 300

/-- graph_to_svg.cpp:41-48 and 50-57: the coordinates are scaled to 0, …, 300. -/
noncomputable def svgScale (v : List FloatValue) : Option (List FloatValue) := do
  let lo ← minElementOf FloatValue.lt v
  let hi ← maxElement FloatValue.lt v
  some (v.map fun x => float32.div (float32.mul (float32.sub x lo) float300) (float32.sub hi lo))

/-- `out << x` for a `float`, with six digits. -/
noncomputable def printDefault : FloatValue → Text
  | .finite neg m => printSign neg ++ printMag 6 m
  | .infinity neg => printSign neg ++ ['i', 'n', 'f']
  | .nan neg => printSign neg ++ ['n', 'a', 'n']

/-- graph_to_svg.cpp:72-74. -/
noncomputable def svgLine (x1 y1 x2 y2 : FloatValue) : Text :=
  "<line ".toList ++
    "x1=\"".toList ++ printDefault x1 ++ "\" y1=\"".toList ++ printDefault (float32.sub float300 y1) ++ "\" ".toList ++
    "x2=\"".toList ++ printDefault x2 ++ "\" y2=\"".toList ++ printDefault (float32.sub float300 y2) ++ "\" style=\"stroke:#000000;\"/>\n".toList

/-- graph_to_svg.cpp:41-77: the text of the file. -/
noncomputable def toolSvgText (firstOut head : List Nat) (latitude longitude : List FloatValue) : Option Text := do
  let latitude ← svgScale latitude
  let longitude ← svgScale longitude
  let out := "<svg xmlns=\"http://www.w3.org/2000/svg\" xmlns:xlink=\"http://www.w3.org/1999/xlink\" viewBox=\"0 0 300 300\">\n".toList
  let out ← forAllArcs firstOut out fun out x xy => do
    let y ← rd head xy
    let x1 ← rd longitude x
    let y1 ← rd latitude x
    let x2 ← rd longitude y
    let y2 ← rd latitude y
    some (out ++ svgLine x1 y1 x2 y2)
  some (out ++ "</svg>\n".toList)

end RK
