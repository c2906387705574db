import Verif.Model.OsmDouble
import Verif.Spec.OsmReport
/-! # Specification: what the callbacks get if coordinates are of type `double` -/
namespace RK
open Spec Osm

/-- Two calls of the same callback with the same arguments, apart from coordinates. -/
def SameCall : OsmEvent → DoubleEvent → Prop
  | .node id _ _ t, .node id' _ _ t' => id' = id ∧ t' = t
  | .way id nodes t, .other e => e = .way id nodes t
  | .relation id members t, .other e => e = .relation id members t
  | _, _ => False

/-- A coordinate in degrees that differs by at most `err` degrees from a number of nanodegrees. -/
def Within (err x : ℝ) (n : Int) : Prop := |x - n / 1000000000| ≤ err

/-- The callback is called for the object; the coordinates have an error of at most `err` degrees. -/
def ReportedWithin (err : ℝ) : DoubleEvent → OsmItem → Prop
  | .node id lat lon t, .node id' lat' lon' tags => id = BitVec.ofInt 64 id' ∧ Within err lat lat' ∧ Within err lon lon' ∧ TagsShow t tags
  | .node .., .way .. => False
  | .node .., .relation .. => False
  | .other _, .node .. => False
  | .other e, i => Reported e i

/-- Nodes are on the globe. -/
def OnGlobe : OsmItem → Prop
  | .node _ lat lon _ => |lat| ≤ 90000000000 ∧ |lon| ≤ 180000000000
  | _ => True

end RK
