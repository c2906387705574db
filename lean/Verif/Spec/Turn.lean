import Verif.Model.OsmProfile
import Mathlib.Analysis.SpecialFunctions.Complex.Arg
import Mathlib.Algebra.Order.Round
import Mathlib.Data.Real.Archimedean
/-!
# Angles of turns

Positions are pairs of latitude and longitude in degrees. An angle is between `-π` and `π`; positive angles are to the left.
-/
namespace Spec

/-- The turn of someone who arrives at `via` from `src` and continues to `dst`, if longitudes and latitudes are the coordinates of a plane. -/
noncomputable def planeTurn (via src dst : ℝ × ℝ) : ℝ :=
  Complex.arg ((⟨dst.2 - via.2, dst.1 - via.1⟩ : ℂ) / ⟨via.2 - src.2, via.1 - src.1⟩)

/-- A difference of longitudes, as the shorter way around the earth. -/
noncomputable def shortWay (x : ℝ) : ℝ := x - 360 * round (x / 360)

/-- The turn on the ground, close to `via`: there, a degree to the east is shorter than a degree to the north by the cosine of the latitude. -/
noncomputable def groundTurn (via src dst : ℝ × ℝ) : ℝ :=
  let c := Real.cos (via.1 * (Real.pi / 180))
  Complex.arg ((⟨shortWay (dst.2 - via.2) * c, dst.1 - via.1⟩ : ℂ) / ⟨shortWay (via.2 - src.2) * c, via.1 - src.1⟩)

/-- A turn by the angle `x` is in the given direction, and by `e` away from the borders between the directions. With a negative number `e`, it may be
beyond the border by that much. A left turn is between 45 and 135 degrees to the left, straight on is less than 60 degrees, a u-turn is more than 120. -/
def InDirection (e : ℝ) (x : ℝ) : RK.Osm.TurnDirection → Prop
  | .left => Real.pi / 4 + e < x ∧ x < 3 * Real.pi / 4 - e
  | .right => -(3 * Real.pi / 4) + e < x ∧ x < -(Real.pi / 4) - e
  | .straight => |x| < Real.pi / 3 - e
  | .uTurn => 2 * Real.pi / 3 + e < |x|

end Spec
