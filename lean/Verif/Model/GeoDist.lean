import Mathlib.Analysis.SpecialFunctions.Trigonometric.Inverse
import Mathlib.Analysis.SpecialFunctions.Complex.Arg
/-!
# Model of include/routingkit/geo_dist.h

The formulas with exact real numbers; rounding is not modelled. Positions are pairs of latitude and longitude in degrees.
-/
namespace RK

/-- geo_dist.h:96. -/
noncomputable def piDiv180 : ℝ := 3.14159265359 / 180

/-- geo_dist.h:97; geo_position_to_node.cpp:51. -/
noncomputable def earthRadius : ℝ := 6371000.785

/-- geo_dist.h:9-124 `geo_dist`: the number of which `acos` is taken (lines 105-117). -/
noncomputable def geoCos (x y : ℝ × ℝ) : ℝ :=
  let vec0 := Real.cos ((x.1 - y.1) * piDiv180)
  let vec1 := Real.cos ((x.1 + y.1) * piDiv180)
  let vec2 := Real.cos ((x.2 - y.2) * piDiv180)
  ((vec0 + vec1) * vec2 + vec0 - vec1) * 0.5

/-- geo_dist.h:9-124 `geo_dist`; geo_position_to_node.cpp:15-17. -/
noncomputable def geoDist (x y : ℝ × ℝ) : ℝ := Real.arccos (geoCos x y) * earthRadius

/-- geo_position_to_node.cpp:54-61 and 87-95: the number `a_[j]` for the pivot `x` and the point `y`. -/
noncomputable def haversine (x y : ℝ × ℝ) : ℝ :=
  let aLat := x.1 * (1 / 180) * 3.14159265359
  let aLon := x.2 * (1 / 180) * 3.14159265359
  let bLat := y.1 * (1 / 180) * 3.14159265359
  let bLon := y.2 * (1 / 180) * 3.14159265359
  let dLat := bLat - aLat
  let dLon := bLon - aLon
  Real.sin (dLat * 0.5) * Real.sin (dLat * 0.5) + Real.sin (dLon * 0.5) * Real.sin (dLon * 0.5) * Real.cos aLat * Real.cos bLat

/-- `atan2(y, x)`. -/
noncomputable def atan2 (y x : ℝ) : ℝ := Complex.arg ⟨x, y⟩

/-- geo_position_to_node.cpp:50-106: the distances in `construct_tree`. -/
noncomputable def constructionDist (x y : ℝ × ℝ) : ℝ :=
  earthRadius * (2 * atan2 (Real.sqrt (haversine x y)) (Real.sqrt (1 - haversine x y)))

end RK
