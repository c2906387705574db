import Verif.Model.Ieee
import Verif.Model.VpFloat
/-!
# Model of include/routingkit/geo_dist.h with rounding

`geo_dist` evaluated as it is written, in IEEE 754 arithmetic. The makefile of the project uses `-ffast-math`, which permits other results;
`geo_dist` is an inline function in a header and compiled with the options of the user. `contract`: a multiplication and an addition are
contracted to one operation with one rounding (the default of GCC if the processor supports it).
-/
namespace RK.Ieee

/-- geo_dist.h:96 `pi_div_180`. -/
noncomputable def piDiv180 : ℝ := dbl (dbl 3.14159265359 / 180)

/-- geo_dist.h:97 `earth_radius`. -/
noncomputable def earthRadius : ℝ := dbl 6371000.785

/-- geo_dist.h:105-117 in `double`: the number of which `acos` is taken. -/
noncomputable def geoLen (m : MathLib) (contract : Bool) (x y : ℝ × ℝ) : ℝ :=
  let vec0 := m.cos (dbl (dbl (x.1 - y.1) * piDiv180))
  let vec1 := m.cos (dbl (dbl (x.1 + y.1) * piDiv180))
  let vec2 := m.cos (dbl (dbl (x.2 - y.2) * piDiv180))
  let sum := dbl (vec0 + vec1)
  let len := if contract then dbl (sum * vec2 + vec0) else dbl (dbl (sum * vec2) + vec0)
  dbl (dbl (len - vec1) * 0.5)

/-- geo_dist.h:9-124 `geo_dist` in `double`. -/
noncomputable def geoDist (m : MathLib) (contract : Bool) (x y : ℝ × ℝ) : Option ℝ :=
  (m.acos (geoLen m contract x y)).map fun len => dbl (len * earthRadius)

/-- geo_position_to_node.cpp:15-17 `compute_distance`: the result as a `float`. -/
noncomputable def computeDistance (m : MathLib) (contract : Bool) (x y : ℝ × ℝ) : Option ℝ := (geoDist m contract x y).map flt


/-- The operations of geo_position_to_node.cpp on distances of type `float`; comparisons with not a number are false. The formula in
`construct_tree` (lines 48-106) is the parameter `build`; it is defined in `Model/BuildFloat`. -/
noncomputable def geoOps (m : MathLib) (contract : Bool) (build : ℝ × ℝ → ℝ × ℝ → Option ℝ) : DistOps (ℝ × ℝ) (Option ℝ) where
  dist := computeDistance m contract
  build := build
  sub a b := a.bind fun x => b.map fun y => flt (x - y)
  le a b := match a, b with
    | some x, some y => decide (x ≤ y)
    | _, _ => false
  lt a b := match a, b with
    | some x, some y => decide (x < y)
    | _, _ => false
  zero := some 0

end RK.Ieee
