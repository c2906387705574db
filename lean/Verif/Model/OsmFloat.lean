import Verif.Model.GeoFloat
import Verif.Model.OsmGraph
/-!
# The lengths of arcs in src/osm_graph_builder.cpp with rounding

The operations on floating point numbers that `load_osm_routing_graph_from_pbf` uses, in IEEE 754 arithmetic. (The makefile of the project uses
`-ffast-math`, which permits other results and assumes that there are no values that are not a number.)
-/
namespace RK.Ieee

/-- osm_decoder.cpp:320 and 421-425: a coordinate of `n` nanodegrees with the granularity 100 as a `double`, for the first node of a list of nodes;
osm_graph_builder.cpp:225, 226: it is stored as a `float`. For the later nodes the differences are added up, see `denseCoords`; that the result depends
on the previous nodes is not modelled here. -/
noncomputable def osmCoord (n : Int) : ℝ := flt (dbl (dbl (dbl 0.000000001 * 100) * (n / 100)))

/-- osm_decoder.cpp:318-320 and 421-425: the coordinates of several nodes from the differences of their values, with the granularity `g` and without an
offset; `x` is the previous coordinate. -/
noncomputable def denseCoords (g : ℕ) (x : ℝ) : List Int → List ℝ
  | [] => []
  | δ :: l =>
    let x := dbl (x + dbl (0 + dbl (dbl (dbl 0.000000001 * g) * δ)))
    x :: denseCoords g x l

/-- The conversion to `unsigned` (osm_graph_builder.cpp:263, 266 and 271: a `double` is passed for the parameter `unsigned dist` of line 161;
compute_geographic_distance_weights.cpp:58). It cuts off the part behind the point; it is undefined for not a number and for numbers whose whole part
does not fit (ISO C++ [conv.fpint]). -/
noncomputable def toUnsigned (x : Option ℝ) : Option Nat := x.bind fun x => if -1 < x ∧ x < 4294967296 then some ⌊x⌋.toNat else none

/-- compute_geographic_distance_weights.cpp:58: the weight of an arc. -/
noncomputable def geoWeight (m : MathLib) (contract : Bool) (a b c d : ℝ) : Option Nat := toUnsigned (geoDist m contract (a, b) (c, d))

/-- The operations in osm_graph_builder.cpp. Not a number is `none`. `coord` is the conversion of coordinates. `fits` belongs to the turn restrictions
with a direction (lines 673-742). -/
noncomputable def osmOps (m : MathLib) (contract : Bool) (coord : Int → ℝ)
    (fits : Osm.TurnDirection → ℝ × ℝ → ℝ × ℝ → ℝ × ℝ → Bool) : Osm.FloatOps where
  F := ℝ
  D := Option ℝ
  zero := 0
  ofCoord := coord
  geoDist a b c d := geoDist m contract (a, b) (c, d)
  zeroD := some 0
  add x y := x.bind fun x => y.map fun y => dbl (x + y)
  toUnsigned := toUnsigned
  fits := fits

end RK.Ieee
