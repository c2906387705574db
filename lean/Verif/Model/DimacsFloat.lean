import Verif.Model.Ieee
/-! # Conversion of coordinates in `convert_road_dimacs_coordinates` with rounding -/
namespace RK.Ieee

/-- convert_road_dimacs_coordinates.cpp:46 and 86-87: the number of millionths of a degree (a `long long`) is converted to `double`, divided, and
rounded to `float`. -/
noncomputable def dimacsDegrees (v : Int) : ℝ := flt (dbl (dbl v / 1000000))

end RK.Ieee
