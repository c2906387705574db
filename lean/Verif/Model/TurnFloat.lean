import Verif.Model.Ieee
import Verif.Model.OsmGraph
import Mathlib.Analysis.SpecialFunctions.Complex.Arg
/-!
# Directions of turns with rounding (src/osm_graph_builder.cpp:665-742)

If a turn restriction does not determine the arcs, then its direction is compared with the angle between the arcs. The angle is computed from the latitudes
and longitudes as if they were coordinates of a plane. Here in IEEE 754 arithmetic.
-/
namespace RK.Ieee

/-- The function `atan2`; the result as a `float`. -/
structure AngleLib where
  atan2 : ℝ → ℝ → ℝ

/-- What is assumed about `atan2`: the error is at most nine tenths of the distance of neighbouring numbers of type `float`. -/
def AngleLib.Good (l : AngleLib) : Prop := ∀ y x : ℝ, |l.atan2 y x - Complex.arg ⟨x, y⟩| ≤ 0.9 * ulp 24 (Complex.arg ⟨x, y⟩)

/-- osm_graph_builder.cpp:672 `pi`. -/
noncomputable def piF : ℝ := flt 3.14159265359

/-- osm_graph_builder.cpp:675-677, the first loop of `mod_2pi`. More than `n` rounds are `none`; that they do not occur is shown in `Proof/TurnFloat`. -/
noncomputable def addTwoPi : Nat → ℝ → Option ℝ
  | 0, _ => none
  | n + 1, a => if a < 0 then addTwoPi n (flt (a + 2 * piF)) else some a

/-- osm_graph_builder.cpp:678-680, the second loop of `mod_2pi`. -/
noncomputable def subTwoPi : Nat → ℝ → Option ℝ
  | 0, _ => none
  | n + 1, a => if 2 * piF < a then subTwoPi n (flt (a - 2 * piF)) else some a

/-- osm_graph_builder.cpp:674-682 `mod_2pi`. -/
noncomputable def mod2pi (a : ℝ) : Option ℝ := (addTwoPi 3 a).bind (subTwoPi 3)

/-- osm_graph_builder.cpp:697, 710 and 712 `angle_diff`; positions are pairs of latitude and longitude. -/
noncomputable def angleDiff (l : AngleLib) (via src dst : ℝ × ℝ) : Option ℝ :=
  let fromAngle := l.atan2 (flt (via.1 - src.1)) (flt (via.2 - src.2))
  let toAngle := l.atan2 (flt (dst.1 - via.1)) (flt (dst.2 - via.2))
  mod2pi (flt (toAngle - fromAngle))

/-- osm_graph_builder.cpp:714-742: the comparison with the direction. Lines 716 and 723 are evaluated in `double`, where the products and quotients are exact. -/
noncomputable def turnFits (l : AngleLib) (dir : Osm.TurnDirection) (via src dst : ℝ × ℝ) : Bool :=
  match angleDiff l via src dst with
  | none => false
  | some d => match dir with
    | .left => decide (piF * 1 / 4 < d ∧ d < piF * 3 / 4)
    | .right => decide (piF * 5 / 4 < d ∧ d < piF * 7 / 4)
    | .straight => decide (d < flt (piF / 3) ∨ flt (flt (5 * piF) / 3) < d)
    | .uTurn => decide (flt (2 * piF / 3) < d ∧ d < flt (4 * piF / 3))

end RK.Ieee
