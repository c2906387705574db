import Verif.Model.GeoFloat
import Mathlib.Analysis.SpecialFunctions.Complex.Arg
/-!
# The distances in `construct_tree` with rounding (src/geo_position_to_node.cpp:48-106)

The numbers have the type `float` (and the intermediate results too, as for processors with SSE or Neon).
-/
namespace RK.Ieee

/-- The functions `sinf`, `cosf` and `atan2f`. -/
structure SingleLib where
  sin : ℝ → ℝ
  cos : ℝ → ℝ
  atan2 : ℝ → ℝ → ℝ

/-- What is assumed about these functions: a relative error of at most 2^-21. This is the case if the error is at most four times the distance of neighbouring
numbers of type `float`, as in the library of vectorised functions of glibc. -/
structure SingleLib.Good (l : SingleLib) : Prop where
  sin_near : ∀ x, |l.sin x - Real.sin x| ≤ 2 ^ (-21 : ℤ) * |Real.sin x|
  cos_near : ∀ x, |l.cos x - Real.cos x| ≤ 2 ^ (-21 : ℤ) * |Real.cos x|
  atan2_near : ∀ y x, |l.atan2 y x - Complex.arg ⟨x, y⟩| ≤ 2 ^ (-21 : ℤ) * |Complex.arg ⟨x, y⟩|

/-- Which multiplication of a sum of two products is contracted with the addition to one operation with one rounding. -/
inductive Fused
  | none | first | second

/-- Line 51 `R`. -/
noncomputable def radiusF : ℝ := flt 6371000.785

/-- Line 52 `inv_180`. -/
noncomputable def inv180 : ℝ := flt (dbl (1 / 180))

/-- Line 50 `pi`; lines 57-60 and 87-90: a coordinate is multiplied with `inv_180` and `pi`. -/
noncomputable def toRadians (v : ℝ) : ℝ := flt (flt (v * inv180) * flt 3.14159265359)

/-- `sqrtf`, rounded to nearest; `none` is not a number. -/
noncomputable def sqrtF (x : ℝ) : Option ℝ := if x < 0 then none else some (flt (Real.sqrt x))

/-- Lines 92-95 `a_[j]` for the pivot `x` and the point `y`. The multiplications with 0.5 are exact. -/
noncomputable def haversineF (l : SingleLib) (f : Fused) (x y : ℝ × ℝ) : ℝ :=
  let dlat := flt (toRadians y.1 - toRadians x.1)
  let dlon := flt (toRadians y.2 - toRadians x.2)
  let s := l.sin (dlat * 0.5)
  let t := l.sin (dlon * 0.5)
  let p := flt (flt (t * t) * l.cos (toRadians x.1))
  match f with
  | .none => flt (flt (s * s) + flt (p * l.cos (toRadians y.1)))
  | .first => flt (s * s + flt (p * l.cos (toRadians y.1)))
  | .second => flt (flt (s * s) + p * l.cos (toRadians y.1))

/-- Lines 101-102: the distance of the point `y` to the pivot `x`. -/
noncomputable def buildDist (l : SingleLib) (f : Fused) (x y : ℝ × ℝ) : Option ℝ :=
  let a := haversineF l f x y
  (sqrtF a).bind fun p => (sqrtF (flt (1 - a))).map fun q => flt (radiusF * (2 * l.atan2 p q))

end RK.Ieee
