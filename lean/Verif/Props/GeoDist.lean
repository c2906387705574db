import Verif.Model.GeoDist
import Verif.Props.VpTree
import Mathlib.Geometry.Euclidean.Angle.Unoriented.TriangleInequality
import Mathlib.Analysis.InnerProductSpace.PiL2
import Mathlib.Tactic.FieldSimp
import Mathlib.Tactic.Ring
/-!
# C51: distances on the earth

With exact arithmetic.
-/
namespace RK.Props
open RK InnerProductGeometry

/-- Specification: the point on the unit sphere with latitude `x.1` and longitude `x.2`, given in degrees; `deg` is the
number of radians of one degree. -/
noncomputable def spherePoint (deg : ℝ) (x : ℝ × ℝ) : EuclideanSpace ℝ (Fin 3) :=
  !₂[Real.cos (x.2 * deg) * Real.cos (x.1 * deg), Real.sin (x.2 * deg) * Real.cos (x.1 * deg), Real.sin (x.1 * deg)]

theorem spherePoint_norm (deg : ℝ) (x : ℝ × ℝ) : ‖spherePoint deg x‖ = 1 := by
  rw [EuclideanSpace.norm_eq, Real.sqrt_eq_one]
  simp only [spherePoint, Fin.sum_univ_three, Real.norm_eq_abs, sq_abs]
  simp
  have h1 := Real.sin_sq_add_cos_sq (x.2 * deg)
  have h2 := Real.sin_sq_add_cos_sq (x.1 * deg)
  linear_combination (Real.cos (x.1 * deg)) ^ 2 * h1 + h2

theorem geoCos_eq_inner (x y : ℝ × ℝ) : geoCos x y = inner ℝ (spherePoint piDiv180 x) (spherePoint piDiv180 y) := by
  unfold geoCos spherePoint
  simp only [PiLp.inner_apply, Fin.sum_univ_three]
  simp only [sub_mul, add_mul, Real.cos_sub, Real.cos_add]
  simp
  ring

/-- **C51.** `geo_dist` is the great circle distance on a sphere: the earth's radius times the angle between the two points. -/
theorem C51_great_circle_distance (x y : ℝ × ℝ) :
    geoDist x y = earthRadius * angle (spherePoint piDiv180 x) (spherePoint piDiv180 y) := by
  unfold geoDist angle
  rw [geoCos_eq_inner, spherePoint_norm, spherePoint_norm, mul_one, div_one, mul_comm]

/-- **C51.** The argument of `acos` is in its domain. -/
theorem C51_acos_defined (x y : ℝ × ℝ) : -1 ≤ geoCos x y ∧ geoCos x y ≤ 1 := by
  rw [geoCos_eq_inner]
  have h := abs_real_inner_le_norm (spherePoint piDiv180 x) (spherePoint piDiv180 y)
  rw [spherePoint_norm, spherePoint_norm, mul_one] at h
  exact abs_le.1 h

theorem earthRadius_pos : 0 < earthRadius := by unfold earthRadius; norm_num

/-- **C51.** `geo_dist` is a metric. -/
theorem C51_metric : IsMetric geoDist := by
  refine ⟨fun x => ?_, fun x y => ?_, fun x y => ?_, fun x y z => ?_⟩
  · rw [C51_great_circle_distance, angle_self, mul_zero]
    intro h
    have := spherePoint_norm piDiv180 x
    rw [h, norm_zero] at this
    exact one_ne_zero this.symm
  · rw [C51_great_circle_distance]
    exact mul_nonneg earthRadius_pos.le (angle_nonneg _ _)
  · rw [C51_great_circle_distance, C51_great_circle_distance, angle_comm]
  · simp only [C51_great_circle_distance]
    rw [← mul_add]
    exact mul_le_mul_of_nonneg_left (angle_le_angle_add_angle _ _ _) earthRadius_pos.le

/-- **C51.** Different points of the sphere have a positive distance. -/
theorem C51_positive (x y : ℝ × ℝ) : geoDist x y = 0 ↔ spherePoint piDiv180 x = spherePoint piDiv180 y := by
  rw [C51_great_circle_distance, mul_eq_zero, or_iff_right earthRadius_pos.ne']
  constructor
  · intro h
    have h1 := (angle_eq_zero_iff.1 h).2
    obtain ⟨r, hr, e⟩ := h1
    have h2 := congrArg norm e
    rw [norm_smul, spherePoint_norm, spherePoint_norm, mul_one, Real.norm_eq_abs, abs_of_pos hr] at h2
    rw [e, ← h2, one_smul]
  · intro h
    rw [h]
    refine angle_self ?_
    intro h
    have := spherePoint_norm piDiv180 y
    rw [h, norm_zero] at this
    exact one_ne_zero this.symm

theorem geoCos_eq_haversine (x y : ℝ × ℝ) : geoCos x y = 1 - 2 * haversine x y := by
  unfold geoCos haversine
  have e : ∀ t : ℝ, t * (1 / 180) * 3.14159265359 = t * piDiv180 := by
    intro t; unfold piDiv180; ring
  simp only [e]
  have hs : ∀ t : ℝ, Real.sin (t * 0.5) * Real.sin (t * 0.5) = (1 - Real.cos t) / 2 := by
    intro t
    have h1 := Real.cos_two_mul (t * 0.5)
    have h2 := Real.sin_sq_add_cos_sq (t * 0.5)
    rw [show 2 * (t * 0.5) = t by ring] at h1
    rw [h1]
    linear_combination h2
  rw [hs, hs]
  simp only [sub_mul, add_mul, Real.cos_sub, Real.cos_add]
  ring

/-- **C51.** The formula in the construction of the geographic index gives the same distances. -/
theorem C51_construction_formula (x y : ℝ × ℝ) : constructionDist x y = geoDist x y := by
  unfold constructionDist geoDist
  rw [mul_comm]
  congr 1
  obtain ⟨h1, h2⟩ := C51_acos_defined x y
  rw [geoCos_eq_haversine] at h1 h2 ⊢
  generalize haversine x y = a at h1 h2 ⊢
  have ha0 : 0 ≤ a := by linarith
  have ha1 : a ≤ 1 := by linarith
  unfold atan2
  have hne : (⟨Real.sqrt (1 - a), Real.sqrt a⟩ : ℂ) ≠ 0 := by
    intro h
    have h3 : Real.sqrt (1 - a) = 0 := congrArg Complex.re h
    have h4 : Real.sqrt a = 0 := congrArg Complex.im h
    rw [Real.sqrt_eq_zero (by linarith)] at h3
    rw [Real.sqrt_eq_zero ha0] at h4
    linarith
  have hnorm : ‖(⟨Real.sqrt (1 - a), Real.sqrt a⟩ : ℂ)‖ = 1 := by
    rw [Complex.norm_eq_sqrt_sq_add_sq]
    simp only []
    rw [Real.sq_sqrt (by linarith), Real.sq_sqrt ha0]
    simp
  have hcos := Complex.cos_arg hne
  rw [hnorm, div_one] at hcos
  simp only [] at hcos
  have hp1 : 0 ≤ Complex.arg ⟨Real.sqrt (1 - a), Real.sqrt a⟩ := Complex.arg_nonneg_iff.2 (Real.sqrt_nonneg _)
  have hp2 : Complex.arg ⟨Real.sqrt (1 - a), Real.sqrt a⟩ ≤ Real.pi / 2 := by
    have := (Complex.abs_arg_le_pi_div_two_iff (z := ⟨Real.sqrt (1 - a), Real.sqrt a⟩)).2 (Real.sqrt_nonneg _)
    exact (le_abs_self _).trans this
  symm
  rw [← Real.arccos_cos (x := 2 * Complex.arg ⟨Real.sqrt (1 - a), Real.sqrt a⟩) (by linarith) (by linarith)]
  congr 1
  rw [Real.cos_two_mul, hcos, Real.sq_sqrt (by linarith)]
  ring

/-- **C40** for the distances on the earth (exact arithmetic): all points within a radius. -/
theorem C40_find_all_on_earth {nth : Nat → Nat → List (PointData (ℝ × ℝ) ℝ) → Nat → List (PointData (ℝ × ℝ) ℝ)}
    (hn : NthElementOk nth) (points : List (ℝ × ℝ)) :
    ∃ g, GeoIndex.build geoDist nth points = some g ∧ ∀ (q : ℝ × ℝ) (radius : ℝ), 0 ≤ radius →
      ∃ res, g.findAll geoDist q radius = some res ∧ (res.map (·.id)).Nodup ∧
        ∀ id d, ⟨id, d⟩ ∈ res ↔ ∃ p, points[id]? = some p ∧ d = geoDist q p ∧ geoDist q p ≤ radius :=
  C40_find_all_exact C51_metric hn points

end RK.Props
