import Verif.Model.DimacsFloat
import Verif.Proof.BuildFloat
import Verif.Props.DimacsCoord
/-! # C71: the positions from a DIMACS file with rounding -/
namespace RK.Props
open RK Ieee _root_.Spec

/-- **C71** with rounding: each position in a valid file is saved as numbers of type `float` with an error of at most 0.00000006 times its value, that is 0.0000108 degrees. -/
theorem C71_positions_rounded (n : Nat) (points : List CoordPoint) (text : List Char) (h : IsCoordFile n points text) (hn : n < 4294967296) (hc : CoordsComplete n points) :
    ∃ longitude latitude : List ℝ, convertCoordinates dimacsDegrees 0 text = .ok (longitude, latitude) ∧ longitude.length = n ∧ latitude.length = n ∧
      ∀ p ∈ points, ∃ lon lat, longitude[p.node - 1]? = some lon ∧ latitude[p.node - 1]? = some lat ∧ flt lon = lon ∧ flt lat = lat ∧
        |lon - p.lon / 1000000| ≤ 0.00000006 * |(p.lon : ℝ) / 1000000| ∧ |lat - p.lat / 1000000| ≤ 0.00000006 * |(p.lat : ℝ) / 1000000| := by
  obtain ⟨longitude, latitude, e, h1, h2, h3⟩ := C71_coordinates_valid dimacsDegrees 0 n points text h hn hc
  refine ⟨longitude, latitude, e, h1, h2, fun p hp => ?_⟩
  have key : ∀ v : Int, |dimacsDegrees v - v / 1000000| ≤ 0.00000006 * |(v : ℝ) / 1000000| := by
    intro v
    have r : ∀ x : ℝ, Ieee.Rel (1 / 9007199254740992) (dbl x) x := by
      intro x
      have := dbl_rel x _ le_rfl
      unfold Ieee.Rel
      linarith
    have r1 := (r v).mul (Ieee.Rel.refl (1 / 1000000)) (by norm_num)
    rw [← div_eq_mul_one_div, ← div_eq_mul_one_div] at r1
    exact ((r _).trans r1 (by norm_num)).round.mono (by norm_num)
  exact ⟨_, _, (h3 p hp).1, (h3 p hp).2, rnd_rnd (by norm_num) _, rnd_rnd (by norm_num) _, key _, key _⟩

end RK.Props
