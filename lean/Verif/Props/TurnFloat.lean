import Verif.Proof.TurnGround
import Verif.Spec.Turn
import Verif.Props.OsmTurns
import Verif.Model.OsmFloat
/-! # C87: directions of turns with floating point numbers -/
namespace RK.Props
open RK Ieee _root_.Spec

/-! ### The hypothesis about the mathematical library can be met -/

/-- A library with a correctly rounded `atan2`. -/
noncomputable def roundedAngles : AngleLib where
  atan2 y x := flt (Complex.arg ⟨x, y⟩)

theorem roundedAngles_good : roundedAngles.Good := by
  intro y x
  have := rnd_near 24 (Complex.arg ⟨x, y⟩)
  rw [abs_sub_comm] at this
  have hu := ulp_pos 24 (Complex.arg ⟨x, y⟩)
  exact this.trans (by norm_num; linarith)

/-! ### Directions -/

/-- The bounds of the comparisons. -/
theorem turn_bounds : |flt (piF / 3) - Real.pi / 3| ≤ 0.0000002 ∧ |flt (flt (5 * piF) / 3) - 5 * Real.pi / 3| ≤ 0.000002 ∧
    |flt (2 * piF / 3) - 2 * Real.pi / 3| ≤ 0.0000003 ∧ |flt (4 * piF / 3) - 4 * Real.pi / 3| ≤ 0.0000005 := by
  have hp := abs_le.1 piF_near
  have h3 := Real.pi_lt_d20
  have h4 := Real.pi_gt_d20
  norm_num at hp h3 h4
  have a1 := abs_le.1 (flt_rel (piF / 3) 1.1 (abs_le.2 ⟨by norm_num; linarith, by norm_num; linarith⟩))
  have a2 := abs_le.1 (flt_rel (5 * piF) 15.8 (abs_le.2 ⟨by norm_num; linarith, by norm_num; linarith⟩))
  norm_num at a1 a2
  have a3 := abs_le.1 (flt_rel (flt (5 * piF) / 3) 5.3 (abs_le.2 ⟨by norm_num; linarith, by norm_num; linarith⟩))
  have a4 := abs_le.1 (flt_rel (2 * piF / 3) 2.1 (abs_le.2 ⟨by norm_num; linarith, by norm_num; linarith⟩))
  have a5 := abs_le.1 (flt_rel (4 * piF / 3) 4.2 (abs_le.2 ⟨by norm_num; linarith, by norm_num; linarith⟩))
  norm_num at a3 a4 a5
  refine ⟨abs_le.2 ⟨?_, ?_⟩, abs_le.2 ⟨?_, ?_⟩, abs_le.2 ⟨?_, ?_⟩, abs_le.2 ⟨?_, ?_⟩⟩ <;> norm_num <;> linarith

/-- **C87** (partial): the direction of a turn, as it is used for turn restrictions, is that of the turn with longitudes and latitudes as coordinates of a
plane, except for turns within a hundred thousandth of the border between two directions. -/
theorem C87_plane_direction_partial {l : AngleLib} (hl : l.Good) (dir : Osm.TurnDirection) {via src dst : ℝ × ℝ} (h1 : src ≠ via) (h2 : dst ≠ via) :
    (InDirection 0.00001 (planeTurn via src dst) dir → turnFits l dir via src dst = true) ∧
      (turnFits l dir via src dst = true → InDirection (-0.00001) (planeTurn via src dst) dir) := by
  obtain ⟨d, e, hd0, hd1, hn⟩ := angleDiff_ok hl h1 h2
  have hθ : |planeTurn via src dst| ≤ Real.pi := Complex.abs_arg_le_pi _
  have hc := angle_cases hd0 hd1 hθ hn
  change |d - planeTurn via src dst| ≤ _ ∨ |d - planeTurn via src dst - 2 * Real.pi| ≤ _ at hc
  generalize planeTurn via src dst = θ at hθ hc
  obtain ⟨b1, b2, b3, b4⟩ := turn_bounds
  have b1 := abs_le.1 b1
  have b2 := abs_le.1 b2
  have b3 := abs_le.1 b3
  have b4 := abs_le.1 b4
  have hp := abs_le.1 piF_near
  have h3 := Real.pi_lt_d20
  have h4 := Real.pi_gt_d20
  have hθ' := abs_le.1 hθ
  rw [abs_le, abs_le] at hc
  unfold turnFits
  simp only [e]
  norm_num at hp h3 h4 b1 b2 b3 b4 hc hd1
  cases dir with
  | left =>
    simp only [InDirection, decide_eq_true_eq]
    refine ⟨fun h => ?_, fun h => ?_⟩ <;> rcases hc with hc | hc <;> obtain ⟨g1, g2⟩ := h <;> norm_num at g1 g2 <;> constructor <;> norm_num <;> linarith
  | right =>
    simp only [InDirection, decide_eq_true_eq]
    refine ⟨fun h => ?_, fun h => ?_⟩ <;> rcases hc with hc | hc <;> obtain ⟨g1, g2⟩ := h <;> norm_num at g1 g2 <;> constructor <;> norm_num <;> linarith
  | straight =>
    simp only [InDirection, decide_eq_true_eq, abs_lt]
    refine ⟨fun h => ?_, fun h => ?_⟩
    · obtain ⟨g1, g2⟩ := h
      norm_num at g1 g2
      rcases hc with hc | hc
      · left; linarith
      · right; linarith
    · rcases hc with hc | hc <;> rcases h with h | h <;> constructor <;> norm_num <;> linarith
  | uTurn =>
    simp only [InDirection, decide_eq_true_eq, lt_abs]
    refine ⟨fun h => ?_, fun h => ?_⟩
    · rcases hc with hc | hc <;> rcases h with h | h <;> norm_num at h <;> constructor <;> linarith
    · obtain ⟨g1, g2⟩ := h
      rcases hc with hc | hc
      · left; norm_num; linarith
      · right; norm_num; linarith

/-- An example: a left turn. -/
example {l : AngleLib} (hl : l.Good) : turnFits l .left (49, 8) (48.99, 8) (49, 7.99) = true := by
  refine (C87_plane_direction_partial hl .left (by norm_num) (by norm_num)).1 ?_
  have q : (⟨7.99 - 8, 49 - 49⟩ : ℂ) / ⟨8 - 8, 49 - 48.99⟩ = Complex.I := by
    rw [div_eq_iff (by norm_num [Complex.ext_iff]), Complex.ext_iff]
    norm_num
  unfold planeTurn
  simp only
  rw [q, Complex.arg_I]
  have hp' := Real.pi_gt_d20
  norm_num at hp'
  constructor <;> norm_num <;> linarith

/-- **C87** for the turn restrictions of an OpenStreetMap file (partial): whether the turn from an arc to another fits to a direction in
`C61_forbidden_turns`. The positions are those of the node, the last one before and the first one behind it. -/
theorem C87_restrictions_partial {l : AngleLib} (hl : l.Good) (m : MathLib) (contract : Bool) (coord : Int → ℝ) (items : List OsmItem) (arcs : List MapArc)
    (dir : Osm.TurnDirection) {v f t : Nat} {a b : MapArc} (ha : arcs[f]? = some a) (hb : arcs[t]? = some b) {via src dst : ℝ × ℝ}
    (hv : coordinates (osmOps m contract coord (turnFits l)) items v = via)
    (hs : coordinates (osmOps m contract coord (turnFits l)) items (beforeHead a) = src)
    (ht : coordinates (osmOps m contract coord (turnFits l)) items (behindTail b) = dst) (h1 : src ≠ via) (h2 : dst ≠ via) :
    (InDirection 0.00001 (planeTurn via src dst) dir → TurnFits (osmOps m contract coord (turnFits l)) items arcs dir v f t) ∧
      (TurnFits (osmOps m contract coord (turnFits l)) items arcs dir v f t → InDirection (-0.00001) (planeTurn via src dst) dir) := by
  have h := C87_plane_direction_partial hl dir h1 h2
  subst hv hs ht
  refine ⟨fun hi => ⟨a, b, ha, hb, h.1 hi⟩, ?_⟩
  rintro ⟨a', b', ha', hb', hf⟩
  rw [ha] at ha'
  rw [hb] at hb'
  cases ha'
  cases hb'
  exact h.2 hf

/-- **C87** on the ground (partial): away from the date line, the direction is that of the turn on the ground, except for turns that are closer to the border
between two directions than a bound that depends on the latitude: with its cosine `c`, it is `(1 - c) / √c` (in addition to the rounding). It is less than one
degree up to a latitude of 10 degrees, and 9 degrees up to a latitude of 30 degrees. -/
theorem C87_ground_direction_partial {l : AngleLib} (hl : l.Good) (dir : Osm.TurnDirection) {via src dst : ℝ × ℝ} (h1 : src ≠ via) (h2 : dst ≠ via)
    (hlat : |via.1| < 90) (hs : |via.2 - src.2| < 180) (hd : |dst.2 - via.2| < 180) {c : ℝ} (hc : c = Real.cos (via.1 * (Real.pi / 180)))
    (he : 0.00001 + (1 - c) / Real.sqrt c ≤ Real.pi / 4) :
    (InDirection (0.00001 + (1 - c) / Real.sqrt c) (groundTurn via src dst) dir → turnFits l dir via src dst = true) ∧
      (turnFits l dir via src dst = true → InDirection (-(0.00001 + (1 - c) / Real.sqrt c)) (groundTurn via src dst) dir) := by
  obtain ⟨hc0, hn⟩ := turns_near h1 h2 hlat hs hd
  rw [← hc] at hc0 hn
  have hc1 : c ≤ 1 := hc ▸ Real.cos_le_one _
  have he0 : 0 ≤ (1 - c) / Real.sqrt c := div_nonneg (by linarith) (Real.sqrt_nonneg c)
  have b1 : |planeTurn via src dst| ≤ Real.pi := Complex.abs_arg_le_pi _
  have b2 : |groundTurn via src dst| ≤ Real.pi := Complex.abs_arg_le_pi _
  obtain ⟨p1, p2⟩ := C87_plane_direction_partial hl dir h1 h2
  refine ⟨fun h => p1 ?_, fun h => ?_⟩
  · have := inDirection_near b2 b1 hn.symm (by norm_num at he ⊢; linarith) (by norm_num at he ⊢; linarith) h
    rwa [add_sub_cancel_right] at this
  · have := inDirection_near b1 b2 hn (by norm_num at he ⊢; linarith) (by norm_num at he ⊢; linarith) (p2 h)
    rwa [neg_add, ← sub_eq_add_neg]

/-- The bound on the equator: only rounding. -/
example : (0.00001 : ℝ) + (1 - Real.cos (0 * (Real.pi / 180))) / Real.sqrt (Real.cos (0 * (Real.pi / 180))) = 0.00001 := by norm_num

/-- The hypothesis at a latitude of 60 degrees. -/
example : (0.00001 : ℝ) + (1 - Real.cos (60 * (Real.pi / 180))) / Real.sqrt (Real.cos (60 * (Real.pi / 180))) ≤ Real.pi / 4 := by
  rw [show 60 * (Real.pi / 180) = Real.pi / 3 by ring, Real.cos_pi_div_three]
  have h1 : (0.7 : ℝ) ≤ Real.sqrt (1 / 2) := Real.le_sqrt_of_sq_le (by norm_num)
  have h2 : (1 - 1 / 2) / Real.sqrt (1 / 2) ≤ (1 / 2) / (0.7 : ℝ) := by
    have e : (1 - 1 / 2 : ℝ) = 1 / 2 := by norm_num
    rw [e]
    exact div_le_div_of_nonneg_left (by norm_num) (by norm_num) h1
  have h3 := Real.pi_gt_three
  norm_num at h2 ⊢
  linarith

/-- Positions close to each other, in the documented range, that are numbers of type `float`. -/
def ClosePositions (via src dst : ℝ × ℝ) : Prop :=
  InRange via ∧ InRange src ∧ InRange dst ∧ (∀ p ∈ [via, src, dst], flt p.1 = p.1 ∧ flt p.2 = p.2) ∧
    (∀ p ∈ [src, dst], |p.1 - via.1| ≤ 0.02 ∧ |shortWay (p.2 - via.2)| ≤ 0.02)

theorem flt_frac (n : ℤ) (k : ℕ) (h : |n| ≤ 2 ^ 24) : flt (n * 2 ^ (-(k : ℤ))) = n * 2 ^ (-(k : ℤ)) := rnd_exact (p := 24) (by norm_num) h

theorem shortWay_of_small {x : ℝ} (h : |x| < 180) : shortWay x = x := by
  have : round (x / 360) = 0 := by
    rw [round_eq_zero_iff]
    have := abs_lt.1 h
    constructor <;> linarith
  rw [shortWay, this]
  simp

/-- **C87**, violated at the date line: a left turn by exactly 90 degrees is taken for a right turn. -/
theorem C87_date_line_violated : ∃ via src dst : ℝ × ℝ, ClosePositions via src dst ∧ groundTurn via src dst = Real.pi / 2 ∧
    ∀ l : AngleLib, l.Good → turnFits l .left via src dst = false ∧ turnFits l .right via src dst = true := by
  have hp := Real.pi_lt_d20
  have hp' := Real.pi_gt_d20
  norm_num at hp hp'
  have s0 : shortWay 0 = 0 := shortWay_of_small (by norm_num)
  have s1 : shortWay (-23039 / 64) = 1 / 64 := by
    have : round ((-23039 / 64 : ℝ) / 360) = -1 := by
      rw [round_eq, Int.floor_eq_iff]
      norm_num
    rw [shortWay, this]
    norm_num
  have s2 : shortWay (23039 / 64) = -1 / 64 := by
    have : round ((23039 / 64 : ℝ) / 360) = 1 := by
      rw [round_eq, Int.floor_eq_iff]
      norm_num
    rw [shortWay, this]
    norm_num
  refine ⟨(0, -23039 / 128), (0, 23039 / 128), (1 / 128, -23039 / 128), ⟨?_, ?_, ?_, ?_, ?_⟩, ?_, ?_⟩
  · constructor <;> norm_num [abs_le]
  · constructor <;> norm_num [abs_le]
  · constructor <;> norm_num [abs_le]
  · have f0 : flt 0 = 0 := by simpa using flt_frac 0 0 (by norm_num)
    have f1 : flt (-23039 / 128) = -23039 / 128 := by
      have := flt_frac (-23039) 7 (by norm_num)
      norm_num at this ⊢
      exact this
    have f2 : flt (23039 / 128) = 23039 / 128 := by
      have := flt_frac (23039) 7 (by norm_num)
      norm_num at this ⊢
      exact this
    have f3 : flt (1 / 128) = 1 / 128 := by
      have := flt_frac 1 7 (by norm_num)
      norm_num at this ⊢
      exact this
    simp only [List.mem_cons, List.not_mem_nil, or_false]
    rintro p (rfl | rfl | rfl)
    · exact ⟨f0, f1⟩
    · exact ⟨f0, f2⟩
    · exact ⟨f3, f1⟩
  · simp only [List.mem_cons, List.not_mem_nil, or_false]
    rintro p (rfl | rfl)
    · norm_num
      rw [s2]
      norm_num [abs_le]
    · norm_num
      rw [s0]
      norm_num
  · unfold groundTurn
    have q : (⟨0, 1 / 128⟩ : ℂ) / ⟨1 / 64, 0⟩ = ((1 / 2 : ℝ) : ℂ) * Complex.I := by
      rw [div_eq_iff (by simp [Complex.ext_iff]), Complex.ext_iff]
      norm_num
    norm_num
    rw [neg_div', s0, s1, q, Complex.arg_real_mul _ (by norm_num), Complex.arg_I]
  · intro l hl
    have hθ : planeTurn (0, -23039 / 128) (0, 23039 / 128) (1 / 128, -23039 / 128) = -(Real.pi / 2) := by
      have q : (⟨-23039 / 128 - -23039 / 128, 1 / 128 - 0⟩ : ℂ) / ⟨-23039 / 128 - 23039 / 128, 0 - 0⟩ = ((1 / 46078 : ℝ) : ℂ) * -Complex.I := by
        rw [div_eq_iff (by simp [Complex.ext_iff]; norm_num), Complex.ext_iff]
        norm_num
      unfold planeTurn
      simp only
      rw [q, Complex.arg_real_mul _ (by norm_num), Complex.arg_neg_I]
    have h1 := C87_plane_direction_partial hl .left (via := (0, -23039 / 128)) (src := (0, 23039 / 128)) (dst := (1 / 128, -23039 / 128)) (by norm_num) (by norm_num)
    have h2 := C87_plane_direction_partial hl .right (via := (0, -23039 / 128)) (src := (0, 23039 / 128)) (dst := (1 / 128, -23039 / 128)) (by norm_num) (by norm_num)
    rw [hθ] at h1 h2
    refine ⟨?_, h2.1 ⟨by norm_num; linarith, by norm_num; linarith⟩⟩
    rw [← Bool.not_eq_true]
    intro h
    have := (h1.2 h).1
    norm_num at this
    linarith

/-- The angle of a point of the unit circle in the second quadrant. -/
theorem arg_second {a b : ℝ} (ha : a < 0) (hb : 0 ≤ b) (h : a * a + b * b = 1) : Complex.arg ⟨a, b⟩ = Real.pi - Real.arcsin b := by
  rw [Complex.arg_of_re_neg_of_im_nonneg ha hb]
  have : ‖(⟨a, b⟩ : ℂ)‖ = 1 := by
    rw [Complex.norm_def, Complex.normSq_mk, h, Real.sqrt_one]
  rw [this]
  simp only [Complex.neg_im, div_one]
  rw [Real.arcsin_neg]
  ring

/-- **C87**, violated at higher latitudes: a left turn, more than 22 degrees away from the next border between directions, is not taken for a left turn but for
a u-turn, because a degree of longitude counts as much as a degree of latitude. -/
theorem C87_high_latitude_violated : ∃ via src dst : ℝ × ℝ, ClosePositions via src dst ∧ InDirection 0.4 (groundTurn via src dst) .left ∧
    ¬ InDirection (-0.1) (groundTurn via src dst) .uTurn ∧
    ∀ l : AngleLib, l.Good → turnFits l .left via src dst = false ∧ turnFits l .uTurn via src dst = true := by
  have hp := Real.pi_lt_d20
  have hp' := Real.pi_gt_d20
  norm_num at hp hp'
  have s1 : shortWay (-1 / 128) = -1 / 128 := shortWay_of_small (by norm_num [abs_lt])
  have s2 : shortWay (1 / 128) = 1 / 128 := shortWay_of_small (by norm_num [abs_lt])
  have hg : groundTurn (60, 20) (61437 / 1024, 2559 / 128) (61443 / 1024, 2559 / 128) = Real.pi - Real.arcsin (24 / 25) := by
    have c : Real.cos (60 * (Real.pi / 180)) = 1 / 2 := by
      rw [show 60 * (Real.pi / 180) = Real.pi / 3 by ring, Real.cos_pi_div_three]
    have q : (⟨-1 / 128 * (1 / 2), 3 / 1024⟩ : ℂ) / ⟨1 / 128 * (1 / 2), 3 / 1024⟩ = ⟨-7 / 25, 24 / 25⟩ := by
      rw [div_eq_iff (by simp [Complex.ext_iff]), Complex.ext_iff]
      norm_num
    unfold groundTurn
    simp only
    rw [c, show (2559 / 128 - 20 : ℝ) = -1 / 128 by norm_num, show (20 - 2559 / 128 : ℝ) = 1 / 128 by norm_num, s1, s2,
      show (61443 / 1024 - 60 : ℝ) = 3 / 1024 by norm_num, show (60 - 61437 / 1024 : ℝ) = 3 / 1024 by norm_num, q]
    exact arg_second (by norm_num) (by norm_num) (by norm_num)
  have hθ : planeTurn (60, 20) (61437 / 1024, 2559 / 128) (61443 / 1024, 2559 / 128) = Real.pi - Real.arcsin (48 / 73) := by
    have q : (⟨-1 / 128, 3 / 1024⟩ : ℂ) / ⟨1 / 128, 3 / 1024⟩ = ⟨-55 / 73, 48 / 73⟩ := by
      rw [div_eq_iff (by simp [Complex.ext_iff]), Complex.ext_iff]
      norm_num
    unfold planeTurn
    simp only
    rw [show (2559 / 128 - 20 : ℝ) = -1 / 128 by norm_num, show (20 - 2559 / 128 : ℝ) = 1 / 128 by norm_num,
      show (61443 / 1024 - 60 : ℝ) = 3 / 1024 by norm_num, show (60 - 61437 / 1024 : ℝ) = 3 / 1024 by norm_num, q]
    exact arg_second (by norm_num) (by norm_num) (by norm_num)
  have a1 : Real.arcsin (48 / 73) < 0.78 := by
    rw [Real.arcsin_lt_iff_lt_sin' ⟨by linarith [Real.pi_pos], by norm_num; linarith⟩]
    have := Real.sin_gt_sub_cube (x := 0.78) (by norm_num)
    refine lt_trans ?_ this
    norm_num
  have a2 : 1.2 ≤ Real.arcsin (24 / 25) := by
    rw [Real.le_arcsin_iff_sin_le' ⟨by linarith [Real.pi_pos], by norm_num; linarith⟩]
    have c := Real.one_sub_sq_div_two_le_cos (x := 1.2)
    have h := Real.sin_sq_add_cos_sq 1.2
    rw [show (1.2 : ℝ) = 6 / 5 by norm_num] at c h ⊢
    exact abs_le_of_sq_le_sq' (by norm_num at c; nlinarith) (by norm_num) |>.2
  have a3 := Real.arcsin_le_pi_div_two (24 / 25)
  norm_num at a1 a2
  refine ⟨(60, 20), (61437 / 1024, 2559 / 128), (61443 / 1024, 2559 / 128), ⟨?_, ?_, ?_, ?_, ?_⟩, ?_, ?_, ?_⟩
  · constructor <;> norm_num [abs_le]
  · constructor <;> norm_num [abs_le]
  · constructor <;> norm_num [abs_le]
  · have f0 : flt 60 = 60 := by simpa using flt_frac 60 0 (by norm_num)
    have f1 : flt 20 = 20 := by simpa using flt_frac 20 0 (by norm_num)
    have f2 : flt (61437 / 1024) = 61437 / 1024 := by
      have := flt_frac 61437 10 (by norm_num)
      norm_num at this ⊢
      exact this
    have f3 : flt (61443 / 1024) = 61443 / 1024 := by
      have := flt_frac 61443 10 (by norm_num)
      norm_num at this ⊢
      exact this
    have f4 : flt (2559 / 128) = 2559 / 128 := by
      have := flt_frac 2559 7 (by norm_num)
      norm_num at this ⊢
      exact this
    simp only [List.mem_cons, List.not_mem_nil, or_false]
    rintro p (rfl | rfl | rfl)
    · exact ⟨f0, f1⟩
    · exact ⟨f2, f4⟩
    · exact ⟨f3, f4⟩
  · simp only [List.mem_cons, List.not_mem_nil, or_false]
    rintro p (rfl | rfl) <;>
    · simp only
      rw [show (2559 / 128 - 20 : ℝ) = -1 / 128 by norm_num, s1]
      norm_num [abs_le]
  · rw [hg]
    constructor <;> norm_num <;> linarith
  · rw [hg]
    simp only [InDirection, not_lt]
    rw [abs_of_nonneg (by linarith)]
    norm_num
    linarith
  · intro l hl
    have h1 := C87_plane_direction_partial hl .left (via := (60, 20)) (src := (61437 / 1024, 2559 / 128)) (dst := (61443 / 1024, 2559 / 128)) (by norm_num) (by norm_num)
    have h2 := C87_plane_direction_partial hl .uTurn (via := (60, 20)) (src := (61437 / 1024, 2559 / 128)) (dst := (61443 / 1024, 2559 / 128)) (by norm_num) (by norm_num)
    rw [hθ] at h1 h2
    refine ⟨?_, h2.1 ?_⟩
    · rw [← Bool.not_eq_true]
      intro h
      have := (h1.2 h).2
      norm_num at this
      linarith
    · simp only [InDirection]
      rw [abs_of_nonneg (by linarith)]
      norm_num
      linarith

end RK.Props
