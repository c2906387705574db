import Verif.Proof.BuildFloat
import Verif.Spec.Turn
/-! # Turns in the plane of latitudes and longitudes and on the ground -/
namespace RK.Ieee
open _root_.Spec

/-- How much the direction of a vector changes if one coordinate is scaled. -/
theorem scaled_direction {c a b : ℝ} (hc : 0 < c) (hc1 : c ≤ 1) (h : (⟨a, b⟩ : ℂ) ≠ 0) :
    (⟨a * c, b⟩ : ℂ) ≠ 0 ∧ NearMod ((1 - c) / (2 * Real.sqrt c)) (Complex.arg ⟨a * c, b⟩) (Complex.arg ⟨a, b⟩) := by
  have h' : (⟨a * c, b⟩ : ℂ) ≠ 0 := by
    intro h0
    rw [Complex.ext_iff] at h0
    simp only [Complex.zero_re, Complex.zero_im, mul_eq_zero, hc.ne', or_false] at h0
    exact h (by rw [Complex.ext_iff]; exact ⟨h0.1, h0.2⟩)
  refine ⟨h', ?_⟩
  have hn : 0 < a * a + b * b := by
    have := Complex.normSq_pos.2 h
    rwa [Complex.normSq_mk] at this
  have hw : (⟨a * c, b⟩ : ℂ) / ⟨a, b⟩ = ⟨(a * a * c + b * b) / (a * a + b * b), a * b * (1 - c) / (a * a + b * b)⟩ := by
    rw [div_eq_iff h, Complex.ext_iff]
    simp only [Complex.mul_re, Complex.mul_im]
    have hn3 : a * a + b * b ≠ 0 := hn.ne'
    constructor
    · rw [eq_comm, div_mul_eq_mul_div, div_mul_eq_mul_div, ← sub_div, div_eq_iff hn3]
      ring
    · rw [eq_comm, div_mul_eq_mul_div, div_mul_eq_mul_div, ← add_div, div_eq_iff hn3]
      ring
  have hs := Real.sqrt_pos.2 hc
  have hss : Real.sqrt c * Real.sqrt c = c := Real.mul_self_sqrt hc.le
  have hd : 0 < a * a * c + b * b := by
    have h1 : 0 ≤ a * a * (1 - c) := mul_nonneg (mul_self_nonneg a) (by linarith)
    have h2 : 0 ≤ b * b * (1 - c) := mul_nonneg (mul_self_nonneg b) (by linarith)
    have h3 := mul_pos hn hc
    nlinarith
  have hb : |Complex.arg ((⟨a * c, b⟩ : ℂ) / ⟨a, b⟩)| ≤ (1 - c) / (2 * Real.sqrt c) := by
    rw [hw, arg_arctan (div_pos hd hn), div_div_div_cancel_right₀ hn.ne']
    have h1 := arctan_near (a * b * (1 - c) / (a * a * c + b * b)) 0
    rw [Real.arctan_zero, sub_zero, sub_zero] at h1
    refine h1.trans ?_
    rw [abs_div, abs_of_pos hd, abs_mul, abs_of_nonneg (show 0 ≤ 1 - c by linarith), div_le_div_iff₀ hd (by positivity)]
    have h2 : 2 * Real.sqrt c * |a * b| ≤ a * a * c + b * b := by
      rw [abs_mul]
      have := mul_self_nonneg (|a| * Real.sqrt c - |b|)
      have ea := abs_mul_abs_self a
      have eb := abs_mul_abs_self b
      nlinarith
    have h3 := mul_le_mul_of_nonneg_right h2 (show 0 ≤ 1 - c by linarith)
    linarith
  have e : NearMod 0 (Complex.arg ⟨a * c, b⟩) (Complex.arg ((⟨a * c, b⟩ : ℂ) / ⟨a, b⟩) + Complex.arg ⟨a, b⟩) := by
    refine NearMod.of_angle ?_
    rw [Real.Angle.coe_add, Complex.arg_div_coe_angle h' h, sub_add_cancel]
  refine (e.trans (NearMod.of_abs (e := (1 - c) / (2 * Real.sqrt c)) ?_)).mono (by linarith)
  rw [add_sub_cancel_right]
  exact hb

theorem NearMod.symm {e a b : ℝ} (h : NearMod e a b) : NearMod e b a := by
  obtain ⟨k, hk⟩ := h
  refine ⟨-k, ?_⟩
  push_cast
  rw [← abs_neg] at hk
  rw [show b - a - 2 * Real.pi * -k = -(a - b - 2 * Real.pi * k) by ring]
  exact hk

/-- The turn in the plane and the one on the ground. -/
theorem turns_near {via src dst : ℝ × ℝ} (h1 : src ≠ via) (h2 : dst ≠ via) (hl : |via.1| < 90) (hs : |via.2 - src.2| < 180) (hd : |dst.2 - via.2| < 180) :
    0 < Real.cos (via.1 * (Real.pi / 180)) ∧
    NearMod ((1 - Real.cos (via.1 * (Real.pi / 180))) / Real.sqrt (Real.cos (via.1 * (Real.pi / 180)))) (groundTurn via src dst) (planeTurn via src dst) := by
  have hp := Real.pi_pos
  have hl' := abs_lt.1 hl
  have hc : 0 < Real.cos (via.1 * (Real.pi / 180)) := Real.cos_pos_of_mem_Ioo ⟨by nlinarith, by nlinarith⟩
  have hc1 := Real.cos_le_one (via.1 * (Real.pi / 180))
  refine ⟨hc, ?_⟩
  have z1 : (⟨via.2 - src.2, via.1 - src.1⟩ : ℂ) ≠ 0 := by
    intro h
    rw [Complex.ext_iff] at h
    simp only [Complex.zero_re, Complex.zero_im] at h
    exact h1 (Prod.ext (by linarith [h.2]) (by linarith [h.1]))
  have z2 : (⟨dst.2 - via.2, dst.1 - via.1⟩ : ℂ) ≠ 0 := by
    intro h
    rw [Complex.ext_iff] at h
    simp only [Complex.zero_re, Complex.zero_im] at h
    exact h2 (Prod.ext (by linarith [h.2]) (by linarith [h.1]))
  have sw : ∀ t : ℝ, |t| < 180 → shortWay t = t := by
    intro t ht
    have : round (t / 360) = 0 := by
      rw [round_eq_zero_iff]
      have := abs_lt.1 ht
      constructor <;> linarith
    rw [shortWay, this]
    simp
  unfold groundTurn planeTurn
  simp only [sw _ hs, sw _ hd]
  generalize Real.cos (via.1 * (Real.pi / 180)) = c at hc hc1
  obtain ⟨y1, n1⟩ := scaled_direction hc hc1 z1
  obtain ⟨y2, n2⟩ := scaled_direction hc hc1 z2
  have g1 := NearMod.of_angle (a := Complex.arg ((⟨(dst.2 - via.2) * c, dst.1 - via.1⟩ : ℂ) / ⟨(via.2 - src.2) * c, via.1 - src.1⟩))
    (b := Complex.arg ⟨(dst.2 - via.2) * c, dst.1 - via.1⟩ - Complex.arg ⟨(via.2 - src.2) * c, via.1 - src.1⟩) (by
      rw [Real.Angle.coe_sub, Complex.arg_div_coe_angle y2 y1])
  have g2 := NearMod.of_angle (a := Complex.arg ⟨dst.2 - via.2, dst.1 - via.1⟩ - Complex.arg ⟨via.2 - src.2, via.1 - src.1⟩)
    (b := Complex.arg ((⟨dst.2 - via.2, dst.1 - via.1⟩ : ℂ) / ⟨via.2 - src.2, via.1 - src.1⟩)) (by
      rw [Real.Angle.coe_sub, Complex.arg_div_coe_angle z2 z1])
  refine ((g1.trans (n2.sub n1)).trans g2).mono ?_
  have := Real.sqrt_pos.2 hc
  rw [zero_add, add_zero, ← add_div, div_le_div_iff₀ (by positivity) this]
  nlinarith

/-- Directions of close angles. -/
theorem inDirection_near {e t x y : ℝ} {dir : Osm.TurnDirection} (hx : |x| ≤ Real.pi) (hy : |y| ≤ Real.pi) (h : NearMod e y x) (he : e - t ≤ Real.pi / 4)
    (he1 : e ≤ Real.pi / 4) (hd : InDirection t x dir) : InDirection (t - e) y dir := by
  obtain ⟨k, hk⟩ := h
  have hk' := abs_le.1 hk
  have hx' := abs_le.1 hx
  have hy' := abs_le.1 hy
  have hp := Real.pi_pos
  have k1 : (-2 : ℝ) < k := by
    by_contra hc
    have : 2 * Real.pi * k ≤ 2 * Real.pi * (-2) := mul_le_mul_of_nonneg_left (not_lt.1 hc) (by linarith)
    linarith
  have k2 : (k : ℝ) < 2 := by
    by_contra hc
    have : 2 * Real.pi * 2 ≤ 2 * Real.pi * (k : ℝ) := mul_le_mul_of_nonneg_left (not_lt.1 hc) (by linarith)
    linarith
  have k1' : -2 < k := by exact_mod_cast k1
  have k2' : k < 2 := by exact_mod_cast k2
  have : k = -1 ∨ k = 0 ∨ k = 1 := by omega
  have hk2 : |y - x| ≤ e ∨ |y - x + 2 * Real.pi| ≤ e ∨ |y - x - 2 * Real.pi| ≤ e := by
    rcases this with rfl | rfl | rfl
    · right; left; convert hk using 2; push_cast; ring
    · left; simpa using hk
    · right; right; convert hk using 2; push_cast; ring
  rw [abs_le, abs_le, abs_le] at hk2
  cases dir with
  | left =>
    obtain ⟨g1, g2⟩ := hd
    rcases hk2 with hc | hc | hc <;> constructor <;> linarith
  | right =>
    obtain ⟨g1, g2⟩ := hd
    rcases hk2 with hc | hc | hc <;> constructor <;> linarith
  | straight =>
    simp only [InDirection, abs_lt] at hd ⊢
    rcases hk2 with hc | hc | hc <;> constructor <;> linarith
  | uTurn =>
    simp only [InDirection, lt_abs] at hd ⊢
    rcases hk2 with hc | hc | hc <;> rcases hd with hd | hd <;> first | (left; linarith) | (right; linarith)

end RK.Ieee
