import Verif.Model.TurnFloat
import Verif.Proof.GeoFloat
import Mathlib.Analysis.SpecialFunctions.Complex.Arg
import Mathlib.Analysis.Real.Pi.Bounds
/-! # Directions of turns with rounding: bounds -/
namespace RK.Ieee

theorem piF_eq : piF = 13176795 * 2 ^ (-22 : ℤ) := by
  unfold piF
  have : rnd 24 3.14159265359 = (13176795 : ℤ) * 2 ^ (-22 : ℤ) := rnd_eq 24 (by norm_num) (by norm_num) (by norm_num)
  rw [flt, this]
  norm_num

theorem piF_near : |piF - Real.pi| ≤ 0.0000001 := by
  rw [piF_eq]
  have h1 := Real.pi_gt_d20
  have h2 := Real.pi_lt_d20
  norm_num [abs_le] at *
  constructor <;> linarith

theorem flt_rel (x b : ℝ) (h : |x| ≤ b) : |flt x - x| ≤ b / 16777216 := by
  refine (rnd_rel 24 x).trans ?_
  have e : (2 : ℝ) ^ (-((24 : ℕ) : ℤ)) = 1 / 16777216 := by norm_num
  rw [e]
  linarith

/-- Equal up to whole turns and a small difference. -/
def NearMod (e a b : ℝ) : Prop := ∃ k : ℤ, |a - b - 2 * Real.pi * k| ≤ e

theorem NearMod.trans {e e' a b c : ℝ} (h : NearMod e a b) (h' : NearMod e' b c) : NearMod (e + e') a c := by
  obtain ⟨k, hk⟩ := h
  obtain ⟨k', hk'⟩ := h'
  refine ⟨k + k', ?_⟩
  have := abs_add_le (a - b - 2 * Real.pi * k) (b - c - 2 * Real.pi * k')
  push_cast
  rw [show a - c - 2 * Real.pi * (k + k') = (a - b - 2 * Real.pi * k) + (b - c - 2 * Real.pi * k') by ring]
  linarith

theorem NearMod.sub {e e' a b c d : ℝ} (h : NearMod e a b) (h' : NearMod e' c d) : NearMod (e + e') (a - c) (b - d) := by
  obtain ⟨k, hk⟩ := h
  obtain ⟨k', hk'⟩ := h'
  refine ⟨k - k', ?_⟩
  have := abs_sub (a - b - 2 * Real.pi * k) (c - d - 2 * Real.pi * k')
  push_cast
  rw [show a - c - (b - d) - 2 * Real.pi * (k - k') = (a - b - 2 * Real.pi * k) - (c - d - 2 * Real.pi * k') by ring]
  linarith

theorem NearMod.of_abs {e a b : ℝ} (h : |a - b| ≤ e) : NearMod e a b := ⟨0, by simpa using h⟩

theorem NearMod.of_angle {a b : ℝ} (h : (a : Real.Angle) = b) : NearMod 0 a b := by
  obtain ⟨k, hk⟩ := Real.Angle.angle_eq_iff_two_pi_dvd_sub.1 h
  exact ⟨k, by rw [hk]; simp⟩

/-- The argument of a number close to one. -/
theorem arg_near_one {w : ℂ} (h : ‖w - 1‖ ≤ 0.0000001) : |Complex.arg w| ≤ 0.0000002 := by
  have hre : 1 - 0.0000001 ≤ w.re := by
    have := (Complex.abs_re_le_norm (w - 1)).trans h
    have := abs_le.1 this
    simp at this
    norm_num at this ⊢
    linarith
  have him : |w.im| ≤ 0.0000001 := by
    have := (Complex.abs_im_le_norm (w - 1)).trans h
    simpa using this
  have hn : 0.9 ≤ ‖w‖ := by
    have := Complex.re_le_norm w
    norm_num at hre ⊢
    linarith
  rw [Complex.arg_of_re_nonneg (by norm_num at hre ⊢; linarith)]
  have hs : |w.im / ‖w‖| ≤ 0.00000012 := by
    rw [abs_div, abs_of_pos (show (0 : ℝ) < ‖w‖ by norm_num at hn; linarith), div_le_iff₀ (by norm_num at hn; linarith)]
    norm_num at him hn ⊢
    linarith
  generalize w.im / ‖w‖ = s at hs
  have h1 : |s| ≤ 1 := hs.trans (by norm_num)
  have h2 := abs_le.1 h1
  have h3 : Real.sin |Real.arcsin s| = |s| := by
    rcases le_total 0 s with h | h
    · rw [abs_of_nonneg (Real.arcsin_nonneg.2 h), Real.sin_arcsin h2.1 h2.2, abs_of_nonneg h]
    · rw [abs_of_nonpos (Real.arcsin_nonpos.2 h), Real.sin_neg, Real.sin_arcsin h2.1 h2.2, abs_of_nonpos h]
  have h4 := Real.mul_le_sin (abs_nonneg (Real.arcsin s)) (abs_le.2 ⟨Real.neg_pi_div_two_le_arcsin s, Real.arcsin_le_pi_div_two s⟩)
  rw [h3, div_mul_eq_mul_div, div_le_iff₀ Real.pi_pos] at h4
  have h5 := Real.pi_lt_d2
  have h6 : |s| * Real.pi ≤ 0.00000012 * 3.15 := mul_le_mul hs h5.le Real.pi_pos.le (by norm_num)
  norm_num at h6 ⊢
  linarith

/-- Rounding both coordinates of a vector changes its direction little. -/
theorem arg_rounded {x y : ℝ} (hz : (⟨x, y⟩ : ℂ) ≠ 0) : NearMod 0.0000002 (Complex.arg ⟨flt x, flt y⟩) (Complex.arg ⟨x, y⟩) := by
  have hx := flt_rel x |x| le_rfl
  have hy := flt_rel y |y| le_rfl
  have hpos : 0 < ‖(⟨x, y⟩ : ℂ)‖ := norm_pos_iff.2 hz
  have hd : ‖(⟨flt x, flt y⟩ : ℂ) - ⟨x, y⟩‖ ≤ ‖(⟨x, y⟩ : ℂ)‖ / 16777216 := by
    have h1 : ‖(⟨flt x, flt y⟩ : ℂ) - ⟨x, y⟩‖ ^ 2 ≤ (‖(⟨x, y⟩ : ℂ)‖ / 16777216) ^ 2 := by
      rw [div_pow, ← Complex.normSq_eq_norm_sq, ← Complex.normSq_eq_norm_sq, Complex.normSq_apply, Complex.normSq_apply]
      simp only [Complex.sub_re, Complex.sub_im]
      have h3 := sq_le_sq' (by have := abs_le.1 hx; linarith [this.1]) (abs_le.1 hx).2
      have h4 := sq_le_sq' (by have := abs_le.1 hy; linarith [this.1]) (abs_le.1 hy).2
      rw [div_pow, sq_abs] at h3 h4
      have : (x * x + y * y) / (16777216 : ℝ) ^ 2 = x ^ 2 / 16777216 ^ 2 + y ^ 2 / 16777216 ^ 2 := by ring
      rw [this]
      nlinarith
    exact le_of_sq_le_sq h1 (by positivity)
  have hz' : (⟨flt x, flt y⟩ : ℂ) ≠ 0 := by
    intro h
    rw [h, zero_sub, norm_neg] at hd
    linarith
  generalize (⟨flt x, flt y⟩ : ℂ) = w at hd hz' ⊢
  generalize (⟨x, y⟩ : ℂ) = z at hd hz hpos ⊢
  have hq : ‖w / z - 1‖ ≤ 0.0000001 := by
    rw [show w / z - 1 = (w - z) / z by field_simp, norm_div, div_le_iff₀ hpos]
    norm_num at hd ⊢
    linarith
  have h1 := arg_near_one hq
  have h2 := NearMod.of_angle (a := Complex.arg w - Complex.arg z) (b := Complex.arg (w / z)) (by
    rw [Real.Angle.coe_sub, Complex.arg_div_coe_angle hz' hz])
  have h3 := h2.trans (NearMod.of_abs (b := 0) (by simpa using h1))
  obtain ⟨k, hk⟩ := h3
  refine ⟨k, ?_⟩
  simpa using hk

theorem ulp24_le_four {x : ℝ} (h : |x| < 4) : ulp 24 x ≤ 2 ^ (-22 : ℤ) := by
  by_cases hx : x = 0
  · subst hx
    unfold ulp
    rw [abs_zero, Int.log_zero_right]
    norm_num
  · exact ulp_le 24 hx (by norm_num; exact h)

/-- The computed direction of a vector. -/
theorem atan2_near {l : AngleLib} (hl : l.Good) {x y : ℝ} (hz : (⟨x, y⟩ : ℂ) ≠ 0) :
    |l.atan2 (flt y) (flt x)| ≤ 3.141593 ∧ NearMod 0.0000005 (l.atan2 (flt y) (flt x)) (Complex.arg ⟨x, y⟩) := by
  have h1 := hl (flt y) (flt x)
  have h2 := Complex.abs_arg_le_pi ⟨flt x, flt y⟩
  have hp := Real.pi_lt_d20
  have h3 := ulp24_le_four (x := Complex.arg ⟨flt x, flt y⟩) (lt_of_le_of_lt h2 (by norm_num at hp ⊢; linarith))
  have h4 : |l.atan2 (flt y) (flt x) - Complex.arg ⟨flt x, flt y⟩| ≤ 0.00000022 := by
    refine h1.trans ?_
    norm_num at h3 ⊢
    linarith
  refine ⟨?_, ?_⟩
  · have := abs_sub_abs_le_abs_sub (l.atan2 (flt y) (flt x)) (Complex.arg ⟨flt x, flt y⟩)
    norm_num at h4 hp ⊢
    linarith
  · obtain ⟨k, hk⟩ := (NearMod.of_abs h4).trans (arg_rounded hz)
    exact ⟨k, hk.trans (by norm_num)⟩

theorem NearMod.mono {e e' a b : ℝ} (h : NearMod e a b) (he : e ≤ e') : NearMod e' a b := by
  obtain ⟨k, hk⟩ := h
  exact ⟨k, hk.trans he⟩

/-- A turn forwards. -/
theorem add_turn {a : ℝ} (h1 : -6.4 ≤ a) (h2 : a ≤ 0) : |flt (a + 2 * piF) - (a + 2 * piF)| ≤ 0.0000004 ∧ NearMod 0.0000006 (flt (a + 2 * piF)) a := by
  have hp := abs_le.1 piF_near
  have h3 := Real.pi_lt_d20
  have h4 := Real.pi_gt_d20
  norm_num at h1 hp h3 h4
  have hr := flt_rel (a + 2 * piF) 6.3 (abs_le.2 ⟨by norm_num; linarith, by norm_num; linarith⟩)
  refine ⟨hr.trans (by norm_num), 1, ?_⟩
  have hr' := abs_le.1 hr
  norm_num at hr'
  exact abs_le.2 ⟨by norm_num; linarith, by norm_num; linarith⟩

/-- A turn backwards. -/
theorem sub_turn {a : ℝ} (h1 : 2 * piF ≤ a) (h2 : a ≤ 6.4) : |flt (a - 2 * piF) - (a - 2 * piF)| ≤ 0.0000001 ∧ NearMod 0.0000006 (flt (a - 2 * piF)) a := by
  have hp := abs_le.1 piF_near
  have h3 := Real.pi_lt_d20
  have h4 := Real.pi_gt_d20
  norm_num at h2 hp h3 h4
  have hr := flt_rel (a - 2 * piF) 0.2 (abs_le.2 ⟨by norm_num; linarith, by norm_num; linarith⟩)
  refine ⟨hr.trans (by norm_num), -1, ?_⟩
  have hr' := abs_le.1 hr
  norm_num at hr'
  push_cast
  exact abs_le.2 ⟨by norm_num; linarith, by norm_num; linarith⟩

theorem addTwoPi_ok {a : ℝ} (h1 : -6.2833 ≤ a) (h2 : a ≤ 6.2833) :
    ∃ d, addTwoPi 3 a = some d ∧ 0 ≤ d ∧ d ≤ 6.2834 ∧ NearMod 0.0000012 d a := by
  have hp := abs_le.1 piF_near
  have h3 := Real.pi_lt_d20
  have h4 := Real.pi_gt_d20
  norm_num at hp h3 h4 h1 h2
  by_cases h0 : a < 0
  · obtain ⟨r1, n1⟩ := add_turn (a := a) (by norm_num; linarith) h0.le
    have r1 := abs_le.1 r1
    norm_num at r1
    by_cases h5 : flt (a + 2 * piF) < 0
    · obtain ⟨r2, n2⟩ := add_turn (a := flt (a + 2 * piF)) (by norm_num; linarith) h5.le
      have r2 := abs_le.1 r2
      norm_num at r2
      refine ⟨flt (flt (a + 2 * piF) + 2 * piF), ?_, by linarith, by norm_num; linarith, (n2.trans n1).mono (by norm_num)⟩
      simp only [addTwoPi, if_pos h0, if_pos h5]
      rw [if_neg (not_lt.2 (by linarith))]
    · refine ⟨flt (a + 2 * piF), ?_, not_lt.1 h5, by norm_num; linarith, n1.mono (by norm_num)⟩
      simp only [addTwoPi, if_pos h0, if_neg h5]
  · exact ⟨a, by simp only [addTwoPi, if_neg h0], not_lt.1 h0, by norm_num; linarith, NearMod.of_abs (by norm_num)⟩

theorem subTwoPi_ok {a : ℝ} (h1 : 0 ≤ a) (h2 : a ≤ 6.2834) :
    ∃ d, subTwoPi 3 a = some d ∧ 0 ≤ d ∧ d ≤ 6.2832 ∧ NearMod 0.0000006 d a := by
  have hp := abs_le.1 piF_near
  have h3 := Real.pi_lt_d20
  have h4 := Real.pi_gt_d20
  norm_num at hp h3 h4 h1 h2
  by_cases h0 : 2 * piF < a
  · obtain ⟨r1, n1⟩ := sub_turn h0.le (by norm_num; linarith)
    have r1 := abs_le.1 r1
    norm_num at r1
    refine ⟨flt (a - 2 * piF), ?_, rnd_nonneg (by linarith), by norm_num; linarith, n1⟩
    simp only [subTwoPi, if_pos h0]
    rw [if_neg (not_lt.2 (by linarith))]
  · exact ⟨a, by simp only [subTwoPi, if_neg h0], h1, by norm_num; linarith, NearMod.of_abs (by norm_num)⟩

/-- The computed angle of a turn: it is in the range, and up to whole turns close to the exact one. -/
theorem angleDiff_ok {l : AngleLib} (hl : l.Good) {via src dst : ℝ × ℝ} (h1 : src ≠ via) (h2 : dst ≠ via) :
    ∃ d, angleDiff l via src dst = some d ∧ 0 ≤ d ∧ d ≤ 6.2832 ∧
      NearMod 0.0000035 d (Complex.arg ((⟨dst.2 - via.2, dst.1 - via.1⟩ : ℂ) / ⟨via.2 - src.2, via.1 - src.1⟩)) := by
  have z1 : (⟨via.2 - src.2, via.1 - src.1⟩ : ℂ) ≠ 0 := by
    intro h
    rw [Complex.ext_iff] at h
    simp only [Complex.zero_re, Complex.zero_im] at h
    exact h1 (Prod.ext (by linarith [h.2]) (by linarith [h.1]))
  have z2 : (⟨dst.2 - via.2, dst.1 - via.1⟩ : ℂ) ≠ 0 := by
    intro h
    rw [Complex.ext_iff] at h
    simp only [Complex.zero_re, Complex.zero_im] at h
    exact h2 (Prod.ext (by linarith [h.2]) (by linarith [h.1]))
  obtain ⟨b1, n1⟩ := atan2_near hl z1
  obtain ⟨b2, n2⟩ := atan2_near hl z2
  unfold angleDiff
  generalize l.atan2 (flt (via.1 - src.1)) (flt (via.2 - src.2)) = f at b1 n1
  generalize l.atan2 (flt (dst.1 - via.1)) (flt (dst.2 - via.2)) = t at b2 n2
  have b1 := abs_le.1 b1
  have b2 := abs_le.1 b2
  norm_num at b1 b2
  have hr := flt_rel (t - f) 6.283186 (abs_le.2 ⟨by norm_num; linarith, by norm_num; linarith⟩)
  have hr0 : |flt (t - f) - (t - f)| ≤ 0.0000004 := hr.trans (by norm_num)
  have hr' := abs_le.1 hr0
  norm_num at hr'
  obtain ⟨d, e1, p1, q1, m1⟩ := addTwoPi_ok (a := flt (t - f)) (by norm_num; linarith) (by norm_num; linarith)
  obtain ⟨d', e2, p2, q2, m2⟩ := subTwoPi_ok p1 q1
  refine ⟨d', by simp only [mod2pi, e1, Option.bind_some, e2], p2, q2, ?_⟩
  have k1 := (m2.trans m1).trans ((NearMod.of_abs hr0).trans (n2.sub n1))
  have k2 := NearMod.of_angle (a := Complex.arg ⟨dst.2 - via.2, dst.1 - via.1⟩ - Complex.arg ⟨via.2 - src.2, via.1 - src.1⟩)
    (b := Complex.arg ((⟨dst.2 - via.2, dst.1 - via.1⟩ : ℂ) / ⟨via.2 - src.2, via.1 - src.1⟩)) (by
      rw [Real.Angle.coe_sub, Complex.arg_div_coe_angle z2 z1])
  exact (k1.trans k2).mono (by norm_num)

/-- With an angle between minus and plus half a turn: no turn or one turn more. -/
theorem angle_cases {d θ : ℝ} (h1 : 0 ≤ d) (h2 : d ≤ 6.2832) (h3 : |θ| ≤ Real.pi) (h : NearMod 0.0000035 d θ) :
    |d - θ| ≤ 0.0000035 ∨ |d - θ - 2 * Real.pi| ≤ 0.0000035 := by
  obtain ⟨k, hk⟩ := h
  have hk' := abs_le.1 hk
  have h3' := abs_le.1 h3
  have p1 := Real.pi_lt_d20
  have p2 := Real.pi_gt_d20
  norm_num at h2 hk' p1 p2
  have k1 : (-1 : ℝ) < k := by
    by_contra hc
    have : 2 * Real.pi * k ≤ 2 * Real.pi * (-1) := mul_le_mul_of_nonneg_left (not_lt.1 hc) (by linarith)
    linarith
  have k2 : (k : ℝ) < 2 := by
    by_contra hc
    have : 2 * Real.pi * 2 ≤ 2 * Real.pi * (k : ℝ) := mul_le_mul_of_nonneg_left (not_lt.1 hc) (by linarith)
    linarith
  have k1' : -1 < k := by exact_mod_cast k1
  have k2' : k < 2 := by exact_mod_cast k2
  have : k = 0 ∨ k = 1 := by omega
  rcases this with rfl | rfl
  · left; simpa using hk
  · right; simpa using hk

end RK.Ieee
