import Verif.Proof.GeoFloat
import Mathlib.Data.Int.Order.Basic
/-! # The distance of a position to itself -/
namespace RK.Ieee

/-- A double between `2^(e+52)` and `2^(e+53)` is a multiple of `2^e`. -/
theorem double_grid {v : ℝ} (h : dbl v = v) {e : ℤ} (h1 : (2 : ℝ) ^ (e + (53 : ℕ) - 1) ≤ |v|) (h2 : |v| < (2 : ℝ) ^ (e + (53 : ℕ))) :
    ∃ k : ℤ, v = k * 2 ^ e := by
  refine ⟨roundEven (v / 2 ^ e), ?_⟩
  unfold dbl rnd at h
  rw [ulp_eq 53 h1 h2] at h
  exact h.symm

theorem cos_abs_le_one {m : MathLib} (hm : m.Good) (x : ℝ) : |m.cos x| ≤ 1 := by
  by_contra hn
  rw [not_le] at hn
  have h1 := abs_le.1 (hm.cos_near x)
  have h2 := ulp_le_one (Real.abs_cos_le_one x)
  have h3 := abs_le.1 (Real.abs_cos_le_one x)
  have hb : |m.cos x| < 2 := by rw [abs_lt]; norm_num at h1 h2 ⊢; constructor <;> linarith
  obtain ⟨k, hk⟩ := double_grid (hm.cos_double x) (e := -52) (by norm_num; exact hn.le) (by norm_num; exact hb)
  rw [hk] at hn h1
  rw [abs_mul, abs_of_pos (by positivity : (0 : ℝ) < 2 ^ (-52 : ℤ)), ← Int.cast_abs] at hn
  have k1 : (4503599627370496 : ℝ) < |k| := by norm_num at hn ⊢; linarith
  have k1' : 4503599627370496 < |k| := by exact_mod_cast k1
  rcases lt_abs.1 k1' with h | h
  · have : (4503599627370497 : ℝ) ≤ k := by exact_mod_cast h
    norm_num at h1 h2 this
    linarith
  · have : (4503599627370497 : ℝ) ≤ -k := by exact_mod_cast h
    norm_num at h1 h2 this
    linarith

/-- The computation of `geo_dist` for a position and itself; `v` is the cosine of twice the latitude. -/
theorem geoLen_self {m : MathLib} (hm : m.Good) (contract : Bool) (x : ℝ × ℝ) :
    geoLen m contract x x =
      dbl (dbl (dbl (dbl (1 + m.cos (dbl (dbl (x.1 + x.1) * piDiv180))) + 1) - m.cos (dbl (dbl (x.1 + x.1) * piDiv180))) * 0.5) := by
  unfold geoLen
  simp only [sub_self, rnd_zero, zero_mul, hm.cos_zero, mul_one]
  rw [show dbl (dbl (1 + m.cos (dbl (dbl (x.1 + x.1) * piDiv180)))) = dbl (1 + m.cos (dbl (dbl (x.1 + x.1) * piDiv180))) from rnd_rnd (by norm_num) _, ite_self]

theorem sum_low {v : ℝ} (h0 : -1 ≤ v) (h1 : v ≤ 0) : dbl (dbl (dbl (1 + v) + 1) - v) ≤ 2 := by
  have two_eq : (2 : ℝ) = ((4503599627370496 : ℤ) : ℝ) * 2 ^ (-51 : ℤ) := by norm_num
  have a0 : 0 ≤ dbl (1 + v) := rnd_nonneg (by linarith)
  have a1 : dbl (1 + v) ≤ 1 := by
    rcases lt_or_eq_of_le (show 0 ≤ 1 + v by linarith) with h | h
    · have := rnd_le (p := 53) (by norm_num) (n := 1) (e := 0) h (by norm_num) (by norm_num; linarith)
      norm_num at this
      exact this
    · rw [← h]; simp
  have a2 : dbl (1 + v) ≤ 1 + v + 1 / 18014398509481984 := by
    rcases lt_or_eq_of_le h1 with h | h
    · by_cases hv : 1 + v = 0
      · rw [hv]; simp
      · have := (abs_le.1 (rnd_near 53 (1 + v))).1
        have hu := ulp_le 53 (e := -53) hv (by rw [abs_lt]; norm_num; constructor <;> linarith)
        norm_num at hu
        unfold dbl
        linarith
    · rw [h]
      have := rnd_exact (p := 53) (by norm_num) (n := 1) (e := 0) (by norm_num)
      norm_num at this
      norm_num [dbl, this]
  generalize dbl (1 + v) = a at *
  have b2 : dbl (a + 1) ≤ a + 1 + 1 / 9007199254740992 := by
    rcases lt_or_eq_of_le a1 with h | h
    · have := (abs_le.1 (rnd_near 53 (a + 1))).1
      have hu := ulp_le 53 (x := a + 1) (e := -52) (by linarith) (by rw [abs_lt]; norm_num; constructor <;> linarith)
      norm_num at hu
      unfold dbl
      linarith
    · rw [h]
      have := rnd_exact (p := 53) (by norm_num) (n := 2) (e := 0) (by norm_num)
      norm_num at this
      norm_num [dbl, this]
  generalize dbl (a + 1) = b at *
  rcases le_or_gt (b - v) 2 with h | h
  · rcases le_or_gt (b - v) 0 with h' | h'
    · exact (rnd_nonpos h').trans (by norm_num)
    · have := rnd_le (p := 53) (by norm_num) (n := 4503599627370496) (e := -51) h' (by norm_num) (by rw [← two_eq]; exact h)
      rw [← two_eq] at this
      exact this
  · have := rnd_eq 53 (x := b - v) (n := 4503599627370496) (e := -51) (by rw [abs_of_pos (by linarith)]; norm_num; linarith)
      (by rw [abs_of_pos (by linarith)]; norm_num; linarith) (by rw [abs_lt]; norm_num; constructor <;> linarith)
    rw [← two_eq] at this
    exact this.le

/-- Rounding of a multiple of half the unit. -/
theorem rnd_half {x : ℝ} {e j : ℤ} (h1 : (2 : ℝ) ^ (e + (53 : ℕ) - 1) ≤ |x|) (h2 : |x| < (2 : ℝ) ^ (e + (53 : ℕ))) (h : x = j * (2 ^ e / 2)) :
    ∃ n : ℤ, dbl x = n * 2 ^ e ∧ (2 * n = j ∨ (Even n ∧ (2 * n = j + 1 ∨ 2 * n = j - 1))) := by
  have hu : (0 : ℝ) < 2 ^ e := zpow_pos two_pos _
  rcases Int.even_or_odd' j with ⟨c, hc | hc⟩
  · refine ⟨c, ?_, Or.inl hc.symm⟩
    refine rnd_eq 53 h1 h2 ?_
    rw [h, hc]
    push_cast
    rw [show (2 * (c : ℝ) * (2 ^ e / 2) - c * 2 ^ e) = 0 by ring, abs_zero]
    linarith
  · have := rnd_tie 53 (x := x) (e := e) (n := c) h1 h2 (by rw [h, hc]; push_cast; ring)
    by_cases he : Even c
    · rw [if_pos he] at this
      exact ⟨c, this, Or.inr ⟨he, Or.inr (by omega)⟩⟩
    · rw [if_neg he] at this
      refine ⟨c + 1, this, Or.inr ⟨?_, Or.inl (by omega)⟩⟩
      rw [Int.not_even_iff_odd] at he
      exact he.add_one

theorem sum_high {v : ℝ} (hv : dbl v = v) (h0 : 1 / 2 ≤ v) (h1 : v < 1) : dbl (dbl (dbl (1 + v) + 1) - v) ≤ 2 := by
  have two_eq : (2 : ℝ) = ((4503599627370496 : ℤ) : ℝ) * 2 ^ (-51 : ℤ) := by norm_num
  obtain ⟨k, hk⟩ := double_grid hv (e := -53) (by rw [abs_of_pos (by linarith)]; norm_num; linarith) (by rw [abs_of_pos (by linarith)]; norm_num; linarith)
  obtain ⟨A, hA, hA'⟩ := rnd_half (x := 1 + v) (e := -52) (j := 9007199254740992 + k) (by rw [abs_of_pos (by linarith)]; norm_num; linarith)
    (by rw [abs_of_pos (by linarith)]; norm_num; linarith) (by rw [hk]; push_cast; norm_num; ring)
  have hAv := abs_le.1 (rnd_near 53 (1 + v))
  have hu := ulp_le 53 (x := 1 + v) (e := -52) (by linarith) (by rw [abs_lt]; norm_num; constructor <;> linarith)
  norm_num at hu
  change dbl (1 + v) = _ at hA
  have hA2 : rnd 53 (1 + v) = dbl (1 + v) := rfl
  rw [hA2] at hAv
  generalize dbl (1 + v) = a at *
  obtain ⟨B, hB, hB'⟩ := rnd_half (x := a + 1) (e := -51) (j := A + 4503599627370496) (by rw [abs_of_pos (by linarith)]; norm_num; linarith)
    (by rw [abs_of_pos (by linarith)]; norm_num; linarith) (by rw [hA]; push_cast; norm_num; ring)
  rw [hB]
  have ht : 4 * B - k - 18014398509481984 ≤ 2 := by
    rcases hA' with h | ⟨h, h'⟩
    · rcases hB' with h2 | ⟨_, h2⟩ <;> omega
    · obtain ⟨c, hc⟩ := h
      rcases hB' with h2 | ⟨_, h2⟩ <;> omega
  have ht' : -10 ≤ 4 * B - k - 18014398509481984 := by omega
  have hval : (B : ℝ) * 2 ^ (-51 : ℤ) - v = ((18014398509481984 + (4 * B - k - 18014398509481984) : ℤ) : ℝ) * 2 ^ (-53 : ℤ) := by
    rw [hk]; push_cast; norm_num; ring
  generalize 4 * B - k - 18014398509481984 = t at ht ht' hval
  rw [hval]
  by_cases h : t ≤ 0
  · have := rnd_le (p := 53) (by norm_num) (n := 4503599627370496) (e := -51) (x := ((18014398509481984 + t : ℤ) : ℝ) * 2 ^ (-53 : ℤ))
      (by have : (0 : ℝ) < ((18014398509481984 + t : ℤ) : ℝ) := by exact_mod_cast (by omega : 0 < 18014398509481984 + t)
          positivity) (by norm_num) (by
        have : (t : ℝ) ≤ 0 := by exact_mod_cast h
        push_cast
        norm_num
        linarith)
    rw [← two_eq] at this
    exact this
  · have ht : t = 1 ∨ t = 2 := by omega
    rcases ht with rfl | rfl
    · have := rnd_eq 53 (x := ((18014398509481984 + 1 : ℤ) : ℝ) * 2 ^ (-53 : ℤ)) (n := 4503599627370496) (e := -51) (by norm_num) (by norm_num)
        (by norm_num [abs_lt])
      rw [← two_eq] at this
      exact this.le
    · have := rnd_tie 53 (x := ((18014398509481984 + 2 : ℤ) : ℝ) * 2 ^ (-53 : ℤ)) (n := 4503599627370496) (e := -51) (by norm_num) (by norm_num)
        (by norm_num)
      rw [if_pos (by decide), ← two_eq] at this
      exact this.le


/-- The distance of a position to itself is a number if the cosine of twice the latitude is not between zero and one half. -/
theorem len_self_le {m : MathLib} (hm : m.Good) (contract : Bool) (x : ℝ × ℝ)
    (h : m.cos (dbl (dbl (x.1 + x.1) * piDiv180)) ≤ 0 ∨ 1 / 2 ≤ m.cos (dbl (dbl (x.1 + x.1) * piDiv180))) : geoLen m contract x x ≤ 1 := by
  rw [geoLen_self hm]
  have h1 := abs_le.1 (cos_abs_le_one hm (dbl (dbl (x.1 + x.1) * piDiv180)))
  have h2 := hm.cos_double (dbl (dbl (x.1 + x.1) * piDiv180))
  generalize m.cos (dbl (dbl (x.1 + x.1) * piDiv180)) = v at *
  have h3 : dbl (dbl (dbl (1 + v) + 1) - v) ≤ 2 := by
    rcases h with h | h
    · exact sum_low h1.1 h
    · rcases lt_or_eq_of_le h1.2 with h' | h'
      · exact sum_high h2 h h'
      · subst h'
        have e2 := rnd_exact (p := 53) (by norm_num) (n := 2) (e := 0) (by norm_num)
        have e3 := rnd_exact (p := 53) (by norm_num) (n := 3) (e := 0) (by norm_num)
        norm_num at e2 e3
        norm_num [dbl, e2, e3]
  generalize dbl (dbl (dbl (1 + v) + 1) - v) = w at *
  rcases le_or_gt w 0 with h' | h'
  · exact (rnd_nonpos (by linarith)).trans (by norm_num)
  · have := rnd_le (p := 53) (by norm_num) (n := 1) (e := 0) (x := w * 0.5) (by linarith) (by norm_num) (by norm_num; linarith)
    norm_num at this
    norm_num
    exact this

theorem cos_low {d : ℝ} (h : |d| ≤ 59.8) : 0.501 ≤ Real.cos (d * RK.piDiv180) := by
  rw [← Real.cos_abs, abs_mul, show |RK.piDiv180| = RK.piDiv180 from abs_of_pos (by unfold RK.piDiv180; norm_num)]
  have hp := Real.pi_gt_d6
  have hp' := Real.pi_lt_d6
  have hpd : RK.piDiv180 = 3.14159265359 / 180 := rfl
  have h0 := abs_nonneg d
  have hle : |d| * RK.piDiv180 ≤ Real.pi / 3 - 0.003 := by rw [hpd]; norm_num at hp h ⊢; linarith
  have h1 : Real.cos (Real.pi / 3 - 0.003) ≤ Real.cos (|d| * RK.piDiv180) :=
    Real.cos_le_cos_of_nonneg_of_le_pi (by rw [hpd]; positivity) (by linarith) hle
  refine le_trans ?_ h1
  rw [Real.cos_sub, Real.cos_pi_div_three, Real.sin_pi_div_three]
  have c := Real.one_sub_sq_div_two_le_cos (x := 0.003)
  have s := Real.mul_le_sin (x := 0.003) (by norm_num) (by norm_num at hp ⊢; linarith)
  have s' : 0.0019 ≤ Real.sin 0.003 := by
    refine le_trans ?_ s
    rw [div_mul_eq_mul_div, le_div_iff₀ Real.pi_pos]
    norm_num at hp' ⊢; linarith
  have r : 1.7 ≤ Real.sqrt 3 := Real.le_sqrt_of_sq_le (by norm_num)
  have := mul_le_mul r s' (by norm_num) (by linarith)
  norm_num at c this ⊢
  linarith

theorem cos_high {d : ℝ} (h1 : 90.2 ≤ |d|) (h2 : |d| ≤ 180) : Real.cos (d * RK.piDiv180) ≤ -0.001 := by
  rw [← Real.cos_abs, abs_mul, show |RK.piDiv180| = RK.piDiv180 from abs_of_pos (by unfold RK.piDiv180; norm_num)]
  have hp := Real.pi_gt_d6
  have hp' := Real.pi_lt_d6
  have hpd : RK.piDiv180 = 3.14159265359 / 180 := rfl
  have hle : Real.pi / 2 + 0.003 ≤ |d| * RK.piDiv180 := by rw [hpd]; norm_num at hp' h1 ⊢; linarith
  have hup : |d| * RK.piDiv180 ≤ Real.pi + 0.00001 := by rw [hpd]; norm_num at hp h2 ⊢; linarith
  rw [show |d| * RK.piDiv180 = (|d| * RK.piDiv180 - Real.pi / 2) + Real.pi / 2 by ring, Real.cos_add_pi_div_two, neg_le_neg_iff]
  obtain ⟨t, ht⟩ : ∃ t, t = |d| * RK.piDiv180 - Real.pi / 2 := ⟨_, rfl⟩
  rw [← ht]
  have t0 : 0.003 ≤ t := by linarith
  have t1 : t ≤ Real.pi / 2 + 0.00001 := by linarith
  rcases le_or_gt t (Real.pi / 2) with h | h
  · have s := Real.mul_le_sin (x := t) (by linarith) h
    refine le_trans ?_ s
    rw [div_mul_eq_mul_div, le_div_iff₀ Real.pi_pos]
    norm_num at hp' t0 ⊢; linarith
  · rw [← Real.cos_sub_pi_div_two]
    have c := Real.one_sub_sq_div_two_le_cos (x := t - Real.pi / 2)
    have : (t - Real.pi / 2) ^ 2 ≤ 0.00001 ^ 2 := pow_le_pow_left₀ (by linarith) (by linarith) 2
    norm_num at this ⊢
    linarith


/-- Latitudes on which the distance of each position to itself is a number. -/
theorem len_self_latitude {m : MathLib} (hm : m.Good) (contract : Bool) {x : ℝ × ℝ} (hx : InRange x) (h : |x.1| ≤ 29.9 ∨ 45.1 ≤ |x.1|) :
    geoLen m contract x x ≤ 1 := by
  have hd : |x.1 + x.1| = 2 * |x.1| := by
    rw [show x.1 + x.1 = 2 * x.1 by ring, abs_mul]
    norm_num
  have hx1 := hx.1
  have ce := abs_le.1 (cos_error hm (d := x.1 + x.1) (by rw [hd]; linarith))
  refine len_self_le hm contract x ?_
  rcases h with h | h
  · right
    have := cos_low (d := x.1 + x.1) (by rw [hd]; norm_num at h ⊢; linarith)
    norm_num at ce this ⊢; linarith
  · left
    have := cos_high (d := x.1 + x.1) (by rw [hd]; norm_num at h ⊢; linarith) (by rw [hd]; linarith)
    norm_num at ce this ⊢; linarith

end RK.Ieee
