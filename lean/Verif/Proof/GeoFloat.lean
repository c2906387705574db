import Verif.Model.GeoFloat
import Verif.Model.GeoDist
import Verif.Proof.Ieee
import Mathlib.Analysis.SpecialFunctions.Trigonometric.Bounds
import Mathlib.Analysis.Real.Pi.Bounds
/-! # The error of `geo_dist` -/
namespace RK.Ieee

theorem ulp_le_mul (p : Nat) {x : ℝ} (hx : x ≠ 0) : ulp p x ≤ |x| * 2 ^ (1 - p : ℤ) := by
  have h := Int.zpow_log_le_self (R := ℝ) (b := 2) (by norm_num) (abs_pos.2 hx)
  unfold ulp
  rw [show Int.log 2 |x| + 1 - (p : ℤ) = Int.log 2 |x| + (1 - p) by ring, zpow_add₀ two_ne_zero]
  exact mul_le_mul_of_nonneg_right (by exact_mod_cast h) (zpow_pos two_pos _).le

/-- The relative error of rounding. -/
theorem rnd_rel (p : Nat) (x : ℝ) : |rnd p x - x| ≤ |x| * 2 ^ (-p : ℤ) := by
  by_cases hx : x = 0
  · subst hx; simp
  · have h1 := rnd_near p x
    have h2 := ulp_le_mul p hx
    rw [abs_sub_comm]
    refine h1.trans ?_
    rw [show (1 - p : ℤ) = -p + 1 by ring, zpow_add₀ two_ne_zero, zpow_one] at h2
    linarith

theorem dbl_rel (x b : ℝ) (h : |x| ≤ b) : |dbl x - x| ≤ b / 9007199254740992 := by
  refine (rnd_rel 53 x).trans ?_
  have h0 := abs_nonneg x
  norm_num
  linarith

theorem ulp_le_one {x : ℝ} (h : |x| ≤ 1) : ulp 53 x ≤ 2 / 9007199254740992 := by
  by_cases hx : x = 0
  · subst hx
    unfold ulp
    norm_num
  · have := ulp_le_mul 53 hx
    norm_num at this
    linarith

/-- The error of the argument of a cosine; `d` is a difference or sum of coordinates. -/
theorem arg_error {d : ℝ} (h : |d| ≤ 360) : |dbl (dbl d * piDiv180) - d * RK.piDiv180| ≤ 25 / 9007199254740992 := by
  have h1 : dbl 3.14159265359 = (7074237752028906 : ℤ) * 2 ^ (-51 : ℤ) :=
    rnd_eq 53 (by norm_num) (by norm_num) (by norm_num)
  have h2 : rnd 53 ((7074237752028906 : ℤ) * 2 ^ (-51 : ℤ) / 180) = (5030569068109444 : ℤ) * 2 ^ (-58 : ℤ) :=
    rnd_eq 53 (by norm_num) (by norm_num) (by norm_num)
  have hp : piDiv180 = 5030569068109444 / 288230376151711744 := by
    unfold piDiv180
    rw [h1, dbl, h2]
    norm_num
  have hq : RK.piDiv180 = 3.14159265359 / 180 := rfl
  have e1 := abs_le.1 (dbl_rel d 360 h)
  generalize hD : dbl d = D at e1 ⊢
  have hd := abs_le.1 h
  have e2 := abs_le.1 (dbl_rel (D * piDiv180) 6.3 (by rw [hp, abs_le]; constructor <;> norm_num at e1 ⊢ <;> linarith))
  rw [hp] at e2 ⊢
  rw [hq, abs_le]
  norm_num at e1 e2 ⊢
  constructor <;> linarith

/-- The error of a cosine. -/
theorem cos_error {m : MathLib} (hm : m.Good) {d : ℝ} (h : |d| ≤ 360) :
    |m.cos (dbl (dbl d * piDiv180)) - Real.cos (d * RK.piDiv180)| ≤ 27 / 9007199254740992 := by
  have h1 := hm.cos_near (dbl (dbl d * piDiv180))
  have h2 := ulp_le_one (Real.abs_cos_le_one (dbl (dbl d * piDiv180)))
  have h3 := Real.abs_cos_sub_cos_le (dbl (dbl d * piDiv180)) (d * RK.piDiv180)
  have h4 := arg_error h
  have h5 := abs_sub_le (m.cos (dbl (dbl d * piDiv180))) (Real.cos (dbl (dbl d * piDiv180))) (Real.cos (d * RK.piDiv180))
  norm_num at h1 h2 h4 ⊢
  linarith


/-- Positions in the documented range. -/
def InRange (x : ℝ × ℝ) : Prop := |x.1| ≤ 90 ∧ |x.2| ≤ 180

/-- The error of a product of a sum of two cosines and a cosine. -/
theorem mul_error {a b c d u v : ℝ} (h1 : |a - b| ≤ u) (h2 : |c - d| ≤ v) (h3 : |b| ≤ 2) (h4 : |c| ≤ 1.1) : |a * c - b * d| ≤ 1.1 * u + 2 * v := by
  have : a * c - b * d = (a - b) * c + b * (c - d) := by ring
  rw [this]
  refine (abs_add_le _ _).trans ?_
  rw [abs_mul, abs_mul]
  have := mul_le_mul h1 h4 (abs_nonneg _) ((abs_nonneg _).trans h1)
  have := mul_le_mul h3 h2 (abs_nonneg _) (by norm_num)
  linarith

theorem len_error {m : MathLib} (hm : m.Good) (contract : Bool) {x y : ℝ × ℝ} (hx : InRange x) (hy : InRange y) :
    |geoLen m contract x y - RK.geoCos x y| ≤ 100 / 9007199254740992 := by
  have x1 := abs_le.1 hx.1
  have x2 := abs_le.1 hx.2
  have y1 := abs_le.1 hy.1
  have y2 := abs_le.1 hy.2
  have c0 := cos_error hm (d := x.1 - y.1) (abs_le.2 ⟨by linarith, by linarith⟩)
  have c1 := cos_error hm (d := x.1 + y.1) (abs_le.2 ⟨by linarith, by linarith⟩)
  have c2 := cos_error hm (d := x.2 - y.2) (abs_le.2 ⟨by linarith, by linarith⟩)
  unfold geoLen RK.geoCos
  simp only []
  have b0 := abs_le.1 (Real.abs_cos_le_one ((x.1 - y.1) * RK.piDiv180))
  have b1 := abs_le.1 (Real.abs_cos_le_one ((x.1 + y.1) * RK.piDiv180))
  have b2 := abs_le.1 (Real.abs_cos_le_one ((x.2 - y.2) * RK.piDiv180))
  generalize Real.cos ((x.1 - y.1) * RK.piDiv180) = C0 at c0 b0 ⊢
  generalize Real.cos ((x.1 + y.1) * RK.piDiv180) = C1 at c1 b1 ⊢
  generalize Real.cos ((x.2 - y.2) * RK.piDiv180) = C2 at c2 b2 ⊢
  generalize m.cos (dbl (dbl (x.1 - y.1) * piDiv180)) = v0 at c0 ⊢
  generalize m.cos (dbl (dbl (x.1 + y.1) * piDiv180)) = v1 at c1 ⊢
  generalize m.cos (dbl (dbl (x.2 - y.2) * piDiv180)) = v2 at c2 ⊢
  clear x1 x2 y1 y2 hx hy
  have c0' := abs_le.1 c0
  have c1' := abs_le.1 c1
  have c2' := abs_le.1 c2
  have s1 := abs_le.1 (dbl_rel (v0 + v1) 2.1 (abs_le.2 ⟨by norm_num at c0' c1' ⊢; linarith, by norm_num at c0' c1' ⊢; linarith⟩))
  generalize dbl (v0 + v1) = s at s1 ⊢
  have se : |s - (C0 + C1)| ≤ 57 / 9007199254740992 := by
    rw [abs_le]; norm_num at s1 c0' c1' ⊢; constructor <;> linarith
  have pe := abs_le.1 (mul_error se c2 (abs_le.2 ⟨by linarith, by linarith⟩) (abs_le.2 ⟨by norm_num at c2' ⊢; linarith, by norm_num at c2' ⊢; linarith⟩))
  have pb : |(C0 + C1) * C2| ≤ 2 := by
    rw [abs_mul]
    have h1 : |C0 + C1| ≤ 2 := abs_le.2 ⟨by linarith, by linarith⟩
    have h2 : |C2| ≤ 1 := abs_le.2 b2
    have := mul_le_mul h1 h2 (abs_nonneg _) (by norm_num)
    linarith
  have pb' := abs_le.1 pb
  generalize (C0 + C1) * C2 = Q at pe pb' ⊢
  have l1 : |(if contract = true then dbl (s * v2 + v0) else dbl (dbl (s * v2) + v0)) - (Q + C0)| ≤ 150 / 9007199254740992 := by
    split
    · have r := abs_le.1 (dbl_rel (s * v2 + v0) 3.1 (abs_le.2 ⟨by norm_num at pe c0' ⊢; linarith, by norm_num at pe c0' ⊢; linarith⟩))
      rw [abs_le]; norm_num at r pe c0' ⊢; constructor <;> linarith
    · have r := abs_le.1 (dbl_rel (s * v2) 2.1 (abs_le.2 ⟨by norm_num at pe c0' ⊢; linarith, by norm_num at pe c0' ⊢; linarith⟩))
      generalize dbl (s * v2) = t at r ⊢
      have r' := abs_le.1 (dbl_rel (t + v0) 3.1 (abs_le.2 ⟨by norm_num at r pe c0' ⊢; linarith, by norm_num at r pe c0' ⊢; linarith⟩))
      rw [abs_le]; norm_num at r r' pe c0' ⊢; constructor <;> linarith
  have l1 := abs_le.1 l1
  generalize (if contract = true then dbl (s * v2 + v0) else dbl (dbl (s * v2) + v0)) = l at l1 ⊢
  have r1 := abs_le.1 (dbl_rel (l - v1) 4.1 (abs_le.2 ⟨by norm_num at l1 c1' ⊢; linarith, by norm_num at l1 c1' ⊢; linarith⟩))
  generalize dbl (l - v1) = t at r1 ⊢
  have r2 := abs_le.1 (dbl_rel (t * 0.5) 2.1 (abs_le.2 ⟨by norm_num at r1 l1 c1' ⊢; linarith, by norm_num at r1 l1 c1' ⊢; linarith⟩))
  rw [abs_le]; norm_num at r1 r2 l1 c1' ⊢; constructor <;> linarith

/-- The inverse of the cosine is Hölder continuous. -/
theorem arccos_error {a b u : ℝ} (ha : |a| ≤ 1) (hb : |b| ≤ 1) (h : |a - b| ≤ u) : (Real.arccos a - Real.arccos b) ^ 2 ≤ Real.pi ^ 2 / 2 * u := by
  have ha' := abs_le.1 ha
  have hb' := abs_le.1 hb
  have hs0 := Real.arccos_nonneg a
  have hs1 := Real.arccos_le_pi a
  have ht0 := Real.arccos_nonneg b
  have ht1 := Real.arccos_le_pi b
  have ea := Real.cos_arccos ha'.1 ha'.2
  have eb := Real.cos_arccos hb'.1 hb'.2
  generalize Real.arccos a = s at *
  generalize Real.arccos b = t at *
  subst ea eb
  have hpi := Real.pi_pos
  -- the larger one first
  have key : ∀ s t : ℝ, 0 ≤ t → t ≤ s → s ≤ Real.pi → (s - t) ^ 2 ≤ Real.pi ^ 2 / 2 * (Real.cos t - Real.cos s) := by
    intro s t h0 h1 h2
    have e : Real.cos t - Real.cos s = 2 * Real.sin ((s + t) / 2) * Real.sin ((s - t) / 2) := by
      rw [Real.cos_sub_cos, show (t - s) / 2 = -((s - t) / 2) by ring, Real.sin_neg, add_comm t s]; ring
    have j1 : 2 / Real.pi * ((s - t) / 2) ≤ Real.sin ((s - t) / 2) := Real.mul_le_sin (by linarith) (by linarith)
    have j2 : Real.sin ((s - t) / 2) ≤ Real.sin ((s + t) / 2) := by
      by_cases hc : (s + t) / 2 ≤ Real.pi / 2
      · exact Real.sin_le_sin_of_le_of_le_pi_div_two (by linarith) hc (by linarith)
      · rw [← Real.sin_pi_sub ((s + t) / 2)]
        exact Real.sin_le_sin_of_le_of_le_pi_div_two (by linarith) (by linarith) (by linarith)
    have j0 : 0 ≤ 2 / Real.pi * ((s - t) / 2) := mul_nonneg (by positivity) (by linarith)
    have j3 : (2 / Real.pi * ((s - t) / 2)) * (2 / Real.pi * ((s - t) / 2)) ≤ Real.sin ((s + t) / 2) * Real.sin ((s - t) / 2) :=
      mul_le_mul (j1.trans j2) j1 j0 (j0.trans (j1.trans j2))
    have j4 : (s - t) ^ 2 = Real.pi ^ 2 * ((2 / Real.pi * ((s - t) / 2)) * (2 / Real.pi * ((s - t) / 2))) := by
      field_simp
    rw [e, j4]
    have := mul_le_mul_of_nonneg_left j3 (sq_nonneg Real.pi)
    linarith
  have hu := (abs_le.1 h)
  have hpp : 0 ≤ Real.pi ^ 2 / 2 := by positivity
  rcases le_total t s with hts | hts
  · refine (key s t ht0 hts hs1).trans (mul_le_mul_of_nonneg_left (by linarith) hpp)
  · have := key t s hs0 hts ht1
    rw [show (s - t) ^ 2 = (t - s) ^ 2 by ring]
    exact this.trans (mul_le_mul_of_nonneg_left (by linarith) hpp)


theorem angle_error {a b : ℝ} (ha : |a| ≤ 1) (hb : |b| ≤ 1) (h : |a - b| ≤ 100 / 9007199254740992) :
    |Real.arccos a - Real.arccos b| ≤ 2.341e-7 := by
  have h1 := arccos_error ha hb h
  have h2 := Real.pi_lt_d6
  have h3 := Real.pi_pos
  have h4 : Real.pi ^ 2 ≤ 3.141593 ^ 2 := pow_le_pow_left₀ h3.le h2.le 2
  refine abs_le_of_sq_le_sq ?_ (by norm_num)
  refine h1.trans ?_
  norm_num at h4 ⊢
  linarith

theorem ulp_le_four {x : ℝ} (h : |x| ≤ 4) : ulp 53 x ≤ 8 / 9007199254740992 := by
  by_cases hx : x = 0
  · subst hx
    unfold ulp
    norm_num
  · have := ulp_le_mul 53 hx
    norm_num at this
    linarith

theorem earthRadius_error : |earthRadius - RK.earthRadius| ≤ 0.00001 := by
  have := dbl_rel RK.earthRadius 6371001 (by unfold RK.earthRadius; rw [abs_le]; constructor <;> norm_num)
  unfold earthRadius
  unfold RK.earthRadius at this ⊢
  refine this.trans (by norm_num)

theorem geoDist_none {m : MathLib} (hm : m.Good) (contract : Bool) {x y : ℝ × ℝ} (hx : InRange x) (hy : InRange y) (hc : |RK.geoCos x y| ≤ 1)
    (h : geoDist m contract x y = none) : RK.geoDist x y < 1.5 ∨ Real.pi * RK.earthRadius - 1.5 < RK.geoDist x y := by
  have he := len_error hm contract hx hy
  have hl : 1 < |geoLen m contract x y| := by
    by_contra hn
    obtain ⟨z, hz, _⟩ := hm.acos_double _ (not_lt.1 hn)
    unfold geoDist at h
    rw [hz] at h
    cases h
  have hR : RK.earthRadius = 6371000.785 := rfl
  have he' := abs_le.1 he
  have hc' := abs_le.1 hc
  unfold RK.geoDist
  rcases lt_abs.1 hl with h1 | h1
  · left
    have := angle_error (a := RK.geoCos x y) (b := 1) hc (by norm_num) (abs_le.2 ⟨by linarith, by linarith⟩)
    rw [Real.arccos_one, sub_zero] at this
    have := (abs_le.1 this).2
    rw [hR]
    norm_num at this ⊢
    linarith
  · right
    have := angle_error (a := RK.geoCos x y) (b := -1) hc (by norm_num) (abs_le.2 ⟨by linarith, by linarith⟩)
    rw [Real.arccos_neg_one] at this
    have := (abs_le.1 this).1
    rw [hR]
    norm_num at this ⊢
    linarith

theorem geoDist_some {m : MathLib} (hm : m.Good) (contract : Bool) {x y : ℝ × ℝ} (hx : InRange x) (hy : InRange y) (hc : |RK.geoCos x y| ≤ 1)
    {d : ℝ} (h : geoDist m contract x y = some d) : |d - RK.geoDist x y| ≤ 1.5 := by
  have he := len_error hm contract hx hy
  have hl : |geoLen m contract x y| ≤ 1 := by
    by_contra hn
    unfold geoDist at h
    rw [hm.acos_nan _ (not_le.1 hn)] at h
    cases h
  obtain ⟨z, hz, _, hz'⟩ := hm.acos_double _ hl
  unfold geoDist at h
  rw [hz] at h
  simp only [Option.map_some, Option.some.injEq] at h
  subst h
  unfold RK.geoDist
  have ha := abs_le.1 (angle_error hl hc he)
  have p0 := Real.arccos_nonneg (RK.geoCos x y)
  have p1 := Real.arccos_le_pi (RK.geoCos x y)
  have q0 := Real.arccos_nonneg (geoLen m contract x y)
  have q1 := Real.arccos_le_pi (geoLen m contract x y)
  have hp := Real.pi_lt_d6
  have hu := ulp_le_four (x := Real.arccos (geoLen m contract x y)) (abs_le.2 ⟨by linarith, by norm_num at hp ⊢; linarith⟩)
  have hz' := abs_le.1 hz'
  generalize Real.arccos (geoLen m contract x y) = A at *
  generalize Real.arccos (RK.geoCos x y) = B at *
  have hE := abs_le.1 earthRadius_error
  have hR : RK.earthRadius = 6371000.785 := rfl
  rw [hR] at hE ⊢
  generalize earthRadius = E at *
  have hzB : |z - B| ≤ 2.3411e-7 := by
    rw [abs_le]; norm_num at ha hz' hu ⊢; constructor <;> linarith
  have hE' : |E| ≤ 6371001 := by rw [abs_le]; norm_num at hE ⊢; constructor <;> linarith
  have hB : |B| ≤ 3.141593 := by rw [abs_le]; norm_num at hp ⊢; constructor <;> linarith
  have hprod : |z * E - B * 6371000.785| ≤ 1.4916 := by
    have : z * E - B * 6371000.785 = (z - B) * E + B * (E - 6371000.785) := by ring
    rw [this]
    refine (abs_add_le _ _).trans ?_
    rw [abs_mul, abs_mul]
    have t1 := mul_le_mul hzB hE' (abs_nonneg _) (by norm_num)
    have t2 := mul_le_mul hB (abs_le.2 hE) (abs_nonneg _) (by norm_num)
    norm_num at t1 t2 ⊢
    linarith
  have hprod := abs_le.1 hprod
  have hr := abs_le.1 (dbl_rel (z * E) 20020000 (abs_le.2 ⟨by norm_num at hprod ⊢; linarith, by
    have := (abs_le.1 hB).2
    norm_num at hprod this ⊢; linarith⟩))
  rw [abs_le]; norm_num at hr hprod ⊢; constructor <;> linarith

end RK.Ieee
