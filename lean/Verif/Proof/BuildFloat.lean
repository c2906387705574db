import Verif.Model.BuildFloat
import Verif.Proof.OsmFloat
import Verif.Proof.TurnFloat
import Verif.Props.GeoDist
import Mathlib.Analysis.SpecialFunctions.Trigonometric.ArctanDeriv
/-! # The distances in `construct_tree` with rounding: bounds -/
namespace RK.Ieee

/-- A relative error. -/
def Rel (e a b : ℝ) : Prop := |a - b| ≤ e * |b|

theorem Rel.mono {e e' a b : ℝ} (h : Rel e a b) (he : e ≤ e') : Rel e' a b :=
  h.trans (mul_le_mul_of_nonneg_right he (abs_nonneg b))

theorem Rel.trans {e e' a b c : ℝ} (h : Rel e a b) (h' : Rel e' b c) (he : 0 ≤ e) : Rel (e + e' + e * e') a c := by
  unfold Rel at *
  have h1 : |b| ≤ (1 + e') * |c| := by
    have := abs_sub_abs_le_abs_sub b c
    linarith
  have h2 := abs_sub_le a b c
  have h3 := mul_le_mul_of_nonneg_left h1 he
  linarith

theorem Rel.flt (x : ℝ) : Rel (1 / 16777216) (flt x) x := by
  have := flt_rel x |x| le_rfl
  unfold Rel
  linarith

theorem Rel.round {e a b : ℝ} (h : Rel e a b) : Rel (1 / 16777216 + e + 1 / 16777216 * e) (Ieee.flt a) b :=
  (Rel.flt a).trans h (by norm_num)

theorem Rel.mul {e e' a b c d : ℝ} (h : Rel e a b) (h' : Rel e' c d) (he : 0 ≤ e) : Rel (e + e' + e * e') (a * c) (b * d) := by
  unfold Rel at *
  have h1 : |c| ≤ (1 + e') * |d| := by
    have := abs_sub_abs_le_abs_sub c d
    linarith
  rw [show a * c - b * d = (a - b) * c + b * (c - d) by ring, abs_mul b d]
  refine (abs_add_le _ _).trans ?_
  rw [abs_mul, abs_mul]
  have h2 := mul_le_mul h h1 (abs_nonneg c) (mul_nonneg he (abs_nonneg b))
  have h3 := mul_le_mul_of_nonneg_left h' (abs_nonneg b)
  nlinarith

theorem Rel.add {e a b c d : ℝ} (h : Rel e a b) (h' : Rel e c d) (hb : 0 ≤ b) (hd : 0 ≤ d) : Rel e (a + c) (b + d) := by
  unfold Rel at *
  rw [abs_of_nonneg hb] at h
  rw [abs_of_nonneg hd] at h'
  rw [abs_of_nonneg (add_nonneg hb hd), show a + c - (b + d) = (a - b) + (c - d) by ring]
  refine (abs_add_le _ _).trans ?_
  linarith

theorem Rel.nonneg {e a b : ℝ} (h : Rel e a b) (he : e ≤ 1) (hb : 0 ≤ b) : 0 ≤ a := by
  unfold Rel at h
  rw [abs_of_nonneg hb] at h
  have := abs_le.1 h
  nlinarith

theorem Rel.sqrt {e a b : ℝ} (h : Rel e a b) (he : e ≤ 0.01) (hb : 0 ≤ b) : Rel (e / 1.9) (Real.sqrt a) (Real.sqrt b) := by
  have he0 : 0 ≤ e ∨ b = 0 := by
    by_cases hb0 : b = 0
    · exact Or.inr hb0
    · left
      unfold Rel at h
      have h1 : 0 ≤ e * |b| := (abs_nonneg _).trans h
      exact nonneg_of_mul_nonneg_left h1 (abs_pos.2 hb0)
  rcases he0 with he0 | rfl
  · have ha := h.nonneg (by norm_num at he; linarith) hb
    unfold Rel at *
    rw [abs_of_nonneg hb] at h
    rw [abs_of_nonneg (Real.sqrt_nonneg b)]
    set p := Real.sqrt a with hp
    set q := Real.sqrt b with hq
    have p0 : 0 ≤ p := Real.sqrt_nonneg a
    have q0 : 0 ≤ q := Real.sqrt_nonneg b
    have pp : p * p = a := Real.mul_self_sqrt ha
    have qq : q * q = b := Real.mul_self_sqrt hb
    have h1 : 0.9 * q ≤ p := by
      by_contra hc
      have hc := not_le.1 hc
      have : p * p ≤ (0.9 * q) * (0.9 * q) := mul_self_le_mul_self p0 hc.le
      have h2 := (abs_le.1 h).1
      norm_num at he this hc
      nlinarith
    rcases eq_or_lt_of_le q0 with hq0 | hq0
    · have : a = 0 := by
        rw [← qq, ← hq0] at h
        norm_num at h
        exact h
      have : p = 0 := by rw [hp, this, Real.sqrt_zero]
      rw [this, ← hq0]
      norm_num
    · have h3 : |p - q| * (1.9 * q) ≤ e * (q * q) := by
        have h4 : |p - q| * (p + q) = |a - b| := by
          rw [← pp, ← qq, show p * p - q * q = (p - q) * (p + q) by ring, abs_mul, abs_of_nonneg (add_nonneg p0 q0)]
        have h5 : |p - q| * (1.9 * q) ≤ |p - q| * (p + q) := mul_le_mul_of_nonneg_left (by norm_num at h1 ⊢; linarith) (abs_nonneg _)
        rw [qq]
        linarith
      have h6 : (|p - q| * 1.9) * q ≤ (e * q) * q := by linarith
      have h7 := le_of_mul_le_mul_right h6 hq0
      norm_num at h7 ⊢
      linarith
  · unfold Rel at *
    norm_num at h
    rw [h]
    norm_num

/-- The arc tangent does not enlarge differences. -/
theorem arctan_near (a b : ℝ) : |Real.arctan a - Real.arctan b| ≤ |a - b| := by
  have := Convex.norm_image_sub_le_of_norm_deriv_le (f := Real.arctan) (s := Set.univ) (C := 1) (x := b) (y := a)
    (fun x _ => Real.differentiable_arctan.differentiableAt) (fun x _ => by
      rw [Real.deriv_arctan, Real.norm_eq_abs, abs_of_pos (by positivity), div_le_one (by positivity)]
      nlinarith [sq_nonneg x]) convex_univ (Set.mem_univ _) (Set.mem_univ _)
  simpa using this

theorem arg_arctan {x y : ℝ} (h : 0 < x) : Complex.arg ⟨x, y⟩ = Real.arctan (y / x) := by
  have h1 : |Complex.arg ⟨x, y⟩| < Real.pi / 2 := Complex.abs_arg_lt_pi_div_two_iff.2 (Or.inl h)
  have h2 := Complex.tan_arg ⟨x, y⟩
  simp only at h2
  rw [← h2, Real.arctan_tan (abs_lt.1 h1).1 (abs_lt.1 h1).2]

theorem Rel.refl (x : ℝ) : Rel 0 x x := by simp [Rel]

theorem toRadians_near (v : ℝ) : Rel 0.00000022 (toRadians v) (v * RK.piDiv180) := by
  have h1 : Rel (1 / 16777216 + 1 / 9007199254740992 + 1 / 16777216 * (1 / 9007199254740992)) inv180 (1 / 180) := by
    refine (Rel.flt _).trans ?_ (by norm_num)
    have := dbl_rel (1 / 180) (1 / 180) (by norm_num [abs_le])
    unfold Rel
    refine this.trans ?_
    norm_num [abs_of_pos]
  have h2 := ((Rel.refl v).mul h1 le_rfl).round
  have h3 : Rel 0.00000003 (Ieee.flt 3.14159265359) 3.14159265359 := by
    have := piF_eq
    unfold piF at this
    unfold Rel
    rw [this]
    norm_num [abs_le]
  have h4 := (h2.mul h3 (by norm_num)).round
  have e : v * RK.piDiv180 = v * (1 / 180) * 3.14159265359 := by unfold RK.piDiv180; ring
  rw [e]
  exact h4.mono (by norm_num)

/-- The position in which the pivot is with rounding. -/
noncomputable def seenPivot (x : ℝ × ℝ) : ℝ × ℝ := (toRadians x.1 / RK.piDiv180, toRadians x.2 / RK.piDiv180)

/-- The position in which a point is with rounding. -/
noncomputable def seenPoint (x y : ℝ × ℝ) : ℝ × ℝ :=
  (toRadians y.1 / RK.piDiv180, (toRadians x.2 + Ieee.flt (toRadians y.2 - toRadians x.2)) / RK.piDiv180)

theorem degrees_near (v : ℝ) : |v - toRadians v / RK.piDiv180| ≤ 0.00000022 * |v| := by
  have hp := piDiv180_pos
  have h := toRadians_near v
  unfold Rel at h
  rw [abs_mul, abs_of_pos hp] at h
  rw [show v - toRadians v / RK.piDiv180 = -((toRadians v - v * RK.piDiv180) / RK.piDiv180) by field_simp; ring, abs_neg, abs_div, abs_of_pos hp,
    div_le_iff₀ hp]
  linarith

theorem seenPivot_near {x : ℝ × ℝ} (hx : InRange x) : RK.geoDist x (seenPivot x) ≤ 6.7 := by
  refine (geoDist_le _ _).trans ?_
  have h1 := degrees_near x.1
  have h2 := degrees_near x.2
  have hpos : (0 : ℝ) ≤ RK.piDiv180 * RK.earthRadius := mul_nonneg piDiv180_pos.le Props.earthRadius_pos.le
  have h3 : |x.1 - (seenPivot x).1| + |x.2 - (seenPivot x).2| ≤ 0.00000022 * 270 := by
    obtain ⟨a, b⟩ := hx
    simp only [seenPivot]
    norm_num at h1 h2 ⊢
    linarith
  refine (mul_le_mul_of_nonneg_right h3 hpos).trans ?_
  unfold RK.piDiv180 RK.earthRadius
  norm_num

theorem seenPoint_near {x y : ℝ × ℝ} (hx : InRange x) (hy : InRange y) : RK.geoDist y (seenPoint x y) ≤ 9.1 := by
  refine (geoDist_le _ _).trans ?_
  have hp := piDiv180_pos
  have h1 := degrees_near y.1
  have h2 := degrees_near y.2
  have h4 := toRadians_near x.2
  have h5 := toRadians_near y.2
  obtain ⟨a, b⟩ := hx
  obtain ⟨c, d⟩ := hy
  have hpos : (0 : ℝ) ≤ RK.piDiv180 * RK.earthRadius := mul_nonneg piDiv180_pos.le Props.earthRadius_pos.le
  have h6 : |Ieee.flt (toRadians y.2 - toRadians x.2) - (toRadians y.2 - toRadians x.2)| ≤ 361 * RK.piDiv180 / 16777216 := by
    refine flt_rel _ _ ?_
    unfold Rel at h4 h5
    rw [abs_mul, abs_of_pos hp] at h4 h5
    have k1 : |x.2| * RK.piDiv180 ≤ 180 * RK.piDiv180 := mul_le_mul_of_nonneg_right b hp.le
    have k2 : |y.2| * RK.piDiv180 ≤ 180 * RK.piDiv180 := mul_le_mul_of_nonneg_right d hp.le
    have k3 := abs_sub_abs_le_abs_sub (toRadians x.2) (x.2 * RK.piDiv180)
    have k4 := abs_sub_abs_le_abs_sub (toRadians y.2) (y.2 * RK.piDiv180)
    have k5 := abs_sub (toRadians y.2) (toRadians x.2)
    rw [abs_mul, abs_of_pos hp] at k3 k4
    norm_num at h4 h5
    linarith
  have h7 : |y.2 - (seenPoint x y).2| ≤ 0.00000022 * 180 + 361 / 16777216 := by
    have e : y.2 - (seenPoint x y).2 = (y.2 - toRadians y.2 / RK.piDiv180)
      - (Ieee.flt (toRadians y.2 - toRadians x.2) - (toRadians y.2 - toRadians x.2)) / RK.piDiv180 := by
      simp only [seenPoint]
      field_simp
      ring
    rw [e]
    refine (abs_sub _ _).trans ?_
    rw [abs_div, abs_of_pos hp]
    have h8 : |Ieee.flt (toRadians y.2 - toRadians x.2) - (toRadians y.2 - toRadians x.2)| / RK.piDiv180 ≤ 361 / 16777216 := by
      rw [div_le_iff₀ hp]
      linarith
    norm_num at h2 ⊢
    linarith
  have h3 : |y.1 - (seenPoint x y).1| + |y.2 - (seenPoint x y).2| ≤ 0.00000022 * 270 + 361 / 16777216 := by
    have : (seenPoint x y).1 = toRadians y.1 / RK.piDiv180 := rfl
    rw [this]
    norm_num at h1 h7 ⊢
    linarith
  refine (mul_le_mul_of_nonneg_right h3 hpos).trans ?_
  unfold RK.piDiv180 RK.earthRadius
  norm_num

/-- The sine of half a rounded angle. -/
theorem sin_half_near {a : ℝ} (h : |a| ≤ Real.pi) : Rel 0.0000001 (Real.sin (Ieee.flt a * 0.5)) (Real.sin (a * 0.5)) := by
  have h1 := Real.abs_sin_sub_sin_le (Ieee.flt a * 0.5) (a * 0.5)
  have h2 := Rel.flt a
  have h3 := Real.mul_abs_le_abs_sin (x := a * 0.5) (by rw [abs_mul]; norm_num; linarith)
  have hp := Real.pi_pos
  have hp' := Real.pi_lt_d2
  unfold Rel at *
  rw [← sub_mul, abs_mul] at h1
  rw [abs_mul, div_mul_eq_mul_div, div_le_iff₀ hp] at h3
  norm_num at h1 h3 hp' ⊢
  have h4 : |Real.sin (a * (1 / 2))| * Real.pi ≤ |Real.sin (a * (1 / 2))| * (63 / 20) := mul_le_mul_of_nonneg_left hp'.le (abs_nonneg _)
  have h5 := abs_nonneg (Real.sin (a * (1 / 2)))
  linarith

theorem degrees_back (t : ℝ) : t / RK.piDiv180 * (1 / 180) * 3.14159265359 = t := by
  unfold RK.piDiv180
  field_simp

/-- Latitudes away from the poles. -/
theorem latitude_small {v : ℝ} (h : |v| ≤ 89.9) : |toRadians v| ≤ 1.5691 := by
  have h1 := toRadians_near v
  have hp := piDiv180_pos
  unfold Rel at h1
  rw [abs_mul, abs_of_pos hp] at h1
  have h2 := abs_sub_abs_le_abs_sub (toRadians v) (v * RK.piDiv180)
  rw [abs_mul, abs_of_pos hp] at h2
  have h3 : |v| * RK.piDiv180 ≤ 89.9 * RK.piDiv180 := mul_le_mul_of_nonneg_right h hp.le
  unfold RK.piDiv180 at *
  norm_num at *
  linarith

theorem haversineF_near {l : SingleLib} (hl : l.Good) (f : Fused) {x y : ℝ × ℝ} (hx : |x.1| ≤ 89.9) (hy : |y.1| ≤ 89.9) :
    Rel 0.0000022 (haversineF l f x y) (RK.haversine (seenPivot x) (seenPoint x y)) := by
  have e : RK.haversine (seenPivot x) (seenPoint x y) = Real.sin ((toRadians y.1 - toRadians x.1) * 0.5) * Real.sin ((toRadians y.1 - toRadians x.1) * 0.5)
      + Real.sin (Ieee.flt (toRadians y.2 - toRadians x.2) * 0.5) * Real.sin (Ieee.flt (toRadians y.2 - toRadians x.2) * 0.5) * Real.cos (toRadians x.1)
        * Real.cos (toRadians y.1) := by
    unfold RK.haversine seenPivot seenPoint
    simp only [degrees_back, add_sub_cancel_left]
  rw [e]
  have x1 := latitude_small hx
  have y1 := latitude_small hy
  have hp := Real.pi_gt_d20
  have cx : 0 ≤ Real.cos (toRadians x.1) := Real.cos_nonneg_of_mem_Icc ⟨by have := abs_le.1 x1; norm_num at this hp ⊢; linarith, by
    have := abs_le.1 x1; norm_num at this hp ⊢; linarith⟩
  have cy : 0 ≤ Real.cos (toRadians y.1) := Real.cos_nonneg_of_mem_Icc ⟨by have := abs_le.1 y1; norm_num at this hp ⊢; linarith, by
    have := abs_le.1 y1; norm_num at this hp ⊢; linarith⟩
  have r1 : Rel (2 ^ (-21 : ℤ) + 0.0000001 + 2 ^ (-21 : ℤ) * 0.0000001) (l.sin (Ieee.flt (toRadians y.1 - toRadians x.1) * 0.5))
      (Real.sin ((toRadians y.1 - toRadians x.1) * 0.5)) := by
    refine Rel.trans (hl.sin_near _) (sin_half_near ?_) (by norm_num)
    refine (abs_sub _ _).trans ?_
    norm_num at x1 y1 hp ⊢
    linarith
  have r2 : Rel (2 ^ (-21 : ℤ)) (l.sin (Ieee.flt (toRadians y.2 - toRadians x.2) * 0.5)) (Real.sin (Ieee.flt (toRadians y.2 - toRadians x.2) * 0.5)) := hl.sin_near _
  have r3 : Rel (2 ^ (-21 : ℤ)) (l.cos (toRadians x.1)) (Real.cos (toRadians x.1)) := hl.cos_near _
  have r4 : Rel (2 ^ (-21 : ℤ)) (l.cos (toRadians y.1)) (Real.cos (toRadians y.1)) := hl.cos_near _
  have s1 : Rel 0.0000012 (l.sin (Ieee.flt (toRadians y.1 - toRadians x.1) * 0.5) * l.sin (Ieee.flt (toRadians y.1 - toRadians x.1) * 0.5)) _ :=
    (r1.mul r1 (by norm_num)).mono (by norm_num)
  have s2 := ((r2.mul r2 (by norm_num)).round.mul r3 (by norm_num)).round.mul r4 (by norm_num)
  have n1 := mul_self_nonneg (Real.sin ((toRadians y.1 - toRadians x.1) * 0.5))
  have n2 := mul_nonneg (mul_nonneg (mul_self_nonneg (Real.sin (Ieee.flt (toRadians y.2 - toRadians x.2) * 0.5))) cx) cy
  have t1 := s1.round.mono (e' := 0.0000021) (by norm_num)
  have t2 := s2.round.mono (e' := 0.0000021) (by norm_num)
  have s1 := s1.mono (e' := 0.0000021) (by norm_num)
  have s2 := s2.mono (e' := 0.0000021) (by norm_num)
  unfold haversineF
  cases f with
  | none => exact ((t1.add t2 n1 n2).round).mono (by norm_num)
  | first => exact ((s1.add t2 n1 n2).round).mono (by norm_num)
  | second => exact ((t1.add s2 n1 n2).round).mono (by norm_num)

/-- The angle of a quotient with relative errors. -/
theorem angle_near {p q p' q' : ℝ} (hp : Rel 0.00000125 p' p) (hq : Rel 0.0000013 q' q) (p0 : 0 ≤ p) (q0 : 0 < q) (hpq : p ≤ q) :
    Rel 0.0000037 (Complex.arg ⟨q', p'⟩) (Complex.arg ⟨q, p⟩) := by
  unfold Rel at hp hq
  rw [abs_of_nonneg p0] at hp
  rw [abs_of_pos q0] at hq
  have hq' := abs_le.1 hq
  norm_num at hq'
  have q1 : 0 < q' := by linarith
  rw [arg_arctan q0, arg_arctan q1]
  have ht0 : 0 ≤ p / q := div_nonneg p0 q0.le
  have ht1 : p / q ≤ 1 := (div_le_one q0).2 hpq
  have h1 : |p' / q' - p / q| ≤ 0.0000026 * (p / q) := by
    have e : p' / q' - p / q = ((p' - p) * q - p * (q' - q)) / (q' * q) := by field_simp; ring
    rw [e, abs_div, abs_of_pos (mul_pos q1 q0), div_le_iff₀ (mul_pos q1 q0)]
    have e2 : 0.0000026 * (p / q) * (q' * q) = 0.0000026 * (p * q') := by field_simp
    rw [e2]
    refine (abs_sub _ _).trans ?_
    rw [abs_mul, abs_mul, abs_of_pos q0, abs_of_nonneg p0]
    have a1 := mul_le_mul_of_nonneg_right hp q0.le
    have a2 := mul_le_mul_of_nonneg_left hq p0
    have a3 : p * (0.99 * q) ≤ p * q' := mul_le_mul_of_nonneg_left (by norm_num; linarith) p0
    have a4 := mul_nonneg p0 q0.le
    norm_num at a1 a2 a3 ⊢
    linarith
  have h2 := arctan_near (p' / q') (p / q)
  generalize p / q = t at ht0 ht1 h1 h2
  have h3 : t ≤ 1.415 * Real.arctan t := by
    have a0 : 0 ≤ Real.arctan t := Real.arctan_nonneg.2 ht0
    have a1 := Real.sin_le a0
    rw [Real.sin_arctan, div_le_iff₀ (by positivity)] at a1
    have a2 : Real.sqrt (1 + t ^ 2) ≤ 1.415 := by
      rw [Real.sqrt_le_left (by norm_num)]
      nlinarith
    have a3 := mul_le_mul_of_nonneg_left a2 a0
    linarith
  unfold Rel
  rw [abs_of_nonneg (Real.arctan_nonneg.2 ht0)]
  have := Real.arctan_nonneg.2 ht0
  norm_num at h1 h3 ⊢
  linarith

theorem buildDist_near {l : SingleLib} (hl : l.Good) (f : Fused) {x y : ℝ × ℝ} (hx : InRange x) (hy : InRange y) (hx' : |x.1| ≤ 89.9) (hy' : |y.1| ≤ 89.9)
    (h : RK.geoDist x y ≤ 10000000) : ∃ d, buildDist l f x y = some d ∧ |d - RK.geoDist x y| ≤ 16.5 + 0.0000045 * RK.geoDist x y := by
  -- the distance between the rounded positions
  have k1 := seenPivot_near hx
  have k2 := seenPoint_near hx hy
  have m := Props.C51_metric
  have k3 : |RK.geoDist (seenPivot x) (seenPoint x y) - RK.geoDist x y| ≤ 15.8 := by
    have t1 := m.triangle (seenPivot x) x (seenPoint x y)
    have t2 := m.triangle x y (seenPoint x y)
    have t3 := m.triangle x (seenPivot x) y
    have t4 := m.triangle (seenPivot x) (seenPoint x y) y
    have s1 := m.symm (seenPivot x) x
    have s2 := m.symm (seenPoint x y) y
    norm_num at k1 k2 ⊢
    exact abs_le.2 ⟨by linarith, by linarith⟩
  have hr := haversineF_near hl f hx' hy'
  have hC := Props.C51_construction_formula (seenPivot x) (seenPoint x y)
  have hH := Props.geoCos_eq_haversine (seenPivot x) (seenPoint x y)
  obtain ⟨c1, c2⟩ := Props.C51_acos_defined (seenPivot x) (seenPoint x y)
  have hc0 : 0 < RK.geoCos (seenPivot x) (seenPoint x y) := by
    rw [← Real.arccos_lt_pi_div_two]
    have hd : RK.geoDist (seenPivot x) (seenPoint x y) ≤ 10000015.8 := by
      have := abs_le.1 k3
      norm_num at this ⊢
      linarith
    unfold RK.geoDist RK.earthRadius at hd
    have hp := Real.pi_gt_d20
    norm_num at hd hp
    linarith
  have g0 : 0 ≤ RK.geoDist x y := m.nonneg x y
  rw [hH] at c1 c2 hc0
  unfold RK.constructionDist RK.atan2 at hC
  unfold buildDist
  simp only
  generalize RK.haversine (seenPivot x) (seenPoint x y) = H at *
  generalize haversineF l f x y = a at *
  have H0 : 0 ≤ H := by linarith
  have H1 : H ≤ 1 - H := by linarith
  have a0 := hr.nonneg (by norm_num) H0
  have rq : Rel 0.0000023 (Ieee.flt (1 - a)) (1 - H) := by
    have : Rel 0.0000022 (1 - a) (1 - H) := by
      unfold Rel at hr ⊢
      rw [abs_of_nonneg H0] at hr
      rw [show 1 - a - (1 - H) = -(a - H) by ring, abs_neg, abs_of_pos (show 0 < 1 - H by linarith)]
      norm_num at hr ⊢
      linarith
    exact this.round.mono (by norm_num)
  have b0 := rq.nonneg (by norm_num) (by linarith)
  have rp' := (hr.sqrt (by norm_num) H0).round.mono (e' := 0.00000125) (by norm_num)
  have rq' := (rq.sqrt (by norm_num) (by linarith)).round.mono (e' := 0.0000013) (by norm_num)
  have ra := angle_near rp' rq' (Real.sqrt_nonneg _) (Real.sqrt_pos.2 (by linarith)) (Real.sqrt_le_sqrt H1)
  refine ⟨Ieee.flt (radiusF * (2 * l.atan2 (Ieee.flt (Real.sqrt a)) (Ieee.flt (Real.sqrt (Ieee.flt (1 - a)))))), ?_, ?_⟩
  · unfold sqrtF
    rw [if_neg (not_lt.2 a0), if_neg (not_lt.2 b0)]
    rfl
  · have rl := Rel.trans (hl.atan2_near (Ieee.flt (Real.sqrt a)) (Ieee.flt (Real.sqrt (Ieee.flt (1 - a))))) ra (by norm_num)
    have rd := ((Rel.flt 6371000.785).mul ((Rel.refl 2).mul rl le_rfl) (by norm_num)).round.mono (e' := 0.0000044) (by norm_num)
    have e : (6371000.785 : ℝ) = RK.earthRadius := rfl
    unfold radiusF
    rw [e] at rd ⊢
    rw [hC] at rd
    unfold Rel at rd
    rw [abs_of_nonneg (m.nonneg _ _)] at rd
    have := abs_le.1 rd
    have := abs_le.1 k3
    norm_num at *
    exact abs_le.2 ⟨by linarith, by linarith⟩

end RK.Ieee
