import Verif.Model.OsmFloat
import Verif.Proof.GeoFloat
import Verif.Props.GeoDist
import Verif.Spec.OsmGraph
/-! # Lengths of arcs with rounding: bounds -/
namespace RK.Ieee
open RK

theorem arccos_cos_le (t : ℝ) : Real.arccos (Real.cos t) ≤ |t| := by
  rw [← Real.cos_abs]
  rcases le_total |t| Real.pi with h | h
  · rw [Real.arccos_cos (abs_nonneg t) h]
  · exact (Real.arccos_le_pi _).trans h

theorem piDiv180_pos : 0 < RK.piDiv180 := by unfold RK.piDiv180; norm_num

/-- The distance of positions is bounded by the differences of their coordinates. -/
theorem geoDist_le (x y : ℝ × ℝ) : RK.geoDist x y ≤ (|x.1 - y.1| + |x.2 - y.2|) * (RK.piDiv180 * RK.earthRadius) := by
  have hp := piDiv180_pos
  have hR := Props.earthRadius_pos
  have h1 : RK.geoDist x (y.1, x.2) ≤ |x.1 - y.1| * RK.piDiv180 * RK.earthRadius := by
    unfold RK.geoDist
    refine mul_le_mul_of_nonneg_right ?_ hR.le
    have e : RK.geoCos x (y.1, x.2) = Real.cos ((x.1 - y.1) * RK.piDiv180) := by
      simp only [RK.geoCos, sub_self, zero_mul, Real.cos_zero]; ring
    rw [e]
    refine (arccos_cos_le _).trans ?_
    rw [abs_mul, abs_of_pos hp]
  have h2 : RK.geoDist (y.1, x.2) y ≤ |x.2 - y.2| * RK.piDiv180 * RK.earthRadius := by
    unfold RK.geoDist
    refine mul_le_mul_of_nonneg_right ?_ hR.le
    have e : Real.cos ((x.2 - y.2) * RK.piDiv180) ≤ RK.geoCos (y.1, x.2) y := by
      simp only [RK.geoCos, sub_self, zero_mul, Real.cos_zero]
      have a1 := Real.cos_le_one ((x.2 - y.2) * RK.piDiv180)
      have a2 := Real.cos_le_one ((y.1 + y.1) * RK.piDiv180)
      nlinarith
    refine (Real.arccos_le_arccos e).trans ((arccos_cos_le _).trans ?_)
    rw [abs_mul, abs_of_pos hp]
  have h3 := Props.C51_metric.triangle x (y.1, x.2) y
  nlinarith

/-- A conversion of coordinates that is precise enough. -/
structure GoodCoord (coord : Int → ℝ) : Prop where
  latitude : ∀ n : Int, |n| ≤ 90000000000 → |coord n| ≤ 90 ∧ |coord n - n / 1000000000| ≤ 0.000007
  longitude : ∀ n : Int, |n| ≤ 180000000000 → |coord n| ≤ 180 ∧ |coord n - n / 1000000000| ≤ 0.0000125

/-- A position in nanodegrees, in degrees. -/
noncomputable def inDegrees (p : Int × Int) : ℝ × ℝ := (p.1 / 1000000000, p.2 / 1000000000)

/-- A position in nanodegrees in the usual range. -/
def OnEarth (p : Int × Int) : Prop := |p.1| ≤ 90000000000 ∧ |p.2| ≤ 180000000000

/-- Coordinates in degrees close to a position in nanodegrees. -/
structure NearPos (x : ℝ × ℝ) (p : Int × Int) : Prop where
  inRange : InRange x
  latitude : |x.1 - p.1 / 1000000000| ≤ 0.000007
  longitude : |x.2 - p.2 / 1000000000| ≤ 0.0000125

theorem coord_near {coord : Int → ℝ} (h : GoodCoord coord) {p : Int × Int} (hp : OnEarth p) : NearPos (coord p.1, coord p.2) p := by
  obtain ⟨a1, a2⟩ := h.latitude _ hp.1
  obtain ⟨b1, b2⟩ := h.longitude _ hp.2
  exact ⟨⟨a1, b1⟩, a2, b2⟩

theorem near_dist {x : ℝ × ℝ} {p : Int × Int} (h : NearPos x p) : RK.geoDist x (inDegrees p) ≤ 2.17 := by
  refine (geoDist_le _ _).trans ?_
  have hpos : (0 : ℝ) ≤ RK.piDiv180 * RK.earthRadius := mul_nonneg piDiv180_pos.le Props.earthRadius_pos.le
  refine (mul_le_mul_of_nonneg_right (add_le_add h.latitude h.longitude) hpos).trans ?_
  unfold RK.piDiv180 RK.earthRadius
  norm_num

/-- The distance computed for coordinates close to two positions. -/
theorem line_error {m : MathLib} (hm : m.Good) (contract : Bool) {x y : ℝ × ℝ} {p q : Int × Int} (hp : NearPos x p) (hq : NearPos y q) :
    match geoDist m contract x y with
    | some d => |d - RK.geoDist (inDegrees p) (inDegrees q)| ≤ 5.9
    | none => RK.geoDist (inDegrees p) (inDegrees q) < 5.9 ∨ Real.pi * RK.earthRadius - 5.9 < RK.geoDist (inDegrees p) (inDegrees q) := by
  have n1 := near_dist hp
  have n2 := near_dist hq
  have r1 := hp.inRange
  have r2 := hq.inRange
  have hc : |RK.geoCos x y| ≤ 1 := abs_le.2 (Props.C51_acos_defined x y)
  have sy := Props.C51_metric.symm
  have t1 := Props.C51_metric.triangle x (inDegrees p) y
  have t2 := Props.C51_metric.triangle (inDegrees p) (inDegrees q) y
  have t3 := Props.C51_metric.triangle (inDegrees p) x (inDegrees q)
  have t4 := Props.C51_metric.triangle x y (inDegrees q)
  have s1 := sy x (inDegrees p)
  have s2 := sy y (inDegrees q)
  cases e : geoDist m contract x y with
  | some d =>
    have := abs_le.1 (geoDist_some hm contract r1 r2 hc e)
    exact abs_le.2 ⟨by linarith, by linarith⟩
  | none =>
    rcases geoDist_none hm contract r1 r2 hc e with h | h
    · left; linarith
    · right; linarith

/-! ### Coordinates -/

/-- Numbers close to a `float` with a large mantissa are not rounded beyond it. -/
theorem flt_abs_le {v : ℝ} {e N : ℤ} (h1 : 2 ^ 23 + 1 ≤ N) (h2 : N + 1 ≤ 2 ^ 24) (h : |v| < N * 2 ^ e + 2 ^ e / 2) : |flt v| ≤ N * 2 ^ e := by
  have hu : (0 : ℝ) < 2 ^ e := by positivity
  have h1' : (2 : ℝ) ^ 23 + 1 ≤ N := by exact_mod_cast h1
  have h2' : (N : ℝ) + 1 ≤ 2 ^ 24 := by exact_mod_cast h2
  by_cases hb : (2 : ℝ) ^ (e + (24 : ℕ) - 1) ≤ |v|
  · have hulp : ulp 24 v = 2 ^ e := by
      refine ulp_eq 24 hb ?_
      rw [zpow_add₀ two_ne_zero]
      norm_num at h2' ⊢
      nlinarith
    have hn := rnd_near 24 v
    unfold flt rnd at hn ⊢
    rw [hulp] at hn ⊢
    generalize roundEven (v / 2 ^ e) = k at hn ⊢
    rw [abs_mul, abs_of_pos hu]
    refine mul_le_mul_of_nonneg_right ?_ hu.le
    have h3 : |(k : ℝ) * 2 ^ e| < N * 2 ^ e + 2 ^ e := by
      have a := abs_sub_abs_le_abs_sub ((k : ℝ) * 2 ^ e) v
      rw [abs_sub_comm] at a
      linarith
    rw [abs_mul, abs_of_pos hu, show (N : ℝ) * 2 ^ e + 2 ^ e = (N + 1) * 2 ^ e by ring] at h3
    have h4 := lt_of_mul_lt_mul_right h3 hu.le
    have h5 : |k| < N + 1 := by exact_mod_cast h4
    have h6 : |k| ≤ N := by omega
    exact_mod_cast h6
  · have hb := not_le.1 hb
    have hr := rnd_rel 24 v
    have e1 : (2 : ℝ) ^ (e + (24 : ℕ) - 1) = 2 ^ 23 * 2 ^ e := by
      rw [show e + ((24 : ℕ) : ℤ) - 1 = 23 + e by push_cast; ring, zpow_add₀ two_ne_zero]
      norm_num
    rw [e1] at hb
    have a := abs_sub_abs_le_abs_sub (flt v) v
    have e2 : (2 : ℝ) ^ (-((24 : ℕ) : ℤ)) = 1 / 16777216 := by norm_num
    rw [e2] at hr
    nlinarith

/-- Rounding the granularity and the product: `t` is the coordinate in degrees, `k` the value. -/
theorem value_error {g : ℕ} {k t : ℝ} (ht : t = k * g / 1000000000) : |dbl (dbl (dbl 0.000000001 * g) * k) - t| ≤ |t| * 4.2 / 9007199254740992 := by
  have a := dbl_rel 0.000000001 0.000000001 (by rw [abs_of_pos (by norm_num)])
  generalize dbl 0.000000001 = a0 at a
  have a := abs_le.1 a
  have g0 : (0 : ℝ) ≤ g := Nat.cast_nonneg g
  have b := dbl_rel (a0 * g) (a0 * g) (by rw [abs_of_nonneg (mul_nonneg (by norm_num at a; linarith) g0)])
  generalize dbl (a0 * g) = b0 at b
  have b := abs_le.1 b
  have hg : |b0 - g / 1000000000| ≤ g / 1000000000 * 2.1 / 9007199254740992 := by
    norm_num at a
    refine abs_le.2 ⟨?_, ?_⟩ <;> nlinarith
  have hk : |b0 * k - t| ≤ |t| * 2.1 / 9007199254740992 := by
    rw [ht, show b0 * k - k * g / 1000000000 = (b0 - g / 1000000000) * k by ring, abs_mul, show k * g / 1000000000 = g / 1000000000 * k by ring,
      abs_mul, abs_of_nonneg (show (0 : ℝ) ≤ g / 1000000000 by positivity)]
    have := mul_le_mul_of_nonneg_right hg (abs_nonneg k)
    linarith
  have hb : |b0 * k| ≤ |t| * 1.5 := by
    have h1 := abs_sub_abs_le_abs_sub (b0 * k) t
    have h2 := abs_nonneg t
    linarith
  have c := dbl_rel (b0 * k) _ hb
  have h3 := abs_sub_le (dbl (b0 * k)) (b0 * k) t
  have h2 := abs_nonneg t
  linarith

/-- A `double` close to a coordinate, rounded to `float`. -/
theorem float_latitude {v t : ℝ} (ht : |t| ≤ 90) (h : |v - t| ≤ 0.000001) : |flt v| ≤ 90 ∧ |flt v - t| ≤ 0.000007 := by
  have h1 := abs_sub_abs_le_abs_sub v t
  refine ⟨?_, ?_⟩
  · have := flt_abs_le (v := v) (e := -17) (N := 11796480) (by norm_num) (by norm_num) (by norm_num at h ⊢; linarith)
    refine this.trans (by norm_num)
  · have hr := rnd_rel 24 v
    have e2 : (2 : ℝ) ^ (-((24 : ℕ) : ℤ)) = 1 / 16777216 := by norm_num
    rw [e2] at hr
    have := abs_sub_le (flt v) v t
    norm_num at h hr this ⊢
    linarith

theorem float_longitude {v t : ℝ} (ht : |t| ≤ 180) (h : |v - t| ≤ 0.000001) : |flt v| ≤ 180 ∧ |flt v - t| ≤ 0.0000125 := by
  have h1 := abs_sub_abs_le_abs_sub v t
  refine ⟨?_, ?_⟩
  · have := flt_abs_le (v := v) (e := -16) (N := 11796480) (by norm_num) (by norm_num) (by norm_num at h ⊢; linarith)
    refine this.trans (by norm_num)
  · have hr := rnd_rel 24 v
    have e2 : (2 : ℝ) ^ (-((24 : ℕ) : ℤ)) = 1 / 16777216 := by norm_num
    rw [e2] at hr
    have := abs_sub_le (flt v) v t
    norm_num at h hr this ⊢
    linarith

theorem osmCoord_good : GoodCoord osmCoord := by
  have key : ∀ (n : Int), |dbl (dbl (dbl 0.000000001 * 100) * (n / 100)) - n / 1000000000| ≤ |(n / 1000000000 : ℝ)| * 4.2 / 9007199254740992 := by
    intro n
    have := value_error (g := 100) (k := n / 100) (t := n / 1000000000) (by push_cast; ring)
    push_cast at this
    exact this
  have div : ∀ (n B : Int), |n| ≤ B → |(n / 1000000000 : ℝ)| ≤ B / 1000000000 := by
    intro n B h
    rw [abs_div, abs_of_pos (show (0 : ℝ) < 1000000000 by norm_num)]
    refine div_le_div_of_nonneg_right ?_ (by norm_num)
    exact_mod_cast h
  refine ⟨fun n hn => ?_, fun n hn => ?_⟩
  · have h := div n _ hn
    refine float_latitude (by norm_num at h ⊢; linarith) ((key n).trans ?_)
    norm_num at h ⊢; linarith
  · have h := div n _ hn
    refine float_longitude (by norm_num at h ⊢; linarith) ((key n).trans ?_)
    norm_num at h ⊢; linarith

/-- The sums of the differences: the errors add up. -/
theorem denseCoords_error {g : ℕ} : ∀ (vs : List Int) (x : ℝ) (p : Int) (k : ℕ), k + vs.length ≤ 1000000 →
    |(p * g / 1000000000 : ℝ)| ≤ 180 → (∀ v ∈ vs, |(v * g / 1000000000 : ℝ)| ≤ 180) → |x - p * g / 1000000000| ≤ k * 0.0000000000003 →
    List.Forall₂ (fun (c : ℝ) (v : Int) => |c - v * g / 1000000000| ≤ 0.000001) (denseCoords g x (_root_.Spec.deltas p vs)) vs
  | [], _, _, _, _, _, _, _ => .nil
  | v :: vs, x, p, k, hk, hp, hv, hx => by
    have hv0 := hv v List.mem_cons_self
    simp only [_root_.Spec.deltas, denseCoords]
    have e := value_error (g := g) (k := ((v - p : Int) : ℝ)) (t := v * g / 1000000000 - p * g / 1000000000) (by push_cast; ring)
    have r : dbl (0 + dbl (dbl (dbl 0.000000001 * g) * ((v - p : Int) : ℝ))) = dbl (dbl (dbl 0.000000001 * g) * ((v - p : Int) : ℝ)) := by
      rw [zero_add]; exact rnd_rnd (by norm_num) _
    rw [r]
    generalize dbl (dbl (dbl 0.000000001 * g) * ((v - p : Int) : ℝ)) = w at e
    have hv0' := hv0
    generalize hV : (v * g / 1000000000 : ℝ) = V at e hv0 ⊢
    generalize (p * g / 1000000000 : ℝ) = P at e hp hx
    have hkr : (k : ℝ) + 1 ≤ 1000000 := by
      have : k + 1 ≤ 1000000 := by simp at hk; omega
      exact_mod_cast this
    have hd : |V - P| ≤ 360 := by
      have := abs_sub_le V 0 P
      simp only [sub_zero, zero_sub, abs_neg] at this
      linarith
    have hw : |x + w - V| ≤ k * 0.0000000000003 + 360 * 4.2 / 9007199254740992 := by
      have := abs_add_le (x - P) (w - (V - P))
      rw [show x - P + (w - (V - P)) = x + w - V by ring] at this
      norm_num at e hx this ⊢
      linarith
    have hb : |x + w| ≤ 181 := by
      have := abs_sub_abs_le_abs_sub (x + w) V
      norm_num at hw ⊢
      linarith
    have c := dbl_rel _ _ hb
    have hx' : |dbl (x + w) - V| ≤ ((k + 1 : ℕ) : ℝ) * 0.0000000000003 := by
      have := abs_sub_le (dbl (x + w)) (x + w) V
      push_cast
      norm_num at hw c this ⊢
      linarith
    refine .cons ?_ (denseCoords_error vs _ v (k + 1) (by simp at hk; omega) hv0' (fun u hu => hv u (List.mem_cons_of_mem _ hu)) (by rw [← hV] at hx'; exact hx'))
    rw [hV]
    refine hx'.trans ?_
    push_cast
    norm_num
    linarith

/-! ### Sums -/

theorem pathLength_ge {ex : Nat → Nat → ℝ} : ∀ (l : List Nat) (p : Nat) (S : ℝ), (p :: l).IsChain (fun x y => 0 ≤ ex x y) →
    S ≤ _root_.Spec.pathLength (· + ·) ex S p l
  | [], _, _, _ => le_refl _
  | y :: l, p, S, h => by
    rw [List.isChain_cons_cons] at h
    have := pathLength_ge (ex := ex) l y (S + ex p y) h.2
    simp only [_root_.Spec.pathLength]
    linarith

theorem pathLength_lower {ex : Nat → Nat → ℝ} : ∀ (l : List Nat) (p : Nat) (S : ℝ), (p :: l).IsChain (fun x y => 6 ≤ ex x y) →
    S + 6 * (l.length : ℝ) ≤ _root_.Spec.pathLength (· + ·) ex S p l
  | [], _, _, _ => by simp [_root_.Spec.pathLength]
  | y :: l, p, S, h => by
    rw [List.isChain_cons_cons] at h
    have := pathLength_lower (ex := ex) l y (S + ex p y) h.2
    simp only [_root_.Spec.pathLength, List.length_cons]
    push_cast
    linarith

/-- Each line has an error of at most 6 m, the rounding of the sum included. -/
theorem path_error {dist : Nat → Nat → Option ℝ} {ex : Nat → Nat → ℝ} : ∀ (l : List Nat) (p : Nat) (D S : ℝ) (k : ℕ),
    (p :: l).IsChain (fun x y => 6 ≤ ex x y ∧ ∃ d, dist x y = some d ∧ |d - ex x y| ≤ 5.9) → |D - S| ≤ 6 * k → 6 * (k : ℝ) ≤ S →
    _root_.Spec.pathLength (· + ·) ex S p l ≤ 2000000000 →
    ∃ D', _root_.Spec.pathLength (fun x y => x.bind fun x => y.map fun y => dbl (x + y)) dist (some D) p l = some D' ∧
      |D' - _root_.Spec.pathLength (· + ·) ex S p l| ≤ 6 * (k + l.length : ℕ)
  | [], p, D, S, k, _, h1, _, _ => ⟨D, rfl, by simpa [_root_.Spec.pathLength] using h1⟩
  | y :: l, p, D, S, k, hc, h1, h2, h3 => by
    rw [List.isChain_cons_cons] at hc
    obtain ⟨⟨h6, d, hd, hde⟩, hc⟩ := hc
    have hge := pathLength_ge (ex := ex) l y (S + ex p y) (hc.imp fun x y h => by linarith [h.1])
    simp only [_root_.Spec.pathLength, hd, Option.bind_some, Option.map_some] at h3 ⊢
    have hb : |D + d| ≤ 5000000000 := by
      have a1 := abs_le.1 h1
      have a2 := abs_le.1 hde
      norm_num at a2
      exact abs_le.2 ⟨by linarith, by linarith⟩
    have hr := abs_le.1 (dbl_rel _ _ hb)
    have a1 := abs_le.1 h1
    have a2 := abs_le.1 hde
    have := path_error l y (dbl (D + d)) (S + ex p y) (k + 1) hc (by
      push_cast
      norm_num at a2 hr
      exact abs_le.2 ⟨by linarith, by linarith⟩) (by push_cast; linarith) h3
    obtain ⟨D', e, h⟩ := this
    refine ⟨D', e, ?_⟩
    rw [show k + (y :: l).length = k + 1 + l.length by simp; omega]
    exact h

/-- If one of the distances is not a number, then the sum is not a number. -/
theorem path_none {dist : Nat → Nat → Option ℝ} : ∀ (l : List Nat) (p : Nat) (D : Option ℝ),
    (¬ (p :: l).IsChain (fun x y => dist x y ≠ none)) ∨ D = none →
    _root_.Spec.pathLength (fun x y => x.bind fun x => y.map fun y => dbl (x + y)) dist D p l = none
  | [], _, _, h => by
    rcases h with h | h
    · exact absurd (List.isChain_singleton _) h
    · exact h
  | y :: l, p, D, h => by
    simp only [_root_.Spec.pathLength]
    refine path_none l y _ ?_
    rcases h with h | rfl
    · rw [List.isChain_cons_cons, not_and_or] at h
      rcases h with h | h
      · right
        rw [not_not.1 h]
        cases D <;> rfl
      · exact Or.inl h
    · exact Or.inr rfl

end RK.Ieee
