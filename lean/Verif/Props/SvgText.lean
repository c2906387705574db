import Verif.Proof.SvgFile
/-! # C91: the file with the drawing of a graph -/
namespace RK.Props
open RK Ieee _root_.Spec

/-- Finite numbers of type `float` with absolute values of at most 10^30. -/
def FloatCoordinates (v : List FloatValue) : Prop := ∀ x ∈ v, ∃ neg m, x = .finite neg m ∧ IsBinary 24 (-126) 128 m ∧ m ≤ 10 ^ 30

theorem drawn {v : List FloatValue} (hv : FloatCoordinates v) (hs : ∃ a ∈ v, ∃ b ∈ v, a.value ≠ b.value) :
    ∃ s, svgScale v = some s ∧ s.length = v.length ∧ ∀ i x, v[i]? = some x → ∃ z, rd s i = some z ∧
      DrawnRight (v.map FloatValue.value) x.value (printDefault z) ∧ DrawnDown (v.map FloatValue.value) x.value (printDefault (float32.sub float300 z)) := by
  obtain ⟨a, ha, b, hb, hab⟩ := hs
  obtain ⟨lo, hi, hlo, hhi, hbd, e⟩ := svgScale_eq (v := v) (by rintro rfl; cases ha) (fun x hx => by
    obtain ⟨neg, m, rfl, _⟩ := hv x hx
    trivial)
  refine ⟨_, e, by simp, ?_⟩
  intro i x hx
  have hx' := List.mem_of_getElem? hx
  refine ⟨_, by unfold rd; rw [List.getElem?_map, hx]; rfl, ?_⟩
  obtain ⟨n1, m1, e1, b1, g1⟩ := hv x hx'
  obtain ⟨n2, m2, e2, b2, g2⟩ := hv lo hlo
  obtain ⟨n3, m3, e3, b3, g3⟩ := hv hi hhi
  have hlt : lo.value < hi.value := by
    by_contra hn
    exact hab (le_antisymm ((hbd a ha).2.trans ((not_lt.1 hn).trans (hbd b hb).1)) ((hbd b hb).2.trans ((not_lt.1 hn).trans (hbd a ha).1)))
  obtain ⟨neg, r, er, hr, hz, herr⟩ := scaled_ok e1 e2 e3 (binary_multiple b1) (binary_multiple b2) (binary_multiple b3) g1 g2 g3 (hbd x hx').1 (hbd x hx').2 hlt
  have hD : 0 < hi.value - lo.value := sub_pos.2 hlt
  have hP0 : 0 ≤ 300 * (x.value - lo.value) / (hi.value - lo.value) := div_nonneg (by linarith [(hbd x hx').1]) hD.le
  have hP3 : 300 * (x.value - lo.value) / (hi.value - lo.value) ≤ 300 := by rw [div_le_iff₀ hD]; linarith [(hbd x hx').2]
  have hscale : OnScale (v.map FloatValue.value) x.value (300 * (x.value - lo.value) / (hi.value - lo.value)) := by
    refine ⟨lo.value, hi.value, List.mem_map_of_mem hlo, List.mem_map_of_mem hhi, ?_, ?_⟩
    · intro y hy
      obtain ⟨w, hw, rfl⟩ := List.mem_map.1 hy
      exact hbd w hw
    · rw [mul_comm, div_mul_cancel₀ _ hD.ne']
  simp only [er]
  obtain ⟨t, t1, t2, t3, t4⟩ := right_text hr hz herr hP0 hP3
  obtain ⟨s, s1, s2, s3, s4⟩ := down_text hr hz herr hP0 hP3
  exact ⟨⟨t, _, t1, hscale, t2, t3, t4⟩, ⟨s, _, s1, hscale, s2, s3, s4⟩⟩

/-- **C91.** The file that the tool writes has one line for each arc, in the order of the arcs, from the tail of the arc to its head. The numbers in the text differ by at most
0.001 from the exact positions, if the longitudes are scaled to 0, …, 300 from left to right and the latitudes from bottom to top. Horizontal positions are inside of
the picture; vertical ones are at most 0.0001 outside. -/
theorem C91_file_partial (n : Nat) (firstOut head : List Nat) (latitude longitude : List FloatValue) (h : IsCSR n firstOut head)
    (h1 : n ≤ latitude.length) (h2 : n ≤ longitude.length) (hlat : FloatCoordinates latitude) (hlon : FloatCoordinates longitude)
    (slat : ∃ a ∈ latitude, ∃ b ∈ latitude, a.value ≠ b.value) (slon : ∃ a ∈ longitude, ∃ b ∈ longitude, a.value ≠ b.value) :
    ∃ lines, toolSvgText firstOut head latitude longitude = some (svgDocument lines) ∧ lines.length = head.length ∧
      ∀ (i x y : Nat) (a b c d : FloatValue), OutArc firstOut x i → head[i]? = some y → latitude[x]? = some a → longitude[x]? = some b →
        latitude[y]? = some c → longitude[y]? = some d →
        ∃ x1 y1 x2 y2, lines[i]? = some (svgLineText x1 y1 x2 y2) ∧
          DrawnRight (longitude.map FloatValue.value) b.value x1 ∧ DrawnDown (latitude.map FloatValue.value) a.value y1 ∧
          DrawnRight (longitude.map FloatValue.value) d.value x2 ∧ DrawnDown (latitude.map FloatValue.value) c.value y2 := by
  obtain ⟨s1, e1, l1, p1⟩ := drawn hlat slat
  obtain ⟨s2, e2, l2, p2⟩ := drawn hlon slon
  obtain ⟨lines, e, hl, hline⟩ := toolSvgText_ok h e1 e2 (by omega) (by omega)
  refine ⟨lines, e, hl, ?_⟩
  intro i x y a b c d hx hy ha hb hc hd
  obtain ⟨x1, y1, x2, y2, r1, r2, r3, r4, hi⟩ := hline x y i hx hy
  obtain ⟨z1, q1, w1, _⟩ := p2 x b hb
  obtain ⟨z2, q2, _, w2⟩ := p1 x a ha
  obtain ⟨z3, q3, w3, _⟩ := p2 y d hd
  obtain ⟨z4, q4, _, w4⟩ := p1 y c hc
  rw [r1] at q1; rw [r2] at q2; rw [r3] at q3; rw [r4] at q4
  cases q1; cases q2; cases q3; cases q4
  exact ⟨_, _, _, _, hi, w1, w2, w3, w4⟩

/-- Finding: if all nodes have the same latitude, then every line has `-nan` as vertical positions, which is not a number of SVG. -/
theorem C91_same_latitude_not_a_number (n : Nat) (firstOut head : List Nat) (latitude longitude : List FloatValue) (h : IsCSR n firstOut head)
    (h1 : n ≤ latitude.length) (h2 : n ≤ longitude.length) (hlat : FloatCoordinates latitude) (hlon : FloatCoordinates longitude)
    (hne : latitude ≠ []) (hne2 : longitude ≠ []) (hsame : ∀ a ∈ latitude, ∀ b ∈ latitude, a.value = b.value) :
    ∃ lines, toolSvgText firstOut head latitude longitude = some (svgDocument lines) ∧ lines.length = head.length ∧
      ∀ l ∈ lines, ∃ x1 x2, l = svgLineText x1 ['-', 'n', 'a', 'n'] x2 ['-', 'n', 'a', 'n'] := by
  have fin : ∀ {v}, FloatCoordinates v → ∀ x ∈ v, x.IsFinite := by
    intro v hv x hx
    obtain ⟨neg, m, rfl, _⟩ := hv x hx
    trivial
  obtain ⟨lo, hi, hlo, hhi, hbd, e1⟩ := svgScale_eq hne (fin hlat)
  obtain ⟨_, _, _, _, _, e2⟩ := svgScale_eq hne2 (fin hlon)
  obtain ⟨lines, e, hl, hline⟩ := toolSvgText_ok h e1 e2 (by simpa using h1) (by simpa using h2)
  have hzero : ∀ {a b}, a ∈ latitude → b ∈ latitude → ∃ s, float32.sub a b = .finite s 0 := by
    intro a b ha hb
    have hv := hsame a ha b hb
    obtain ⟨n1, m1, rfl, _⟩ := hlat a ha
    obtain ⟨n2, m2, rfl, _⟩ := hlat b hb
    refine ⟨n1 && !n2, ?_⟩
    unfold FloatType.sub
    simp only
    rw [if_pos (sub_eq_zero.2 hv)]
  have hnan : ∀ {i z}, rd (latitude.map fun x => float32.div (float32.mul (float32.sub x lo) float300) (float32.sub hi lo)) i = some z →
      printDefault (float32.sub float300 z) = ['-', 'n', 'a', 'n'] := by
    intro i z hz
    unfold rd at hz
    rw [List.getElem?_map, Option.map_eq_some_iff] at hz
    obtain ⟨x, hx, rfl⟩ := hz
    obtain ⟨s, es⟩ := hzero (List.mem_of_getElem? hx) hlo
    obtain ⟨s', es'⟩ := hzero hhi hlo
    rw [es, es']
    have em : float32.mul (.finite s 0) float300 = .finite s 0 := by
      show float32.result (s != false) (0 * 300) = _
      rw [zero_mul, result_finite (by rw [round32_zero]; norm_num), round32_zero, Bool.bne_false]
    have ed : float32.div (.finite s 0) (.finite s' 0) = .nan true := by
      unfold FloatType.div
      simp
    rw [em, ed]
    rfl
  refine ⟨lines, e, hl, ?_⟩
  intro l hl'
  obtain ⟨i, hi'⟩ := List.mem_iff_getElem?.1 hl'
  have hil : i < head.length := by rw [← hl]; exact (List.getElem?_eq_some_iff.1 hi').1
  obtain ⟨y, hy⟩ : ∃ y, head[i]? = some y := ⟨_, List.getElem?_eq_getElem hil⟩
  obtain ⟨x, hx⟩ : ∃ x, OutArc firstOut x i := by
    have hv := visits_csr h
    have hm : i ∈ (visits firstOut (firstOut.length - 1)).map Prod.snd := by rw [hv, List.mem_range]; exact hil
    obtain ⟨p, hp, rfl⟩ := List.mem_map.1 hm
    exact ⟨p.1, mem_visits.1 hp⟩
  obtain ⟨x1, y1, x2, y2, r1, r2, r3, r4, hi2⟩ := hline x y i hx hy
  rw [hi'] at hi2
  cases hi2
  exact ⟨_, _, by rw [hnan r2, hnan r4]⟩

/-! ### The top of the picture -/

/-- 14316562 / 2^18, about 54.6. -/
noncomputable def topLatitude : ℝ := (14316562 : ℕ) * 2 ^ (-18 : ℤ)

theorem topLatitude_binary : IsBinary 24 (-126) 128 topLatitude := by
  refine ⟨14316562, -18, by norm_num, by norm_num, rfl, ?_⟩
  unfold topLatitude
  norm_num

theorem round_top : float32.round topLatitude = topLatitude := float32.round_exact (by decide) (by decide) (by decide)

theorem round_nat {n : ℕ} (h : n < 2 ^ 24) : float32.round n = n := by
  have := float32.round_exact (by decide) (n := n) (e := 0) h (by decide)
  simpa using this

theorem round_top_300 : float32.round (topLatitude * 300) = 4294968832 / 262144 := by
  rw [float32.round_grid (by decide) (j := 14) (by decide) (by unfold topLatitude; positivity) (Or.inl (by unfold topLatitude; norm_num))
    (by unfold topLatitude; norm_num)]
  have : roundEven (topLatitude * 300 / 2 ^ ((14 : ℤ) + 1 - float32.bits)) = 8388611 := by
    rw [roundEven_iff]
    left
    show |topLatitude * 300 / 2 ^ ((14 : ℤ) + 1 - ((24 : ℕ) : ℤ)) - _| < _
    unfold topLatitude
    rw [abs_lt]
    constructor <;> norm_num
  rw [this]
  show _ * (2 : ℝ) ^ ((14 : ℤ) + 1 - ((24 : ℕ) : ℤ)) = _
  norm_num

theorem round_quotient : float32.round (4294968832 / 262144 / topLatitude) = 300 + 1 / 32768 := by
  rw [float32.round_grid (by decide) (j := 8) (by decide) (by unfold topLatitude; positivity) (Or.inl (by unfold topLatitude; norm_num))
    (by unfold topLatitude; norm_num)]
  have : roundEven (4294968832 / 262144 / topLatitude / 2 ^ ((8 : ℤ) + 1 - float32.bits)) = 9830401 := by
    rw [roundEven_iff]
    left
    show |4294968832 / 262144 / topLatitude / 2 ^ ((8 : ℤ) + 1 - ((24 : ℕ) : ℤ)) - _| < _
    unfold topLatitude
    rw [abs_lt]
    constructor <;> norm_num
  rw [this]
  show _ * (2 : ℝ) ^ ((8 : ℤ) + 1 - ((24 : ℕ) : ℤ)) = _
  norm_num

theorem sub_value {a b : Bool} {m k d : ℝ} (h : (FloatValue.finite a m).value - (FloatValue.finite b k).value = d) (hd : d ≠ 0) (hr : float32.round |d| = |d|)
    (hs : |d| < 10 ^ 38) : float32.sub (.finite a m) (.finite b k) = .finite (decide (d < 0)) |d| := by
  unfold FloatType.sub
  simp only [h]
  rw [if_neg hd, result_finite (by rw [hr]; exact hs), hr]

/-- The node with the largest latitude is drawn at the height -0.0000305, outside of the picture. -/
theorem top_text : printDefault (float32.sub float300 (float32.div (float32.mul (float32.sub (.finite false topLatitude) (.finite false 0)) float300)
    (float32.sub (.finite false topLatitude) (.finite false 0)))) = "-3.05176e-05".toList := by
  have hpos : 0 < topLatitude := by unfold topLatitude; positivity
  have e1 : float32.sub (.finite false topLatitude) (.finite false 0) = .finite false topLatitude := by
    have := sub_value (a := false) (b := false) (m := topLatitude) (k := 0) (d := topLatitude) (by simp [FloatValue.value]) hpos.ne'
      (by rw [abs_of_pos hpos, round_top]) (by rw [abs_of_pos hpos]; unfold topLatitude; norm_num)
    rw [this, abs_of_pos hpos]
    congr
    simpa using hpos.le
  have e2 : float32.mul (.finite false topLatitude) float300 = .finite false (4294968832 / 262144) := by
    show float32.result (false != false) (topLatitude * 300) = _
    rw [result_finite (by rw [round_top_300]; norm_num), round_top_300]
    rfl
  have e3 : float32.div (.finite false (4294968832 / 262144)) (.finite false topLatitude) = .finite false (300 + 1 / 32768) := by
    show (if topLatitude = 0 then _ else float32.result (false != false) (4294968832 / 262144 / topLatitude)) = _
    rw [if_neg hpos.ne', result_finite (by rw [round_quotient]; norm_num), round_quotient]
    rfl
  have ea : |(-(1 / 32768) : ℝ)| = 1 / 32768 := by rw [abs_neg, abs_of_pos (by norm_num)]
  have e4 : float32.sub float300 (.finite false (300 + 1 / 32768)) = .finite true (1 / 32768) := by
    have hr : float32.round (1 / 32768) = 1 / 32768 := by
      have := float32.round_exact (by decide) (n := 1) (e := -15) (by decide) (by decide)
      have e : ((1 : ℕ) : ℝ) * 2 ^ (-15 : ℤ) = 1 / 32768 := by norm_num
      rwa [e] at this
    have := sub_value (a := false) (b := false) (m := 300) (k := 300 + 1 / 32768) (d := -(1 / 32768)) (by norm_num [FloatValue.value]) (by norm_num)
      (by rw [ea, hr]) (by rw [ea]; norm_num)
    unfold float300
    rw [this, ea]
    congr
    norm_num
  rw [e1, e2, e3, e4]
  have hlog : Int.log 10 (1 / 32768 : ℝ) = -5 := by
    apply le_antisymm
    · have := (Int.lt_zpow_iff_log_lt (b := 10) (r := (1 / 32768 : ℝ)) (by norm_num) (by norm_num) (x := -4)).1 (by norm_num)
      omega
    · exact (Int.zpow_le_iff_le_log (b := 10) (r := (1 / 32768 : ℝ)) (by norm_num) (by norm_num)).1 (by norm_num)
  have hs : sigDigits 6 (1 / 32768) = (305176, -5) := by
    have hr : roundEven ((1 / 32768 : ℝ) / 10 ^ (Int.log 10 (1 / 32768 : ℝ) + 1 - ((6 : ℕ) : ℤ))) = 305176 := by
      rw [hlog, roundEven_iff]
      left
      rw [abs_lt]
      constructor <;> norm_num
    unfold sigDigits
    simp only [hr]
    rw [hlog]
    rfl
  show printSign true ++ printMag 6 (1 / 32768) = _
  unfold printMag
  rw [if_neg (by norm_num), hs]
  decide

theorem topGraph : IsCSR 2 [0, 1, 1] [1] := (csr_iff rfl).2 (by decide)

theorem top_coordinates : FloatCoordinates [.finite false 0, .finite false topLatitude] := by
  intro x hx
  rcases List.mem_cons.1 hx with rfl | hx
  · exact ⟨false, 0, rfl, ⟨0, 0, by norm_num, by norm_num, by norm_num, by positivity⟩, by positivity⟩
  · rcases List.mem_cons.1 hx with rfl | hx
    · exact ⟨false, _, rfl, topLatitude_binary, by unfold topLatitude; norm_num⟩
    · cases hx

theorem top_different : ∃ a ∈ [FloatValue.finite false 0, .finite false topLatitude], ∃ b ∈ [FloatValue.finite false 0, .finite false topLatitude],
    a.value ≠ b.value := by
  refine ⟨_, List.mem_cons_self .., _, List.mem_cons_of_mem _ (List.mem_cons_self ..), ?_⟩
  have : (0 : ℝ) < topLatitude := by unfold topLatitude; positivity
  simpa [FloatValue.value] using this.ne

/-- Finding: the picture goes from 0 to 300, but because of rounding a node can be drawn above it. -/
theorem C91_outside_violated :
    ∃ x1 y1 x2, toolSvgText [0, 1, 1] [1] [.finite false 0, .finite false topLatitude] [.finite false 0, .finite false topLatitude] =
      some (svgDocument [svgLineText x1 y1 x2 "-3.05176e-05".toList]) := by
  have hpos : 0 < topLatitude := by unfold topLatitude; positivity
  obtain ⟨lo, hi, hlo, hhi, hbd, e1⟩ := svgScale_eq (v := [.finite false 0, .finite false topLatitude]) (by simp) (by
    intro x hx
    obtain ⟨neg, m, rfl, _⟩ := top_coordinates x hx
    trivial)
  have b1 := hbd _ (List.mem_cons_self ..)
  have b2 := hbd _ (List.mem_cons_of_mem _ (List.mem_cons_self ..))
  have v0 : (FloatValue.finite false 0).value = 0 := by simp [FloatValue.value]
  have v1 : (FloatValue.finite false topLatitude).value = topLatitude := by simp [FloatValue.value]
  rw [v0] at b1
  rw [v1] at b2
  have elo : lo = .finite false 0 := by
    rcases List.mem_cons.1 hlo with rfl | h
    · rfl
    · rw [List.mem_singleton] at h
      subst h
      rw [v1] at b1
      linarith [b1.1]
  have ehi : hi = .finite false topLatitude := by
    rcases List.mem_cons.1 hhi with rfl | h
    · rw [v0] at b2
      linarith [b2.2]
    · exact List.mem_singleton.1 h
  subst elo ehi
  obtain ⟨lines, e, hl, hline⟩ := toolSvgText_ok topGraph e1 e1 (by simp) (by simp)
  obtain ⟨x1, y1, x2, y2, r1, r2, r3, r4, hi'⟩ := hline 0 1 0 ⟨0, 1, rfl, rfl, by decide, by decide⟩ rfl
  cases r4
  rw [top_text] at hi'
  match lines, hl, hi' with
  | [l], _, hi' =>
    rw [List.getElem?_cons_zero, Option.some.injEq] at hi'
    exact ⟨_, _, _, by rw [e, hi']⟩

/-- The hypotheses of `C91_file_partial` hold for this graph. -/
example : ∃ lines, toolSvgText [0, 1, 1] [1] [.finite false 0, .finite false topLatitude] [.finite false 0, .finite false topLatitude] =
    some (svgDocument lines) ∧ lines.length = 1 := by
  obtain ⟨lines, e, hl, _⟩ := C91_file_partial 2 [0, 1, 1] [1] _ _ topGraph (by simp) (by simp) top_coordinates top_coordinates top_different top_different
  exact ⟨lines, e, hl⟩

/-- The hypotheses of `C91_same_latitude_not_a_number` hold if both nodes have the latitude 0. -/
example : ∃ lines, toolSvgText [0, 1, 1] [1] [.finite false 0, .finite true 0] [.finite false 0, .finite false topLatitude] = some (svgDocument lines) ∧
    ∀ l ∈ lines, ∃ x1 x2, l = svgLineText x1 ['-', 'n', 'a', 'n'] x2 ['-', 'n', 'a', 'n'] := by
  have h0 : IsBinary 24 (-126) 128 0 := ⟨0, 0, by norm_num, by norm_num, by norm_num, by positivity⟩
  obtain ⟨lines, e, _, h⟩ := C91_same_latitude_not_a_number 2 [0, 1, 1] [1] [.finite false 0, .finite true 0] _ topGraph (by simp) (by simp)
    (by
      intro x hx
      rcases List.mem_cons.1 hx with rfl | hx
      · exact ⟨_, _, rfl, h0, by positivity⟩
      · rw [List.mem_singleton] at hx
        exact ⟨_, _, hx, h0, by positivity⟩) top_coordinates (by simp) (by simp)
    (by
      have hv : ∀ x ∈ [FloatValue.finite false 0, .finite true 0], x.value = 0 := by
        intro x hx
        rcases List.mem_cons.1 hx with rfl | hx
        · simp [FloatValue.value]
        · rw [List.mem_singleton] at hx
          subst hx
          simp [FloatValue.value]
      exact fun a ha b hb => (hv a ha).trans (hv b hb).symm)
  exact ⟨lines, e, h⟩

end RK.Props
