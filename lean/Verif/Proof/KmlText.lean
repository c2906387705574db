import Verif.Model.KmlText
import Verif.Spec.Kml
import Verif.Proof.SvgText
/-! # Routes as KML documents: proofs -/
namespace RK
open Spec Ieee

/-- Different numbers with at most 24 bits have a distance of at least 2^-24 times their size. -/
theorem float_distance {n k : ℕ} {e f : ℤ} (hn : n < 2 ^ 24) (hk : k < 2 ^ 24) (hne : (k : ℝ) * 2 ^ f ≠ n * 2 ^ e) :
    (n : ℝ) * 2 ^ e * (1 / 16777216) ≤ |(k : ℝ) * 2 ^ f - n * 2 ^ e| := by
  have hnR : (n : ℝ) ≤ 16777216 := by exact_mod_cast hn.le
  have one : ∀ z : ℤ, z ≠ 0 → (1 : ℝ) ≤ |(z : ℝ)| := by
    intro z hz
    exact_mod_cast Int.one_le_abs hz
  rcases le_total e f with hef | hef
  · obtain ⟨j, rfl⟩ : ∃ j : ℕ, f = e + j := ⟨(f - e).toNat, by omega⟩
    have he : (0 : ℝ) < 2 ^ e := by positivity
    have e1 : (k : ℝ) * 2 ^ (e + j) - n * 2 ^ e = (((k : ℤ) * 2 ^ j - n : ℤ) : ℝ) * 2 ^ e := by
      rw [zpow_add₀ (by norm_num), zpow_natCast]
      push_cast
      ring
    have hz : (k : ℤ) * 2 ^ j - n ≠ 0 := by
      intro h0
      rw [h0, Int.cast_zero, zero_mul, sub_eq_zero] at e1
      exact hne e1
    rw [e1, abs_mul, abs_of_pos he]
    have h1 := mul_le_mul_of_nonneg_right (one _ hz) he.le
    have h2 := mul_le_mul_of_nonneg_right hnR he.le
    linarith
  · obtain ⟨j, rfl⟩ : ∃ j : ℕ, e = f + j := ⟨(e - f).toNat, by omega⟩
    have hf : (0 : ℝ) < 2 ^ f := by positivity
    have e1 : (n : ℝ) * 2 ^ (f + j) = ((n * 2 ^ j : ℕ) : ℝ) * 2 ^ f := by
      rw [zpow_add₀ (by norm_num), zpow_natCast]
      push_cast
      ring
    rw [e1] at hne ⊢
    generalize n * 2 ^ j = N at *
    have hz : (k : ℤ) - N ≠ 0 := by
      intro h0
      have : k = N := by omega
      rw [this] at hne
      exact hne rfl
    rw [← sub_mul, abs_mul, abs_of_pos hf]
    have e2 : (N : ℝ) * 2 ^ f * (1 / 16777216) = N * (1 / 16777216) * 2 ^ f := by ring
    rw [e2]
    refine mul_le_mul_of_nonneg_right ?_ hf.le
    rcases le_or_gt N 16777216 with hN | hN
    · have h1 := one _ hz
      push_cast at h1
      have : (N : ℝ) ≤ 16777216 := by exact_mod_cast hN
      linarith
    · have h1 : (16777216 : ℝ) < N := by exact_mod_cast hN
      have h2 : (k : ℝ) + 1 ≤ 16777216 := by exact_mod_cast hk
      rw [abs_of_neg (by linarith)]
      linarith

theorem binary_distance {m y : ℝ} (hm : IsBinary 24 (-126) 128 m) (hy : IsBinary 24 (-126) 128 |y|) (hne : y ≠ m) :
    m * (1 / 16777216) ≤ |y - m| := by
  have hm0 : 0 ≤ m := by
    obtain ⟨n, e, _, _, rfl, _⟩ := hm
    positivity
  rcases le_or_gt 0 y with h | h
  · rw [abs_of_nonneg h] at hy
    obtain ⟨n, e, hn, _, rfl, _⟩ := hm
    obtain ⟨k, f, hk, _, rfl, _⟩ := hy
    exact float_distance hn hk hne
  · rw [abs_of_neg (by linarith)]
    linarith

/-- Ten digits identify a number of type `float`. -/
theorem identifies_printTen {neg : Bool} {m : ℝ} (hm : IsBinary 24 (-126) 128 m) :
    IdentifiesFloat (printTen (.finite neg m)) (FloatValue.finite neg m).value := by
  have hm0 : 0 ≤ m := by
    obtain ⟨n, e, _, _, rfl, _⟩ := hm
    positivity
  have h1 := denotes_printMag (p := 10) (by norm_num) (neg := neg) hm0
  refine ⟨_, h1, ?_⟩
  have key : ∀ y, IsBinary 24 (-126) 128 |y| → y ≠ m → |printed 10 m - m| < |printed 10 m - y| := by
    intro y hy hne
    have h2 := binary_distance hm hy hne
    rcases hm0.eq_or_lt with h0 | h0
    · rw [← h0, printed_zero, sub_zero, zero_sub, abs_neg, abs_zero, abs_pos]
      rwa [h0]
    · have h3 := (sigDigits_spec (p := 10) (by norm_num) h0).2.2.1
      rw [show (10 : ℝ) ^ (1 - ((10 : ℕ) : ℤ)) = 1 / 1000000000 by norm_num] at h3
      have h4 : |y - m| ≤ |printed 10 m - m| + |printed 10 m - y| := by
        have := abs_sub_le y (printed 10 m) m
        rw [abs_sub_comm y (printed 10 m)] at this
        linarith
      linarith
  intro y hy hne
  cases neg with
  | false =>
    have ev : (FloatValue.finite false m).value = m := by simp [FloatValue.value]
    rw [ev] at hne ⊢
    simpa using key y hy hne
  | true =>
    have ev : (FloatValue.finite true m).value = -m := by simp [FloatValue.value]
    rw [ev] at hne ⊢
    have h := key (-y) (by rwa [abs_neg]) (by intro h; exact hne (by linarith))
    simp only [if_true]
    rw [show -1 * printed 10 m - -m = -(printed 10 m - m) by ring, abs_neg, show -1 * printed 10 m - y = -(printed 10 m - -y) by ring, abs_neg]
    exact h

theorem kmlText_eq (doc : PathDocument FloatValue) :
    kmlText doc = kmlDocument (printTen doc.source.1, printTen doc.source.2) (printTen doc.target.1, printTen doc.target.2) doc.distance
      (doc.line.map fun p => (printTen p.1, printTen p.2)) := by
  have ec : ",".toList = [','] := by decide
  have ek : (fun p : FloatValue × FloatValue => "\t\t\t\t".toList ++ printTen p.1 ++ [','] ++ printTen p.2 ++ ",0\n".toList) = kmlPoint := rfl
  unfold kmlText kmlDocument printNat
  rw [List.flatMap_map, ec]
  simp only [String.toList_append]
  rw [ek]
  have s1 : "\t<Placemark>\n\t\t<name>Source</name>\n\t\t<Point><coordinates>".toList =
    "\t<Placemark>\n".toList ++ ("\t\t<name>Source</name>\n".toList ++ "\t\t<Point><coordinates>".toList) := by decide
  have s2 : "\t<Placemark>\n\t\t<name>Target</name>\n\t\t<Point><coordinates>".toList =
    "\t<Placemark>\n".toList ++ ("\t\t<name>Target</name>\n".toList ++ "\t\t<Point><coordinates>".toList) := by decide
  have s3 : ",0</coordinates></Point>\n\t</Placemark>\n".toList = ",0</coordinates></Point>\n".toList ++ "\t</Placemark>\n".toList := by decide
  have s4 : "\t<Placemark>\n\t\t<name>Path of length ".toList = "\t<Placemark>\n".toList ++ "\t\t<name>Path of length ".toList := by decide
  have s5 : " meter</name>\n\t\t<LineString>\n\t\t\t<coordinates>\n".toList =
    " meter</name>\n".toList ++ ("\t\t<LineString>\n".toList ++ "\t\t\t<coordinates>\n".toList) := by decide
  have s6 : "\t\t\t</coordinates>\n\t\t</LineString>\n\t</Placemark>\n".toList =
    "\t\t\t</coordinates>\n".toList ++ ("\t\t</LineString>\n".toList ++ "\t</Placemark>\n".toList) := by decide
  have s7 : "</kml>\n".toList = "</kml>".toList ++ ['\n'] := by decide
  rw [s1, s2, s3, s4, s5, s6, s7]
  simp only [List.append_assoc]

end RK
