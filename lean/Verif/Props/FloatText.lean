import Verif.Proof.FloatVector
/-! # C90: vectors of floating point numbers as text -/
namespace RK.Props
open RK Ieee _root_.Spec

/-- `y` is the same kind of number as `x`, with the same sign, and differs from it by at most `r` times its absolute value plus `a`. -/
def NearFloat (r a : ℝ) : FloatValue → FloatValue → Prop
  | .finite neg m, .finite neg' m' => neg' = neg ∧ |m' - m| ≤ r * m + a
  | .infinity neg, .infinity neg' => neg' = neg
  | .nan neg, .nan neg' => neg' = neg
  | _, _ => False

theorem tiny32 : float32.tiny / 2 = 2 ^ (-150 : ℤ) := by
  show (2 : ℝ) ^ ((-126 : ℤ) + 1 - ((24 : ℕ) : ℤ)) / 2 = _
  rw [show ((-126 : ℤ) + 1 - ((24 : ℕ) : ℤ)) = -150 + 1 by norm_num, zpow_add_one₀ (by norm_num)]
  ring

theorem tiny64 : float64.tiny / 2 = 2 ^ (-1075 : ℤ) := by
  show (2 : ℝ) ^ ((-1022 : ℤ) + 1 - ((53 : ℕ) : ℤ)) / 2 = _
  rw [show ((-1022 : ℤ) + 1 - ((53 : ℕ) : ℤ)) = -1075 + 1 by norm_num, zpow_add_one₀ (by norm_num)]
  ring

theorem round_trip_near {T : FloatType} (hT : T.Moderate) {r M : ℝ}
    (hr : (10 : ℝ) ^ (-(T.digits10 : ℤ)) / 2 + 2 ^ (-64 : ℤ) * 2 + 2 ^ (-(T.bits : ℤ)) * (1 + 10 ^ (-(T.digits10 : ℤ)) / 2) * (1 + 2 ^ (-64 : ℤ)) ≤ r)
    (hr0 : 0 ≤ r) (hM : (1 + r) * M + T.tiny / 2 < 2 ^ T.emax) (v : List FloatValue)
    (hv : ∀ neg m, .finite neg m ∈ v → IsBinary T.bits T.emin T.emax m ∧ m ≤ M) :
    ∃ w, encodeFloats T (decodeFloats T v) = .ok w ∧ List.Forall₂ (NearFloat r (T.tiny / 2)) v w := by
  have hsane : ∀ x ∈ v, x.Sane := by
    intro x hx
    cases x with
    | finite neg m => exact (isBinary_bounds hT (hv neg m hx).1).2.2
    | infinity neg => trivial
    | nan neg => trivial
  have key : ∀ x ∈ v, ∃ y, (stold (printFloat T x) >>= narrow T) = .ok y ∧ NearFloat r (T.tiny / 2) x y := by
    intro x hx
    cases x with
    | finite neg m =>
      obtain ⟨h1, h2⟩ := hv neg m hx
      have h3 := again_near hT h1 hr
      refine ⟨_, again_of hT h1 ?_, rfl, h3⟩
      have h4 := (abs_le.1 h3).2
      have h5 : (1 + r) * m ≤ (1 + r) * M := mul_le_mul_of_nonneg_left h2 (by linarith)
      linarith
    | infinity neg => exact ⟨_, special_again (by simp), rfl⟩
    | nan neg => exact ⟨_, special_again (by simp), rfl⟩
  have all : ∀ u : List FloatValue, (∀ x ∈ u, x ∈ v) → ∃ w, List.Forall₂ (fun l y => (stold l >>= narrow T) = .ok y) (u.map (printFloat T)) w ∧
      List.Forall₂ (NearFloat r (T.tiny / 2)) u w := by
    intro u
    induction u with
    | nil => exact fun _ => ⟨[], .nil, .nil⟩
    | cons x u ih =>
      intro hu
      obtain ⟨y, e1, e2⟩ := key x (hu x (List.mem_cons_self ..))
      obtain ⟨w, h1, h2⟩ := ih fun x hx => hu x (List.mem_cons_of_mem _ hx)
      exact ⟨y :: w, .cons e1 h1, .cons e2 h2⟩
  obtain ⟨w, h1, h2⟩ := all v fun x hx => hx
  refine ⟨w, ?_, h2⟩
  unfold encodeFloats
  rw [getLines_decodeFloats hsane, encodeFloatLines_ok h1, List.nil_append]

/-- **C90**, `float32`: after decoding and encoding every number up to 3.4 * 10^38 differs from the original one by at most 0.0000006 times its absolute value, plus half
of the distance of the subnormal numbers; signs (also those of zeros), infinities and not a number come back. -/
theorem C90_float32_round_trip_partial (v : List FloatValue) (hv : ∀ neg m, .finite neg m ∈ v → IsBinary 24 (-126) 128 m ∧ m ≤ 3.4 * 10 ^ 38) :
    ∃ w, encodeFloats float32 (decodeFloats float32 v) = .ok w ∧ List.Forall₂ (NearFloat (6 / 10 ^ 7) (2 ^ (-150 : ℤ))) v w := by
  have ht := tiny32
  have h := round_trip_near (T := float32) float32_moderate (r := 6 / 10 ^ 7) (M := 3.4 * 10 ^ 38)
    (by show (10 : ℝ) ^ (-((6 : ℕ) : ℤ)) / 2 + 2 ^ (-64 : ℤ) * 2 + 2 ^ (-((24 : ℕ) : ℤ)) * (1 + 10 ^ (-((6 : ℕ) : ℤ)) / 2) * (1 + 2 ^ (-64 : ℤ)) ≤ _
        norm_num)
    (by norm_num) (by rw [ht]; show _ < (2 : ℝ) ^ (128 : ℤ); norm_num) v hv
  rwa [ht] at h

/-- **C90**, `float64`: the same with 0.0000000000000007 times the absolute value, up to 1.797 * 10^308. -/
theorem C90_float64_round_trip_partial (v : List FloatValue) (hv : ∀ neg m, .finite neg m ∈ v → IsBinary 53 (-1022) 1024 m ∧ m ≤ 1.797 * 10 ^ 308) :
    ∃ w, encodeFloats float64 (decodeFloats float64 v) = .ok w ∧ List.Forall₂ (NearFloat (7 / 10 ^ 16) (2 ^ (-1075 : ℤ))) v w := by
  have ht := tiny64
  have h := round_trip_near (T := float64) float64_moderate (r := 7 / 10 ^ 16) (M := 1.797 * 10 ^ 308)
    (by show (10 : ℝ) ^ (-((15 : ℕ) : ℤ)) / 2 + 2 ^ (-64 : ℤ) * 2 + 2 ^ (-((53 : ℕ) : ℤ)) * (1 + 10 ^ (-((15 : ℕ) : ℤ)) / 2) * (1 + 2 ^ (-64 : ℤ)) ≤ _
        norm_num)
    (by norm_num)
    (by
      rw [ht]
      show _ < (2 : ℝ) ^ (1024 : ℤ)
      have h1 : (2 : ℝ) ^ (-1075 : ℤ) ≤ 2 ^ (0 : ℤ) := zpow_le_zpow_right₀ (by norm_num) (by norm_num)
      have h2 : (2 : ℝ) ^ (1024 : ℤ) = (2 ^ 256) ^ 4 := by rw [← pow_mul]; rfl
      have h3 : (10 : ℝ) ^ 308 = (10 ^ 154) ^ 2 := by rw [← pow_mul]
      rw [h2, h3]
      refine lt_of_le_of_lt (add_le_add_right h1 _) ?_
      norm_num) v hv
  rwa [ht] at h

theorem round_trip_each {T : FloatType} (v : List FloatValue) (hs : ∀ x ∈ v, x.Sane) (h : ∀ x ∈ v, (stold (printFloat T x) >>= narrow T) = .ok x) :
    encodeFloats T (decodeFloats T v) = .ok v := by
  have all : ∀ u : List FloatValue, (∀ x ∈ u, x ∈ v) → List.Forall₂ (fun l y => (stold l >>= narrow T) = .ok y) (u.map (printFloat T)) u := by
    intro u
    induction u with
    | nil => exact fun _ => .nil
    | cons x u ih => exact fun hu => .cons (h x (hu x (List.mem_cons_self ..))) (ih fun x hx => hu x (List.mem_cons_of_mem _ hx))
  unfold encodeFloats
  rw [getLines_decodeFloats hs, encodeFloatLines_ok (all v fun x hx => hx), List.nil_append]

theorem round_trip_decimal {T : FloatType} (hT : T.Moderate) (v : List FloatValue)
    (hv : ∀ neg m, .finite neg m ∈ v → IsBinary T.bits T.emin T.emax m ∧ ∃ (n : ℕ) (k : ℤ), n < 10 ^ (T.digits10 + 1) ∧ m = n * 10 ^ k) :
    encodeFloats T (decodeFloats T v) = .ok v := by
  refine round_trip_each v ?_ ?_
  · intro x hx
    cases x with
    | finite neg m => exact (isBinary_bounds hT (hv neg m hx).1).2.2
    | infinity neg => trivial
    | nan neg => trivial
  · intro x hx
    cases x with
    | finite neg m =>
      obtain ⟨h1, n, k, hn, he⟩ := hv neg m hx
      exact again_exact hT h1 hn he
    | infinity neg => exact special_again (by simp)
    | nan neg => exact special_again (by simp)

/-- **C90**, `float32`: numbers with at most seven significant decimal digits, for example whole numbers below ten million, come back exactly. -/
theorem C90_float32_decimal (v : List FloatValue)
    (hv : ∀ neg m, .finite neg m ∈ v → IsBinary 24 (-126) 128 m ∧ ∃ (n : ℕ) (k : ℤ), n < 10 ^ 7 ∧ m = n * 10 ^ k) :
    encodeFloats float32 (decodeFloats float32 v) = .ok v := round_trip_decimal float32_moderate v hv

/-- **C90**, `float64`: numbers with at most 16 significant decimal digits come back exactly. -/
theorem C90_float64_decimal (v : List FloatValue)
    (hv : ∀ neg m, .finite neg m ∈ v → IsBinary 53 (-1022) 1024 m ∧ ∃ (n : ℕ) (k : ℤ), n < 10 ^ 16 ∧ m = n * 10 ^ k) :
    encodeFloats float64 (decodeFloats float64 v) = .ok v := round_trip_decimal float64_moderate v hv

theorem text_again {T : FloatType} (hT : T.Moderate) {lo hi : ℤ}
    (hp : ∀ k : ℤ, lo ≤ k → k ≤ hi → ∃ (n : ℕ) (j : ℤ), n < 10 ^ (T.digits10 + 1) ∧ (2 : ℝ) ^ k = n * 10 ^ j)
    (text : List Char) (lines : List (List Char)) (hl : LinesOf lines text)
    (hd : ∀ l ∈ lines, ∃ neg n places, IsPlainDecimal l neg n places ∧ n < 10 ^ (T.digits10 + 1)) (v : List FloatValue) (hv : encodeFloats T text = .ok v)
    (hm : ∀ neg m, .finite neg m ∈ v → m = 0 ∨ (2 ^ T.emin ≤ m ∧ ∀ k : ℤ, m = 2 ^ k → lo ≤ k ∧ k ≤ hi)) :
    encodeFloats T (decodeFloats T v) = .ok v := by
  unfold encodeFloats at hv
  rw [getLines_of hl] at hv
  obtain ⟨ys, e, hf⟩ := encodeFloatLines_inv hv
  rw [List.nil_append] at e
  subst e
  have key : ∀ x ∈ v, ∃ neg, ∃ n : ℕ, ∃ k : ℤ, n < 10 ^ (T.digits10 + 1) ∧ x = .finite neg (T.round (longDouble.round (n * 10 ^ k))) ∧
      T.round (longDouble.round (n * 10 ^ k)) < 2 ^ T.emax := by
    intro x hx
    obtain ⟨i, hi, rfl⟩ := List.getElem_of_mem hx
    have hlen := hf.length_eq
    have h1 := hf.get (i := i) (by omega) hi
    obtain ⟨neg, n, places, h2, h3⟩ := hd _ (List.get_mem lines ⟨i, by omega⟩)
    obtain ⟨h4, h5⟩ := stored_plain h2 h1
    exact ⟨neg, n, _, h3, h4, h5⟩
  refine round_trip_each v ?_ ?_
  · intro x hx
    obtain ⟨neg, n, k, _, rfl, _⟩ := key x hx
    exact T.round_nonneg (longDouble.round_nonneg (by positivity))
  · intro x hx
    obtain ⟨neg, n, k, hn, rfl, hlt⟩ := key x hx
    have hb := round_isBinary hT.bits_pos (longDouble.round_nonneg (by positivity)) hlt
    rcases hm neg _ hx with h0 | ⟨h1, h2⟩
    · exact again_exact hT hb (n := 0) (k := 0) (by positivity) (by rw [h0]; simp)
    · by_cases hpow : ∃ i : ℤ, T.round (longDouble.round (n * 10 ^ k)) = 2 ^ i
      · obtain ⟨i, hi⟩ := hpow
        obtain ⟨a, j, h3, h4⟩ := hp i (h2 i hi).1 (h2 i hi).2
        exact again_exact hT hb h3 (hi.trans h4)
      · exact again_stored hT hb h1 (fun i hi => hpow ⟨i, hi⟩) hn rfl

theorem power_decimal {P : ℕ} {lo hi : ℕ} (h1 : 5 ^ lo < 10 ^ P) (h2 : 2 ^ hi < 10 ^ P) (k : ℤ) (hk : -(lo : ℤ) ≤ k) (hk2 : k ≤ hi) :
    ∃ (n : ℕ) (j : ℤ), n < 10 ^ P ∧ (2 : ℝ) ^ k = n * 10 ^ j := by
  rcases le_or_gt 0 k with h | h
  · obtain ⟨i, rfl⟩ := Int.eq_ofNat_of_zero_le h
    exact ⟨2 ^ i, 0, lt_of_le_of_lt (Nat.pow_le_pow_right (by norm_num) (by omega)) h2, by simp⟩
  · obtain ⟨i, hi⟩ : ∃ i : ℕ, k = -(i : ℤ) := ⟨(-k).toNat, by omega⟩
    subst hi
    refine ⟨5 ^ i, -(i : ℤ), lt_of_le_of_lt (Nat.pow_le_pow_right (by norm_num) (by omega)) h1, ?_⟩
    rw [zpow_neg, zpow_neg, zpow_natCast, zpow_natCast]
    push_cast
    rw [show (10 : ℝ) = 5 * 2 by norm_num, mul_pow]
    field_simp

/-- **C90**, `float32`: what was encoded from decimal numbers with at most seven digits comes back exactly after decoding and encoding, unless it is a
subnormal number or a power of two outside of 2^-10, …, 2^23. -/
theorem C90_float32_text_again (text : List Char) (lines : List (List Char)) (hl : LinesOf lines text)
    (hd : ∀ l ∈ lines, ∃ neg digits places, IsPlainDecimal l neg digits places ∧ digits < 10 ^ 7) (v : List FloatValue) (hv : encodeFloats float32 text = .ok v)
    (hm : ∀ neg m, .finite neg m ∈ v → m = 0 ∨ (2 ^ (-126 : ℤ) ≤ m ∧ ∀ k : ℤ, m = 2 ^ k → -10 ≤ k ∧ k ≤ 23)) :
    encodeFloats float32 (decodeFloats float32 v) = .ok v :=
  text_again float32_moderate (fun k h1 h2 => power_decimal (P := 7) (lo := 10) (hi := 23) (by norm_num) (by norm_num) k h1 h2) text lines hl hd v hv hm

/-- **C90**, `float64`: the same for at most 16 digits and powers of two from 2^-22 to 2^53. -/
theorem C90_float64_text_again (text : List Char) (lines : List (List Char)) (hl : LinesOf lines text)
    (hd : ∀ l ∈ lines, ∃ neg digits places, IsPlainDecimal l neg digits places ∧ digits < 10 ^ 16) (v : List FloatValue) (hv : encodeFloats float64 text = .ok v)
    (hm : ∀ neg m, .finite neg m ∈ v → m = 0 ∨ (2 ^ (-1022 : ℤ) ≤ m ∧ ∀ k : ℤ, m = 2 ^ k → -22 ≤ k ∧ k ≤ 53)) :
    encodeFloats float64 (decodeFloats float64 v) = .ok v :=
  text_again float64_moderate (fun k h1 h2 => power_decimal (P := 16) (lo := 22) (hi := 53) (by norm_num) (by norm_num) k h1 h2) text lines hl hd v hv hm

theorem encode_plain {T : FloatType} (hb : 0 < T.bits) {r M : ℝ} (hr : 2 ^ (-64 : ℤ) + 2 ^ (-(T.bits : ℤ)) * (1 + 2 ^ (-64 : ℤ)) ≤ r) (hM : (1 + r) * M + T.tiny / 2 < 2 ^ T.emax)
    (hM2 : M ≤ 2 ^ (16300 : ℤ)) (text : List Char) (lines : List (List Char)) (hl : LinesOf lines text) (ns : List (Bool × ℕ × ℕ))
    (hd : List.Forall₂ (fun l n => IsPlainDecimal l n.1 n.2.1 n.2.2 ∧ n.2.2 ≤ 4000 ∧ (n.2.1 : ℝ) / 10 ^ n.2.2 ≤ M) lines ns) :
    ∃ v, encodeFloats T text = .ok v ∧ List.Forall₂ (fun (n : Bool × ℕ × ℕ) x => ∃ m, x = FloatValue.finite n.1 m ∧ IsBinary T.bits T.emin T.emax m ∧
      |m - (n.2.1 : ℝ) / 10 ^ n.2.2| ≤ r * ((n.2.1 : ℝ) / 10 ^ n.2.2) + T.tiny / 2) ns v := by
  have key : ∀ (l : List Char) (n : Bool × ℕ × ℕ), (IsPlainDecimal l n.1 n.2.1 n.2.2 ∧ n.2.2 ≤ 4000 ∧ (n.2.1 : ℝ) / 10 ^ n.2.2 ≤ M) →
      ∃ x, (stold l >>= narrow T) = .ok x ∧ ∃ m, x = FloatValue.finite n.1 m ∧ IsBinary T.bits T.emin T.emax m ∧
        |m - (n.2.1 : ℝ) / 10 ^ n.2.2| ≤ r * ((n.2.1 : ℝ) / 10 ^ n.2.2) + T.tiny / 2 := by
    rintro l ⟨neg, n, places⟩ ⟨h1, h2, h3⟩
    simp only at h1 h2 h3 ⊢
    have hz : (n : ℝ) / 10 ^ places = 0 ∨ (2 : ℝ) ^ (-16300 : ℤ) ≤ (n : ℝ) / 10 ^ places := by
      rcases Nat.eq_zero_or_pos n with rfl | hn
      · left; simp
      · right
        have h4 : (1 : ℝ) ≤ n := by exact_mod_cast hn
        have h5 : (10 : ℝ) ^ places ≤ 2 ^ 16300 := by
          calc (10 : ℝ) ^ places ≤ 10 ^ 4000 := pow_le_pow_right₀ (by norm_num) h2
            _ ≤ 16 ^ 4000 := pow_le_pow_left₀ (by norm_num) (by norm_num) _
            _ = 2 ^ 16000 := by rw [show (16 : ℝ) = 2 ^ 4 by norm_num, ← pow_mul]
            _ ≤ 2 ^ 16300 := pow_le_pow_right₀ (by norm_num) (by norm_num)
        rw [show (-16300 : ℤ) = -((16300 : ℕ) : ℤ) by norm_num, zpow_neg, zpow_natCast, ← one_div]
        have hp : (0 : ℝ) < 10 ^ places := by positivity
        have hq : (0 : ℝ) < 2 ^ 16300 := by positivity
        rw [div_le_div_iff₀ hq hp]
        generalize (2 : ℝ) ^ 16300 = A at *
        nlinarith
    obtain ⟨h4, h5⟩ := read_near (T := T) hz h3 hr hM
    have h6 := stold_of (v := (n : ℝ) / 10 ^ places) (scan_plain h1) (by rw [zpow_neg, zpow_natCast]; rfl) hz (h3.trans hM2)
    have h0 : 0 ≤ (n : ℝ) / 10 ^ places := by positivity
    refine ⟨_, ?_, _, rfl, round_isBinary hb (longDouble.round_nonneg h0) h5, h4⟩
    rw [h6, Res.ok_bind]
    exact if_neg (not_le.2 h5)
  have all : ∀ {ls : List (List Char)} {ns : List (Bool × ℕ × ℕ)},
      List.Forall₂ (fun l n => IsPlainDecimal l n.1 n.2.1 n.2.2 ∧ n.2.2 ≤ 4000 ∧ (n.2.1 : ℝ) / 10 ^ n.2.2 ≤ M) ls ns →
      ∃ v, List.Forall₂ (fun l y => (stold l >>= narrow T) = .ok y) ls v ∧ List.Forall₂ (fun (n : Bool × ℕ × ℕ) x => ∃ m, x = FloatValue.finite n.1 m ∧
        IsBinary T.bits T.emin T.emax m ∧ |m - (n.2.1 : ℝ) / 10 ^ n.2.2| ≤ r * ((n.2.1 : ℝ) / 10 ^ n.2.2) + T.tiny / 2) ns v := by
    intro ls ns h
    induction h with
    | nil => exact ⟨[], .nil, .nil⟩
    | cons h _ ih =>
      obtain ⟨x, h1, h2⟩ := key _ _ h
      obtain ⟨v, h3, h4⟩ := ih
      exact ⟨x :: v, .cons h1 h3, .cons h2 h4⟩
  obtain ⟨v, h1, h2⟩ := all hd
  refine ⟨v, ?_, h2⟩
  unfold encodeFloats
  rw [getLines_of hl, encodeFloatLines_ok h1, List.nil_append]

/-- **C90**, `float32`: decimal numbers up to 3.4 * 10^38, one per line, are encoded as numbers of type `float` with the right sign and an error of at most 0.00000006 times
the number plus 2^-150. -/
theorem C90_encode_float32 (text : List Char) (lines : List (List Char)) (hl : LinesOf lines text) (ns : List (Bool × ℕ × ℕ))
    (hd : List.Forall₂ (fun l n => IsPlainDecimal l n.1 n.2.1 n.2.2 ∧ n.2.2 ≤ 4000 ∧ (n.2.1 : ℝ) / 10 ^ n.2.2 ≤ 3.4 * 10 ^ 38) lines ns) :
    ∃ v, encodeFloats float32 text = .ok v ∧ List.Forall₂ (fun (n : Bool × ℕ × ℕ) x => ∃ m, x = FloatValue.finite n.1 m ∧ IsBinary 24 (-126) 128 m ∧
      |m - (n.2.1 : ℝ) / 10 ^ n.2.2| ≤ 0.00000006 * ((n.2.1 : ℝ) / 10 ^ n.2.2) + 2 ^ (-150 : ℤ)) ns v := by
  have h := encode_plain (T := float32) (by decide) (r := 0.00000006) (M := 3.4 * 10 ^ 38)
    (by show (2 : ℝ) ^ (-64 : ℤ) + 2 ^ (-((24 : ℕ) : ℤ)) * (1 + 2 ^ (-64 : ℤ)) ≤ _
        norm_num)
    (by rw [tiny32]; show _ < (2 : ℝ) ^ (128 : ℤ); norm_num)
    (le_trans (b := (2 : ℝ) ^ (200 : ℤ)) (by norm_num) (zpow_le_zpow_right₀ (by norm_num) (by norm_num))) text lines hl ns hd
  rw [tiny32] at h
  exact h

/-- **C90**, `float64`: the same up to 1.797 * 10^308 with an error of at most 1.2 * 10^-16 times the number plus 2^-1075. -/
theorem C90_encode_float64 (text : List Char) (lines : List (List Char)) (hl : LinesOf lines text) (ns : List (Bool × ℕ × ℕ))
    (hd : List.Forall₂ (fun l n => IsPlainDecimal l n.1 n.2.1 n.2.2 ∧ n.2.2 ≤ 4000 ∧ (n.2.1 : ℝ) / 10 ^ n.2.2 ≤ 1.797 * 10 ^ 308) lines ns) :
    ∃ v, encodeFloats float64 text = .ok v ∧ List.Forall₂ (fun (n : Bool × ℕ × ℕ) x => ∃ m, x = FloatValue.finite n.1 m ∧ IsBinary 53 (-1022) 1024 m ∧
      |m - (n.2.1 : ℝ) / 10 ^ n.2.2| ≤ 1.2 / 10 ^ 16 * ((n.2.1 : ℝ) / 10 ^ n.2.2) + 2 ^ (-1075 : ℤ)) ns v := by
  have h := encode_plain (T := float64) (by decide) (r := 1.2 / 10 ^ 16) (M := 1.797 * 10 ^ 308)
    (by show (2 : ℝ) ^ (-64 : ℤ) + 2 ^ (-((53 : ℕ) : ℤ)) * (1 + 2 ^ (-64 : ℤ)) ≤ _
        norm_num)
    (by
      rw [tiny64]
      show _ < (2 : ℝ) ^ (1024 : ℤ)
      have h1 : (2 : ℝ) ^ (-1075 : ℤ) ≤ 2 ^ (0 : ℤ) := zpow_le_zpow_right₀ (by norm_num) (by norm_num)
      have h2 : (2 : ℝ) ^ (1024 : ℤ) = (2 ^ 256) ^ 4 := by rw [← pow_mul]; rfl
      have h3 : (10 : ℝ) ^ 308 = (10 ^ 154) ^ 2 := by rw [← pow_mul]
      rw [h2, h3]
      refine lt_of_le_of_lt (add_le_add_right h1 _) ?_
      norm_num)
    (le_trans (b := (2 : ℝ) ^ (1024 : ℤ))
      (by
        have h2 : (2 : ℝ) ^ (1024 : ℤ) = (2 ^ 256) ^ 4 := by rw [← pow_mul]; rfl
        have h3 : (10 : ℝ) ^ 308 = (10 ^ 154) ^ 2 := by rw [← pow_mul]
        rw [h2, h3]
        norm_num) (zpow_le_zpow_right₀ (by norm_num) (by norm_num))) text lines hl ns hd
  rw [tiny64] at h
  exact h

/-- A text whose first line without a number comes after lines with decimal numbers in the range of the type is rejected. -/
theorem C90_encode_float_rejects (T : FloatType) (text : List Char) (pre rest : List (List Char)) (l : List Char) (h : LinesOf (pre ++ l :: rest) text) (hn : NoNumber l)
    (v : List FloatValue) (hp : encodeFloats T (pre.flatMap (· ++ ['\n'])) = .ok v) : encodeFloats T text = .error := by
  unfold encodeFloats at hp ⊢
  rw [getLines_of (ls := pre) ⟨fun l hl => h.1 l (List.mem_append_left _ hl), Or.inl rfl⟩] at hp
  rw [getLines_of h]
  have hs : stold l = .error := by
    unfold stold
    rw [scan_none hn]
  obtain ⟨ys, _, hf⟩ := encodeFloatLines_inv hp
  clear hp
  have all : ∀ {ls : List (List Char)} {ys : List FloatValue}, List.Forall₂ (fun l y => (stold l >>= narrow T) = .ok y) ls ys → ∀ acc,
      encodeFloatLines T acc (ls ++ l :: rest) = .error := by
    intro ls ys hf
    induction hf with
    | nil =>
      intro acc
      rw [List.nil_append]
      unfold encodeFloatLines
      rw [hs]
      rfl
    | cons h1 _ ih =>
      intro acc
      obtain ⟨x, e1, e2⟩ := Res.bind_eq_ok.1 h1
      rw [List.cons_append]
      unfold encodeFloatLines
      rw [e1, Res.ok_bind, e2, Res.ok_bind]
      exact ih _
  exact all hf []

/-! ### Findings -/

theorem sigDigits_value {p : Nat} {m : ℝ} {e : ℤ} {d : ℕ} (h1 : (10 : ℝ) ^ e ≤ m) (h2 : m < 10 ^ (e + 1)) (h3 : |m / 10 ^ (e + 1 - p) - d| < 1 / 2) (h4 : d ≠ 10 ^ p) :
    printed p m = d * 10 ^ (e + 1 - p) := by
  have hm : 0 < m := lt_of_lt_of_le (by positivity) h1
  have hlog : Int.log 10 m = e := by
    have a1 : ((10 : ℕ) : ℝ) ^ e ≤ m := by exact_mod_cast h1
    have a2 : m < ((10 : ℕ) : ℝ) ^ (e + 1) := by exact_mod_cast h2
    have b1 := (Int.zpow_le_iff_le_log (b := 10) (by norm_num) hm).1 a1
    have b2 := (Int.lt_zpow_iff_log_lt (b := 10) (by norm_num) hm).1 a2
    omega
  have hr : roundEven (m / 10 ^ (e + 1 - (p : ℤ))) = d := roundEven_eq (by exact_mod_cast h3)
  unfold printed sigDigits
  simp only [hlog, hr, Int.toNat_natCast]
  rw [if_neg h4]

/-- Finding: the `float` 16777216 is printed as 1.677722e+07 and comes back as 16777220. -/
theorem C90_float32_violated : IsBinary 24 (-126) 128 16777216 ∧
    encodeFloats float32 (decodeFloats float32 [.finite false 16777216]) = .ok [.finite false 16777220] := by
  have hb : IsBinary 24 (-126) 128 16777216 := ⟨1, 24, by norm_num, by norm_num, by norm_num, by norm_num⟩
  have hb2 : IsBinary 24 (-126) 128 16777220 := ⟨8388610, 1, by norm_num, by norm_num, by norm_num, by norm_num⟩
  have hp : printed 7 16777216 = 16777220 := by
    rw [sigDigits_value (e := 7) (d := 1677722) (by norm_num) (by norm_num) (by norm_num [abs_lt]) (by norm_num)]
    norm_num
  have hr : float32.round (longDouble.round (printed (float32.digits10 + 1) 16777216)) = 16777220 := by
    show float32.round (longDouble.round (printed 7 16777216)) = _
    rw [hp]
    exact round_binary (T := float32) float32_moderate hb2
  refine ⟨hb, ?_⟩
  have h1 := again_of (T := float32) float32_moderate (neg := false) hb (by rw [hr]; show (16777220 : ℝ) < 2 ^ (128 : ℤ); norm_num)
  rw [hr] at h1
  unfold encodeFloats
  rw [getLines_decodeFloats (by intro x hx; rw [List.mem_singleton.1 hx]; show (0 : ℝ) ≤ 16777216; norm_num), List.map_cons, List.map_nil,
    encodeFloatLines_ok (.cons h1 .nil), List.nil_append]

/-- Finding: the largest `double` is printed as 1.797693134862316e+308, which is too large: its conversion is undefined. -/
theorem C90_float64_largest_violated : IsBinary 53 (-1022) 1024 ((2 ^ 53 - 1) * 2 ^ 971) ∧
    encodeFloats float64 (decodeFloats float64 [.finite false ((2 ^ 53 - 1) * 2 ^ 971)]) = .ub := by
  have p971 : (2 : ℝ) ^ 971 = (2 ^ 256) ^ 3 * 2 ^ 203 := by rw [← pow_mul, ← pow_add]
  have p1024 : (2 : ℝ) ^ (1024 : ℤ) = (2 ^ 256) ^ 4 := by rw [← pow_mul]; rfl
  have p972 : (2 : ℝ) ^ (972 : ℤ) = (2 ^ 256) ^ 3 * 2 ^ 204 := by rw [← pow_mul, ← pow_add]; rfl
  have p293 : (10 : ℝ) ^ (293 : ℤ) = (10 ^ 146) ^ 2 * 10 := by rw [← pow_mul, ← pow_succ]; rfl
  have p308 : (10 : ℝ) ^ (308 : ℤ) = (10 ^ 154) ^ 2 := by rw [← pow_mul]; rfl
  have p309 : (10 : ℝ) ^ (309 : ℤ) = (10 ^ 154) ^ 2 * 10 := by rw [← pow_mul, ← pow_succ]; rfl
  have hb : IsBinary 53 (-1022) 1024 ((2 ^ 53 - 1) * 2 ^ 971) := by
    refine ⟨2 ^ 53 - 1, 971, by norm_num, by norm_num, ?_, ?_⟩
    · rw [show (971 : ℤ) = ((971 : ℕ) : ℤ) by norm_num, zpow_natCast]
      norm_num
    · rw [p1024, p971]; norm_num
  have hp : printed 16 ((2 ^ 53 - 1) * 2 ^ 971) = 1797693134862316 * 10 ^ (293 : ℤ) := by
    rw [sigDigits_value (e := 308) (d := 1797693134862316) (by rw [p308, p971]; norm_num) (by show _ < (10 : ℝ) ^ (309 : ℤ); rw [p309, p971]; norm_num) ?_ (by norm_num)]
    · norm_num
    · show |(2 ^ 53 - 1) * (2 : ℝ) ^ 971 / 10 ^ (293 : ℤ) - ((1797693134862316 : ℕ) : ℝ)| < 1 / 2
      rw [p971, p293, abs_lt]
      constructor <;> norm_num
  refine ⟨hb, ?_⟩
  have hbb := hb
  obtain ⟨h1, h2, h0⟩ := isBinary_bounds (T := float64) float64_moderate hbb
  have hst := stold_print (p := 16) (by norm_num) (neg := false) h1 h2
  set m : ℝ := (2 ^ 53 - 1) * 2 ^ 971 with hm
  have hz : (2 : ℝ) ^ (1024 : ℤ) ≤ longDouble.round (printed 16 m) ∧ longDouble.round (printed 16 m) < 2 ^ (1024 : ℤ) + 2 ^ (972 : ℤ) / 2 := by
    rw [hp]
    have h3 : (2 : ℝ) ^ longDouble.emin ≤ 1797693134862316 * 10 ^ (293 : ℤ) := by
      refine le_trans (b := (2 : ℝ) ^ (0 : ℤ)) (zpow_le_zpow_right₀ (by norm_num) (by decide)) ?_
      rw [p293]; norm_num
    have h4 := abs_le.1 (longDouble.round_near_normal h3)
    rw [show (-(longDouble.bits : ℤ)) = -64 from rfl, p293] at h4
    rw [p1024, p972, p293]
    generalize longDouble.round _ = z at *
    obtain ⟨h5, h6⟩ := h4
    norm_num at h5 h6 ⊢
    constructor <;> linarith
  have hr : float64.round (longDouble.round (printed 16 m)) = 2 ^ (1024 : ℤ) := by
    generalize longDouble.round (printed 16 m) = z at hz
    have h972 : (0 : ℝ) < 2 ^ (972 : ℤ) := by positivity
    have h1024 : (0 : ℝ) < 2 ^ (1024 : ℤ) := by positivity
    have e1 : (2 : ℝ) ^ (1024 : ℤ) = 2 ^ 52 * 2 ^ (972 : ℤ) := by rw [p1024, p972]; norm_num
    have hg := float64.round_grid (by decide) (j := 1024) (by decide) (y := z) (h1024.le.trans hz.1) (Or.inl hz.1) (by
      rw [zpow_add_one₀ (by norm_num)]
      rw [e1] at hz ⊢
      generalize (2 : ℝ) ^ (972 : ℤ) = A at *
      norm_num
      linarith)
    rw [hg]
    show (roundEven (z / 2 ^ (972 : ℤ)) : ℝ) * 2 ^ (972 : ℤ) = _
    have hre : roundEven (z / 2 ^ (972 : ℤ)) = 2 ^ 52 := by
      apply roundEven_eq
      rw [abs_lt, lt_sub_iff_add_lt, sub_lt_iff_lt_add, lt_div_iff₀ h972, div_lt_iff₀ h972]
      rw [e1] at hz
      generalize (2 : ℝ) ^ (972 : ℤ) = A at *
      push_cast
      constructor <;> linarith
    rw [hre, e1]
    congr 1
    norm_num
  unfold encodeFloats
  rw [getLines_decodeFloats (by intro x hx; rw [List.mem_singleton.1 hx]; exact h0), List.map_cons, List.map_nil]
  unfold encodeFloatLines
  show (stold (printSign false ++ printMag 16 m) >>= _) = _
  rw [hst, Res.ok_bind]
  have : narrow float64 (.finite false (longDouble.round (printed 16 m))) = .ub := if_pos (by rw [hr]; exact le_refl _)
  rw [this]
  rfl

/-! ### Examples -/

/-- How numbers are printed: digits and exponent of the first digit. -/
example : layoutG 7 1234500 2 = "123.45".toList ∧ layoutG 7 1000000 0 = "1".toList ∧ layoutG 7 1677722 7 = "1.677722e+07".toList ∧
    layoutG 7 1500000 (-3) = "0.0015".toList ∧ layoutG 7 1500000 (-5) = "1.5e-05".toList ∧ layoutG 7 9999999 6 = "9999999".toList := by decide +kernel

/-- What is read. -/
example : scanNumber "-12.50x".toList = some (.finite true 1250 10 (-2)) ∧ scanNumber " +.5e3".toList = some (.finite false 5 10 2) ∧
    scanNumber "1e".toList = some (.finite false 1 10 0) ∧ scanNumber "0x1.8p1".toList = some (.finite false 24 2 (-3)) ∧ scanNumber "-Infinity".toList = some (.infinity true) ∧
    scanNumber "nan".toList = some (.nan false) ∧ scanNumber "0xg".toList = some (.finite false 0 10 0) ∧ scanNumber ".".toList = none ∧ scanNumber "".toList = none := by decide +kernel

example : NoNumber " -x".toList ∧ NoNumber [] :=
  ⟨⟨[' '], ['-'], ['x'], rfl, by simp [IsBlank], by simp, by intro c hc; cases hc; exact ⟨by decide, by decide, by decide, by simp⟩⟩,
    ⟨[], [], [], rfl, by simp, by simp, by simp⟩⟩

example : IsPlainDecimal "-49.01".toList true 4901 2 := ⟨"49".toList, "01".toList, by decide, by decide, by decide, rfl, by decide⟩

/-- A vector that comes back: 0.5, minus zero, 9999999, minus infinity. -/
example : encodeFloats float32 (decodeFloats float32 [.finite false 0.5, .finite true 0, .finite true 9999999, .infinity true]) =
    .ok [.finite false 0.5, .finite true 0, .finite true 9999999, .infinity true] := by
  refine C90_float32_decimal _ ?_
  intro neg m h
  simp only [List.mem_cons, FloatValue.finite.injEq, reduceCtorEq, List.not_mem_nil, or_false] at h
  rcases h with ⟨rfl, rfl⟩ | ⟨rfl, rfl⟩ | ⟨rfl, rfl⟩
  · exact ⟨⟨1, -1, by norm_num, by norm_num, by norm_num, by norm_num⟩, 5, -1, by norm_num, by norm_num⟩
  · exact ⟨⟨0, 0, by norm_num, by norm_num, by norm_num, by norm_num⟩, 0, 0, by norm_num, by norm_num⟩
  · exact ⟨⟨9999999, 0, by norm_num, by norm_num, by norm_num, by norm_num⟩, 9999999, 0, by norm_num, by norm_num⟩

/-- The hypotheses of the error bound and of encoding. -/
example : ∃ v w, encodeFloats float32 "49.01\n-8.4\n".toList = .ok v ∧ v.length = 2 ∧ encodeFloats float32 (decodeFloats float32 [.finite false 16777216, .nan true]) = .ok w ∧
    w.length = 2 := by
  obtain ⟨v, h1, h2⟩ := C90_encode_float32 "49.01\n-8.4\n".toList ["49.01".toList, "-8.4".toList] ⟨by decide, Or.inl (by decide)⟩ [(false, 4901, 2), (true, 84, 1)]
    (.cons ⟨⟨"49".toList, "01".toList, by decide, by decide, by decide, rfl, by decide⟩, by decide, by norm_num⟩
      (.cons ⟨⟨"8".toList, "4".toList, by decide, by decide, by decide, rfl, by decide⟩, by decide, by norm_num⟩ .nil))
  obtain ⟨w, h3, h4⟩ := C90_float32_round_trip_partial [.finite false 16777216, .nan true] (by
    intro neg m h
    simp only [List.mem_cons, FloatValue.finite.injEq, reduceCtorEq, List.not_mem_nil, or_false] at h
    obtain ⟨rfl, rfl⟩ := h
    exact ⟨C90_float32_violated.1, by norm_num⟩)
  exact ⟨v, w, h1, h2.length_eq.symm, h3, h4.length_eq.symm⟩

end RK.Props
