import Verif.Proof.VectorText
/-! # C65: vectors as text -/
namespace RK.Props
open RK _root_.Spec

/-- Encoding the text of numbers, one per line, yields exactly the numbers if all of them are in the range of the type, otherwise
an error. (`lo`, `hi`: the range of one of the types `int8`, `uint8`, …, `uint32`, `int64`.) -/
theorem C65_encode_int (lo hi : Int) (hlo : -9223372036854775808 ≤ lo) (hhi : hi ≤ 9223372036854775807) (text : List Char)
    (lines : List (List Char)) (xs : List Int) (h : LinesOf lines text) (hlen : lines.length = xs.length)
    (hx : ∀ (i : Nat) l x, lines[i]? = some l → xs[i]? = some x → StartsWithNumber l x) :
    encodeInts lo hi text = if ∀ x ∈ xs, lo ≤ x ∧ x ≤ hi then .ok xs else .error := by
  unfold encodeInts
  rw [getLines_of h]
  exact encodeIntLines_spec hlo (by omega) lines xs [] hlen hx

/-- A text with a line that does not start with a number, for example an empty one, is rejected. -/
theorem C65_encode_int_rejects (lo hi : Int) (text : List Char) (lines : List (List Char)) (h : LinesOf lines text)
    (hx : ∃ l ∈ lines, ∀ x, ¬ StartsWithNumber l x) : encodeInts lo hi text = .error := by
  unfold encodeInts
  rw [getLines_of h]
  exact encodeIntLines_bad lines [] h.1 hx

/-- Every vector of one of the types `int16`, `uint16`, `int32`, `uint32`, `int64` comes back after decoding and
encoding.
Partial: integer types of at least 16 bits, see `C65_bytes_violated`, `C65_string_violated` and `C65_float_violated`. -/
theorem C65_int_round_trip_partial (lo hi : Int) (hlo : -9223372036854775808 ≤ lo) (hhi : hi ≤ 9223372036854775807) (v : List Int)
    (hv : ∀ x ∈ v, lo ≤ x ∧ x ≤ hi) : encodeInts lo hi (decodeInts v) = .ok v := by
  have := C65_encode_int lo hi hlo hhi (decodeInts v) (v.map printInt) v (linesOf_map printInt_no_newline v) (by simp) (by
    intro i l x h1 h2
    rw [List.getElem?_map, h2] at h1
    cases h1
    exact printInt_starts x)
  rw [this, if_pos hv]

/-- The same for `uint64`. -/
theorem C65_uint64_round_trip (v : List Nat) (hv : ∀ x ∈ v, x < 18446744073709551616) :
    encodeUInt64 (decodeInts (v.map fun (x : Nat) => (x : Int))) = .ok v := by
  unfold encodeUInt64 decodeInts
  rw [getLines_of (linesOf_map printInt_no_newline _), encodeUInt64Lines_spec _ (v.map fun (x : Nat) => (x : Int)) [] (by simp), if_pos]
  · rw [List.nil_append, List.map_map]
    congr 1
    conv_rhs => rw [← List.map_id v]
    refine List.map_congr_left fun x hx => ?_
    have := hv x hx
    simp only [Function.comp, id]
    omega
  · intro x hx
    obtain ⟨y, hy, rfl⟩ := List.mem_map.1 hx
    have := hv y hy
    omega
  · intro i l x h1 h2
    rw [List.getElem?_map, h2] at h1
    cases h1
    exact printInt_starts x

/-- Strings come back after decoding and encoding exactly if none of them contains a backslash that is followed by `n`; line
breaks and other backslashes are preserved. -/
theorem C65_string_round_trip_iff (v : List (List Char)) : encodeStrings (decodeStrings v) = v ↔ ∀ s ∈ v, ¬ ['\\', 'n'] <:+: s := by
  unfold encodeStrings decodeStrings
  rw [getLines_of (linesOf_map escapeLine_no_newline v), List.map_map]
  constructor
  · intro h s hs
    rw [← unescape_escape_iff]
    obtain ⟨i, hi, rfl⟩ := List.getElem_of_mem hs
    have := congrArg (fun l => l[i]?) h
    simpa [hi] using this
  · intro h
    conv_rhs => rw [← List.map_id v]
    refine List.map_congr_left fun s hs => ?_
    exact (unescape_escape_iff s).2 (h s hs)

/-- Finding: the backslash and the `n` become a line break. -/
theorem C65_string_violated : encodeStrings (decodeStrings ["C:\\new".toList]) = ["C:\new".toList] := by decide +kernel

theorem byte_lines : ∀ k < 256, k ≠ 10 → stoll [Char.ofNat k] ≠ .ok (k : Int) ∧ stoll [Char.ofNat k] ≠ .ok ((k : Int) - 256) := by
  decide +kernel

theorem encode_prefix {lo hi : Int} : ∀ {ls : List Text} {acc w : List Int}, encodeIntLines lo hi acc ls = .ok w → acc <+: w
  | [], acc, w, h => by cases h; exact List.prefix_rfl
  | l :: ls, acc, w, h => by
    unfold encodeIntLines at h
    obtain ⟨x, _, h⟩ := Res.bind_eq_ok.1 h
    obtain ⟨_, _, h⟩ := Res.bind_eq_ok.1 h
    obtain ⟨_, _, h⟩ := Res.bind_eq_ok.1 h
    exact (List.prefix_append acc [x]).trans (encode_prefix h)

/-- Finding: vectors of type `int8` and `uint8` never come back unless they are empty: the elements are printed as characters
but read as numbers. -/
theorem C65_bytes_violated (lo hi : Int) (v : List Int) (hv : ∀ x ∈ v, -128 ≤ x ∧ x ≤ 255) (hne : v ≠ []) :
    encodeInts lo hi (decodeBytes v) ≠ .ok v := by
  obtain ⟨x, r, rfl⟩ := List.exists_cons_of_ne_nil hne
  have hx := hv x (List.mem_cons_self ..)
  intro h
  unfold encodeInts decodeBytes at h
  rw [List.flatMap_cons] at h
  have hk : (x % 256).toNat < 256 := by omega
  by_cases hc : (x % 256).toNat = 10
  · rw [hc] at h
    have hl := getLines_line (t := []) (rest := '\n' :: r.flatMap fun x => [Char.ofNat (x % 256).toNat, '\n']) (by simp)
    rw [show [Char.ofNat 10, '\n'] ++ (r.flatMap fun x => [Char.ofNat (x % 256).toNat, '\n']) =
      [] ++ '\n' :: ('\n' :: r.flatMap fun x => [Char.ofNat (x % 256).toNat, '\n']) from rfl, hl] at h
    exact absurd h (fun e => by cases e)
  · have hn : '\n' ∉ [Char.ofNat (x % 256).toNat] := by
      intro hm
      have hall : ∀ k < 256, k ≠ 10 → '\n' ≠ Char.ofNat k := by decide +kernel
      exact hall _ hk hc (List.mem_singleton.1 hm)
    have hl := getLines_line (t := [Char.ofNat (x % 256).toNat]) (rest := r.flatMap fun x => [Char.ofNat (x % 256).toNat, '\n']) hn
    rw [show [Char.ofNat (x % 256).toNat, '\n'] ++ (r.flatMap fun x => [Char.ofNat (x % 256).toNat, '\n']) =
      [Char.ofNat (x % 256).toNat] ++ '\n' :: (r.flatMap fun x => [Char.ofNat (x % 256).toNat, '\n']) from rfl, hl] at h
    unfold encodeIntLines at h
    obtain ⟨y, hy, h⟩ := Res.bind_eq_ok.1 h
    obtain ⟨_, _, h⟩ := Res.bind_eq_ok.1 h
    obtain ⟨_, _, h⟩ := Res.bind_eq_ok.1 h
    have hp := encode_prefix h
    rw [List.nil_append, List.cons_prefix_cons] at hp
    rw [hp.1] at hy
    have hb := byte_lines _ hk hc
    rcases Int.lt_or_le x 0 with hneg | hpos
    · exact hb.2 (by rw [hy]; congr 1; omega)
    · exact hb.1 (by rw [hy]; congr 1; omega)

/-- Finding: `float32` and `float64` are printed with one significant digit more than the type guarantees, which is not
enough: 1 and the next larger number are printed with the same digits, so one of them does not come back. -/
theorem C65_float_violated :
    printDigits 7 (2 ^ 23) (2 ^ 23) = printDigits 7 (2 ^ 23 + 1) (2 ^ 23) ∧
    printDigits 16 (2 ^ 52) (2 ^ 52) = printDigits 16 (2 ^ 52 + 1) (2 ^ 52) := by decide +kernel

/-- Finding: what follows the number on a line is ignored, and negative numbers of a `uint64` vector wrap. -/
theorem C65_encode_lenient :
    encodeInts (-32768) 32767 "1.9\n 7 8\n0x10\n".toList = .ok [1, 7, 0] ∧ encodeUInt64 "-1\n".toList = .ok [18446744073709551615] := by
  decide +kernel

/-! ### Examples -/

example : encodeInts (-32768) 32767 "12\n -7\n+3".toList = .ok [12, -7, 3] ∧ encodeInts 0 65535 "12\n-7\n".toList = .error ∧
    encodeInts (-128) 127 "128\n".toList = .error ∧ encodeInts (-128) 127 "1\n\n".toList = .error := by decide +kernel

example : LinesOf ["12".toList, " -7".toList] "12\n -7".toList ∧ StartsWithNumber " -7".toList (-7) :=
  ⟨⟨by decide, Or.inr ⟨["12".toList], " -7".toList, rfl, by decide, by decide⟩⟩,
    [' '], ['-'], ['7'], [], 7, rfl, by simp [IsBlank], ⟨by decide, by decide, by decide⟩, by simp, Or.inl ⟨rfl, rfl⟩⟩

example : decodeInts [-9223372036854775808, 0, 65535] = "-9223372036854775808\n0\n65535\n".toList := by decide +kernel

/-- Line breaks, backslashes and the empty string. -/
example : decodeStrings ["a\nb".toList, [], "x\\\n".toList] = "a\\nb\n\nx\\\\\\n\n".toList ∧
    encodeStrings (decodeStrings ["a\nb".toList, [], "x\\\n".toList]) = ["a\nb".toList, [], "x\\\n".toList] := by decide +kernel

/-- The byte 49 is printed as the digit 1. -/
example : decodeBytes [49, -5] = ['1', '\n', Char.ofNat 251, '\n'] ∧ encodeInts (-128) 127 (decodeBytes [49]) = .ok [1] := by decide +kernel

end RK.Props
