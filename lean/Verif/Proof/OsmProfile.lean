import Verif.Spec.OsmProfile
import Mathlib.Tactic.IntervalCases
/-! # Lemmas about the profiles -/
namespace RK.Osm
open Spec

theorem lowerCase_eq (s : List Byte) : s.map toLower = lowerCase s := by
  unfold lowerCase toLower
  apply List.map_congr_left
  intro c _
  split
  · rw [BitVec.sub_eq_add_neg, BitVec.add_assoc]; rfl
  · rfl

theorem parseDigits_spec (l rest : List Byte) (h : ∀ c ∈ l, 48 ≤ c.toNat ∧ c.toNat ≤ 57)
    (hr : ∀ c ∈ rest.head?, isDigit c = false) (n : Nat)
    (hn : l.foldl (fun n c => 10 * n + (c.toNat - 48)) n < 2000000) :
    parseDigits (l ++ rest) n = (l.foldl (fun n c => 10 * n + (c.toNat - 48)) n, rest) := by
  induction l generalizing n with
  | nil =>
    cases rest with
    | nil => rfl
    | cons c cs =>
      have := hr c (by simp)
      simp [parseDigits, this]
  | cons c cs ih =>
    have hc := h c (by simp)
    simp only [List.foldl_cons] at hn ⊢
    have mono : ∀ (l : List Byte) (a : Nat), a ≤ l.foldl (fun n c => 10 * n + (c.toNat - 48)) a := by
      intro l
      induction l with
      | nil => intro a; exact le_rfl
      | cons x xs ih => intro a; simp only [List.foldl_cons]; exact le_trans (by omega) (ih _)
    have hb := mono cs (10 * n + (c.toNat - 48))
    have e : add32 (mul32 n 10) (c.toNat - 48) = 10 * n + (c.toNat - 48) := by
      unfold add32 mul32
      have : u32 = 4294967296 := rfl
      rw [this, Nat.mod_eq_of_lt (by omega : n * 10 < 4294967296), Nat.mod_eq_of_lt (by omega)]
      omega
    have hd : isDigit c = true := by simp [isDigit, hc.1, hc.2]
    simp only [List.cons_append, parseDigits, hd, if_true]
    rw [e]
    exact ih (fun c hc => h c (by simp [hc])) _ hn

theorem skipSpaces_replicate (k : Nat) (l : List Byte) (h : ∀ c ∈ l.head?, c ≠ 32#8) :
    skipSpaces (List.replicate k 32#8 ++ l) = l := by
  unfold skipSpaces
  induction k with
  | zero =>
    cases l with
    | nil => rfl
    | cons c cs => simp [List.dropWhile_cons, h c (by simp)]
  | succ k ih => simpa [List.replicate_succ, List.dropWhile_cons] using ih

theorem wild_colon (l rest : List Byte) (h : strWildCharEq l (63#8 :: 63#8 :: 58#8 :: rest) = true) :
    58#8 ∈ l ∨ 63#8 ∈ l := by
  match l with
  | [] => simp [strWildCharEq] at h
  | [a] => simp [strWildCharEq] at h
  | [a, b] => simp [strWildCharEq] at h
  | a :: b :: c :: l =>
    simp only [strWildCharEq] at h
    by_cases h1 : c = 63#8
    · right; simp [h1]
    · by_cases h2 : c = 58#8
      · left; simp [h2]
      · simp [h1, h2] at h

theorem named_none {c : Byte} {l : List Byte} (hc : 48 ≤ c.toNat ∧ c.toNat ≤ 57) (h1 : 58#8 ∉ c :: l) (h2 : 63#8 ∉ c :: l) :
    namedSpeed (c :: l) = none := by
  have hw : ∀ rest, strWildCharEq (c :: l) (63#8 :: 63#8 :: 58#8 :: rest) = false := by
    intro rest
    cases h : strWildCharEq (c :: l) (63#8 :: 63#8 :: 58#8 :: rest) with
    | false => rfl
    | true => rcases wild_colon _ _ h with h | h <;> contradiction
  have hne : ∀ (d : Byte) (l' : List Byte), 57 < d.toNat → ¬ (c :: l = d :: l') := by
    intro d l' hd he
    injection he with he _
    rw [he] at hc
    omega
  unfold namedSpeed
  simp only [hw, Bool.false_eq_true, false_or, or_false, or_self]
  repeat rw [if_neg (by
    intro h
    first
    | exact absurd h (hne _ _ (by decide))
    | (rcases h with h | h <;> exact absurd h (hne _ _ (by decide)))
    | (rcases h with h | h | h <;> exact absurd h (hne _ _ (by decide)))
    | (rcases h with h | h | h | h <;> exact absurd h (hne _ _ (by decide)))
    | (rcases h with h | h | h | h | h <;> exact absurd h (hne _ _ (by decide))))]

theorem unit_clean {u : SpeedUnit} {t : List Byte} (h : t ∈ u.texts) :
    58#8 ∉ t ∧ 63#8 ∉ t ∧ 59#8 ∉ t ∧ 32#8 ∉ t ∧ (∀ c ∈ t.head?, isDigit c = false) := by
  cases u <;> simp only [SpeedUnit.texts, List.mem_cons, List.mem_nil_iff, or_false] at h
  · rcases h with rfl | rfl | rfl | rfl <;> decide
  · subst h; decide
  · subst h; decide

theorem digit_ne {c : Byte} (h : 48 ≤ c.toNat ∧ c.toNat ≤ 57) : c ≠ 58#8 ∧ c ≠ 63#8 ∧ c ≠ 59#8 ∧ c ≠ 32#8 := by
  refine ⟨?_, ?_, ?_, ?_⟩ <;> (rintro rfl; revert h; decide)

theorem parse_limit {s : List Byte} {v : Nat} (h : IsLimit s v) : parseMaxspeed (lowerCase s) = v ∧ v < infWeight ∧
    59#8 ∉ lowerCase s ∧ (∀ c ∈ (lowerCase s).head?, c ≠ 32#8) := by
  obtain ⟨digits, unit, k, u, hne, hd, hb, hu, he, hv⟩ := h
  obtain ⟨h58, h63, h59, h32, hdig⟩ := unit_clean hu
  rw [he]
  have hclean : ∀ x : Byte, x ∉ unit → x ≠ 32#8 → (∀ c ∈ digits, c ≠ x) → x ∉ digits ++ List.replicate k 32#8 ++ unit := by
    intro x h1 h2 h3 hx
    simp only [List.mem_append, List.mem_replicate] at hx
    rcases hx with (hx | ⟨_, hx⟩) | hx
    · exact h3 x hx rfl
    · exact h2 hx
    · exact h1 hx
  have c58 := hclean 58#8 h58 (by decide) (fun c hc => (digit_ne (hd c hc)).1)
  have c63 := hclean 63#8 h63 (by decide) (fun c hc => (digit_ne (hd c hc)).2.1)
  have c59 := hclean 59#8 h59 (by decide) (fun c hc => (digit_ne (hd c hc)).2.2.1)
  cases digits with
  | nil => exact absurd rfl hne
  | cons c cs =>
    have hc := hd c (by simp)
    refine ⟨?_, ?_, c59, ?_⟩
    · unfold parseMaxspeed
      have hn := named_none (c := c) (l := cs ++ List.replicate k 32#8 ++ unit) hc (by simpa using c58) (by simpa using c63)
      have e1 : (c :: cs) ++ List.replicate k 32#8 ++ unit = c :: (cs ++ List.replicate k 32#8 ++ unit) := by simp
      rw [e1, hn]
      have hdc : isDigit c = true := by simp [isDigit, hc.1, hc.2]
      simp only [hdc, if_true]
      have hp := parseDigits_spec (c :: cs) (List.replicate k 32#8 ++ unit) hd (by
        cases k with
        | zero => simpa using hdig
        | succ k => simp [List.replicate_succ, isDigit]) 0 hb
      rw [← e1, List.append_assoc, hp]
      have hs := skipSpaces_replicate k unit (by
        intro x hx hx'
        apply h32
        cases unit with
        | nil => simp at hx
        | cons d ds => simp only [List.head?_cons, Option.mem_some_iff] at hx; simp [hx, ← hx'])
      simp only [hs]
      rw [hv]
      have hb' : decimal (c :: cs) < 2000000 := hb
      change (if unit = [] ∨ unit = b!"km/h" ∨ unit = b!"kmh" ∨ unit = b!"kph" then decimal (c :: cs)
        else if unit = b!"mph" then mul32 (decimal (c :: cs)) 1609 / 1000
        else if unit = b!"knots" then mul32 (decimal (c :: cs)) 1852 / 1000 else decimal (c :: cs)) = _
      generalize decimal (c :: cs) = n at hb' ⊢
      have m1 : mul32 n 1609 = n * 1609 := by
        have : u32 = 4294967296 := rfl
        unfold mul32; rw [this, Nat.mod_eq_of_lt (by omega)]
      have m2 : mul32 n 1852 = n * 1852 := by
        have : u32 = 4294967296 := rfl
        unfold mul32; rw [this, Nat.mod_eq_of_lt (by omega)]
      rw [m1, m2]
      cases u <;> simp only [SpeedUnit.texts, List.mem_cons, List.mem_nil_iff, or_false] at hu
      · rcases hu with rfl | rfl | rfl | rfl <;> rfl
      · subst hu; rfl
      · subst hu; rfl
    · rw [hv]
      have : infWeight = 2147483647 := rfl
      rw [this]
      generalize decimal (c :: cs) = n at hb
      cases u <;> simp only [SpeedUnit.inKmh] <;> omega
    · intro x hx
      simp only [List.cons_append, List.head?_cons, Option.mem_some_iff] at hx
      subst hx
      exact (digit_ne hc).2.2.2

theorem lowerCase_append (a b : List Byte) : lowerCase (a ++ b) = lowerCase a ++ lowerCase b := by
  simp [lowerCase]

theorem lowerCase_cons (c : Byte) (b : List Byte) : lowerCase (c :: b) = toLower c :: lowerCase b := by
  rw [← lowerCase_eq, ← lowerCase_eq]; rfl

theorem lowerCase_replicate (k : Nat) : lowerCase (List.replicate k 32#8) = List.replicate k 32#8 := by
  simp only [lowerCase, List.map_replicate]
  rfl

theorem takeWhile_semicolon (v : List Byte) (h : 59#8 ∉ v) (rest : List Byte) :
    (v ++ 59#8 :: rest).takeWhile (· ≠ 59#8) = v ∧ (v ++ 59#8 :: rest).dropWhile (· ≠ 59#8) = 59#8 :: rest := by
  induction v with
  | nil => simp
  | cons c cs ih =>
    have hc : c ≠ 59#8 := by rintro rfl; simp at h
    have := ih (fun hh => h (by simp [hh]))
    simp [List.takeWhile_cons, List.dropWhile_cons, hc] at this ⊢
    exact this

theorem takeWhile_all (v : List Byte) (h : 59#8 ∉ v) :
    v.takeWhile (· ≠ 59#8) = v ∧ v.dropWhile (· ≠ 59#8) = [] := by
  induction v with
  | nil => simp
  | cons c cs ih =>
    have hc : c ≠ 59#8 := by rintro rfl; simp at h
    have := ih (fun hh => h (by simp [hh]))
    simp [List.takeWhile_cons, List.dropWhile_cons, hc] at this ⊢
    exact this

theorem separated_head {s : List Byte} {l : List (List Byte)} (h : Separated s l) {vs : List Nat}
    (hl : List.Forall₂ IsLimit l vs) : ∀ c ∈ (lowerCase s).head?, c ≠ 32#8 := by
  cases h with
  | one =>
    cases hl with
    | cons h1 _ => exact (parse_limit h1).2.2.2
  | more v rest l k h =>
    cases hl with
    | cons h1 _ =>
      have := (parse_limit h1).2.2.2
      obtain ⟨digits, unit, k, u, hne, hd, hb, hu, he, hv⟩ := h1
      simp only [lowerCase_append] at this ⊢
      rw [he] at this ⊢
      cases digits with
      | nil => exact absurd rfl hne
      | cons c cs => simpa using this

theorem splitLoop_ok {s : List Byte} {l : List (List Byte)} (h : Separated s l) {vs : List Nat}
    (hl : List.Forall₂ IsLimit l vs) (fuel : Nat) (hf : s.length < fuel) :
    splitLoop fuel (lowerCase s) = some (l.map lowerCase) := by
  induction h generalizing vs fuel with
  | one v =>
    cases hl with
    | cons h1 _ =>
      obtain ⟨fuel, rfl⟩ : ∃ k, fuel = k + 1 := ⟨fuel - 1, by omega⟩
      have := takeWhile_all _ (parse_limit h1).2.2.1
      simp only [splitLoop, this.1, this.2]
      rfl
  | more v rest l k h ih =>
    cases hl with
    | cons h1 h2 =>
      obtain ⟨fuel, rfl⟩ : ∃ k, fuel = k + 1 := ⟨fuel - 1, by omega⟩
      have e : lowerCase (v ++ 59#8 :: List.replicate k 32#8 ++ rest)
          = lowerCase v ++ 59#8 :: (List.replicate k 32#8 ++ lowerCase rest) := by
        rw [lowerCase_append, lowerCase_append, lowerCase_cons, lowerCase_replicate]
        simp [toLower]
      have := takeWhile_semicolon _ (parse_limit h1).2.2.1 (List.replicate k 32#8 ++ lowerCase rest)
      rw [e]
      simp only [splitLoop, this.1, this.2]
      rw [skipSpaces_replicate _ _ (separated_head h h2), ih h2 fuel (by simp at hf; omega)]
      rfl

theorem foldl_min {l : List (List Byte)} {vs : List Nat} (hl : List.Forall₂ IsLimit l vs) (a : Nat) :
    (l.map lowerCase).foldl (fun speed v => min speed (parseMaxspeed v)) a = vs.foldl min a := by
  induction hl generalizing a with
  | nil => rfl
  | cons h _ ih =>
    simp only [List.map_cons, List.foldl_cons]
    rw [(parse_limit h).1]
    exact ih _

theorem splitLoop_isSome (fuel : Nat) (s : List Byte) (h : s.length < fuel) : (splitLoop fuel s).isSome := by
  induction fuel generalizing s with
  | zero => omega
  | succ fuel ih =>
    simp only [splitLoop]
    cases hd : s.dropWhile (· ≠ 59#8) with
    | nil => rfl
    | cons c rest =>
      have h1 : (s.dropWhile (· ≠ 59#8)).length ≤ s.length := (List.dropWhile_suffix _).length_le
      rw [hd] at h1
      have h2 : (skipSpaces rest).length ≤ rest.length := (List.dropWhile_suffix _).length_le
      have := ih (skipSpaces rest) (by simp at h1; omega)
      obtain ⟨l, hl⟩ := Option.isSome_iff_exists.1 this
      simp [hl]

theorem speedFrom_pos (m : Option (List Byte)) :
    ∃ r, speedFromMaxspeed m = some r ∧ ∀ v ∈ r, 0 < v ∧ v < infWeight := by
  unfold speedFromMaxspeed
  cases m with
  | none => exact ⟨none, rfl, by simp⟩
  | some s =>
    simp only
    split
    · exact ⟨none, rfl, by simp⟩
    · have hs := splitLoop_isSome ((copyLower s 1023).length + 1) (skipSpaces (copyLower s 1023)) (by
        have : (skipSpaces (copyLower s 1023)).length ≤ (copyLower s 1023).length := (List.dropWhile_suffix _).length_le
        omega)
      obtain ⟨l, hl⟩ := Option.isSome_iff_exists.1 hs
      have hl' : splitValues (copyLower s 1023) = some l := hl
      rw [hl']
      simp only [Option.bind_eq_bind, Option.bind_some]
      refine ⟨_, rfl, ?_⟩
      have hle : l.foldl (fun speed v => min speed (parseMaxspeed v)) infWeight ≤ infWeight := by
        have : ∀ (l : List (List Byte)) (a : Nat), l.foldl (fun speed v => min speed (parseMaxspeed v)) a ≤ a := by
          intro l
          induction l with
          | nil => intro a; exact le_rfl
          | cons x xs ih => intro a; exact le_trans (ih _) (min_le_left _ _)
        exact this _ _
      generalize l.foldl (fun speed v => min speed (parseMaxspeed v)) infWeight = w at hle ⊢
      have : infWeight = 2147483647 := rfl
      intro v hv
      by_cases h0 : w = 0
      · rw [if_pos h0, if_pos (by decide)] at hv
        simp only [Option.mem_some_iff] at hv
        omega
      · rw [if_neg h0] at hv
        by_cases h1 : w ≠ infWeight
        · rw [if_pos h1] at hv
          simp only [Option.mem_some_iff] at hv
          omega
        · rw [if_neg h1] at hv
          simp at hv

theorem defaultSpeed_bounds (t : Tags) : 0 < defaultSpeed t ∧ defaultSpeed t ≤ 90 := by
  unfold defaultSpeed
  split
  · rename_i p hp
    obtain ⟨h, _, hf⟩ := Option.bind_eq_some_iff.1 hp
    have hm := List.mem_of_find?_eq_some hf
    have : ∀ p ∈ highwaySpeeds, 0 < p.2 ∧ p.2 ≤ 90 := by decide
    exact this p hm
  · split <;> [decide; split <;> [decide; split <;> decide]]

end RK.Osm
