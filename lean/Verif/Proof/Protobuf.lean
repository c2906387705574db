import Verif.Model.Protobuf
import Mathlib.Tactic.Ring
/-! # Helper lemmas: protobuf decoding -/
namespace RK
open Spec

theorem high_bit (b : Byte) : b &&& 0x80#8 ≠ 0 ↔ 128 ≤ b.toNat := by
  revert b; decide

theorem low_bits (b : Byte) : (b &&& 0x7f#8).toNat = b.toNat % 128 := by
  revert b; decide

theorem varintAdd_ok {n : Word} {b : Byte} {shift : Nat} (hs : shift < 64) (hn : n.toNat < 2 ^ shift) :
    ∃ m, varintAdd n b shift = .ok m ∧ m.toNat = (n.toNat + 2 ^ shift * (b.toNat % 128)) % 2 ^ 64 := by
  unfold varintAdd
  rw [if_pos hs]
  refine ⟨_, rfl, ?_⟩
  rw [BitVec.toNat_or, BitVec.toNat_shiftLeft, BitVec.toNat_setWidth, low_bits]
  have h1 : b.toNat % 128 % 2 ^ 64 = b.toNat % 128 := by omega
  rw [h1, Nat.shiftLeft_eq]
  have h2 : n.toNat % 2 ^ 64 = n.toNat := Nat.mod_eq_of_lt n.isLt
  have h3 := Nat.two_pow_add_eq_or_of_lt hn (b.toNat % 128)
  rw [Nat.add_comm, h3, Nat.or_mod_two_pow, h2, Nat.or_comm, Nat.mul_comm]

theorem varintAdd_lt {n m : Word} {b : Byte} {k : Nat} (hk : k < 9) (hn : n.toNat < 2 ^ (7 * k))
    (hm : m.toNat = (n.toNat + 2 ^ (7 * k) * (b.toNat % 128)) % 2 ^ 64) :
    m.toNat < 2 ^ (7 * (k + 1)) ∧ m.toNat = n.toNat + 2 ^ (7 * k) * (b.toNat % 128) := by
  have e : 2 ^ (7 * (k + 1)) = 2 ^ (7 * k) * 128 := by rw [show 7 * (k + 1) = 7 * k + 7 by ring, pow_add]; norm_num
  have h1 : b.toNat % 128 ≤ 127 := by omega
  have h2 : 2 ^ (7 * k) * (b.toNat % 128) ≤ 2 ^ (7 * k) * 127 := Nat.mul_le_mul_left _ h1
  have h3 : n.toNat + 2 ^ (7 * k) * (b.toNat % 128) < 2 ^ (7 * (k + 1)) := by omega
  have h4 : 2 ^ (7 * (k + 1)) ≤ 2 ^ 64 := Nat.pow_le_pow_right (by norm_num) (by omega)
  rw [Nat.mod_eq_of_lt (by omega)] at hm
  exact ⟨by omega, hm⟩

theorem varintLoop_cont {b : Byte} {rest : List Byte} {n m : Word} {k : Nat} (hb : 128 ≤ b.toNat) (hk : k < 9) (hr : rest ≠ [])
    (hm : varintAdd n b (7 * k) = .ok m) : varintLoop (b :: rest) n (7 * k) = varintLoop rest m (7 * (k + 1)) := by
  rw [varintLoop, if_pos ((high_bit b).2 hb), if_neg (by omega), hm, Res.ok_bind, if_neg hr]
  rfl

theorem varintLoop_last {b : Byte} {rest : List Byte} {n : Word} {k : Nat} (hb : b.toNat < 128) (hk : k ≤ 9) (hn : n.toNat < 2 ^ (7 * k)) :
    ∃ m, varintLoop (b :: rest) n (7 * k) = .ok (m, rest) ∧ m.toNat = (n.toNat + 2 ^ (7 * k) * (b.toNat % 128)) % 2 ^ 64 := by
  obtain ⟨m, e, hm⟩ := varintAdd_ok (b := b) (shift := 7 * k) (by omega) hn
  refine ⟨m, ?_, hm⟩
  rw [varintLoop, if_neg (by rw [high_bit]; omega), e, Res.ok_bind]

theorem pow_step (k x : Nat) : 2 ^ (7 * k) * (128 * x) = 2 ^ (7 * (k + 1)) * x := by
  rw [show 7 * (k + 1) = 7 * k + 7 by ring, pow_add]; ring

/-- A terminated number of at most ten bytes is decoded. -/
theorem varintLoop_ok : ∀ (init : List Byte) (last : Byte) (rest : List Byte) (n : Word) (k : Nat), (∀ b ∈ init, 128 ≤ b.toNat) →
    last.toNat < 128 → k + init.length ≤ 9 → n.toNat < 2 ^ (7 * k) →
    ∃ m, varintLoop (init ++ [last] ++ rest) n (7 * k) = .ok (m, rest) ∧
      m.toNat = (n.toNat + 2 ^ (7 * k) * varintValue (init ++ [last])) % 2 ^ 64
  | [], last, rest, n, k, _, hl, hk, hn => by
    obtain ⟨m, e, hm⟩ := varintLoop_last (rest := rest) hl (by simpa using hk) hn
    refine ⟨m, e, ?_⟩
    rw [hm]
    simp [varintValue]
  | b :: init, last, rest, n, k, hi, hl, hk, hn => by
    rw [List.length_cons] at hk
    obtain ⟨m, e, hm⟩ := varintAdd_ok (b := b) (shift := 7 * k) (by omega) hn
    obtain ⟨g1, g2⟩ := varintAdd_lt (by omega) hn hm
    obtain ⟨m', e', hm'⟩ := varintLoop_ok init last rest m (k + 1) (fun x hx => hi x (by simp [hx])) hl (by omega) g1
    refine ⟨m', ?_, ?_⟩
    · rw [List.cons_append, List.cons_append, varintLoop_cont (hi b (by simp)) (by omega) (by simp) e, e']
    · rw [hm', g2, ← pow_step, List.cons_append, varintValue]; congr 1; ring

/-- Whatever is accepted is a terminated number of at most ten bytes. -/
theorem varintLoop_inv : ∀ (l : List Byte) (n m : Word) (k : Nat) (rest : List Byte), k ≤ 9 → varintLoop l n (7 * k) = .ok (m, rest) →
    ∃ init last, l = init ++ [last] ++ rest ∧ (∀ b ∈ init, 128 ≤ b.toNat) ∧ last.toNat < 128 ∧ k + init.length ≤ 9
  | [], n, m, k, rest, _, h => by cases h
  | b :: l, n, m, k, rest, hk, h => by
    rw [varintLoop] at h
    by_cases hb : 128 ≤ b.toNat
    · rw [if_pos ((high_bit b).2 hb)] at h
      by_cases hc : 7 * k = 7 * 9 ∧ b ≠ 0x81#8
      · rw [if_pos hc] at h; cases h
      · rw [if_neg hc] at h
        obtain ⟨n', e1, h⟩ := Res.bind_eq_ok.1 h
        by_cases hl : l = []
        · rw [if_pos hl] at h; cases h
        · rw [if_neg hl] at h
          by_cases h9 : k = 9
          · subst h9
            exfalso
            obtain ⟨c, l', rfl⟩ : ∃ c l', l = c :: l' := List.exists_cons_of_ne_nil hl
            rw [varintLoop] at h
            have e : ∀ x, varintAdd n' x (7 * 9 + 7) = .ub := fun x => by unfold varintAdd; rw [if_neg (by omega)]
            rw [if_neg (by omega : ¬ (7 * 9 + 7 = 7 * 9 ∧ c ≠ 0x81#8)), e, Res.ub_bind, Res.ub_bind] at h
            split at h <;> cases h
          · obtain ⟨init, last, e, h1, h2, h3⟩ := varintLoop_inv l n' m (k + 1) rest (by omega) h
            refine ⟨b :: init, last, by rw [e]; simp, ?_, h2, by simp; omega⟩
            intro x hx
            rcases List.mem_cons.1 hx with rfl | hx
            · exact hb
            · exact h1 x hx
    · rw [if_neg (by rw [high_bit]; exact hb)] at h
      obtain ⟨n', e1, h⟩ := Res.bind_eq_ok.1 h
      injection h with h
      injection h with h1 h2
      exact ⟨[], b, by simp [h2], by simp, by omega, by simpa using hk⟩

/-- Numbers that are not terminated within ten bytes. -/
theorem varintLoop_bad : ∀ (l : List Byte) (n : Word) (k : Nat), k ≤ 9 → l ≠ [] → n.toNat < 2 ^ (7 * k) →
    (∀ b ∈ l.take (10 - k), 128 ≤ b.toNat) →
    (l.length ≤ 10 - k ∨ l[9 - k]? ≠ some 0x81#8 → varintLoop l n (7 * k) = .error) ∧
    (10 - k < l.length ∧ l[9 - k]? = some 0x81#8 → varintLoop l n (7 * k) = .ub)
  | [], n, k, _, h, _, _ => absurd rfl h
  | b :: l, n, k, hk, _, hn, hb => by
    have hb0 : 128 ≤ b.toNat := hb b (by rw [show 10 - k = (9 - k) + 1 by omega]; simp)
    obtain ⟨m, e, hm⟩ := varintAdd_ok (b := b) (shift := 7 * k) (by omega) hn
    rw [varintLoop, if_pos ((high_bit b).2 hb0), e, Res.ok_bind]
    by_cases h9 : k = 9
    · subst h9
      simp only [List.length_cons, Nat.sub_self, List.getElem?_cons_zero, ne_eq, Option.some.injEq, true_and]
      constructor
      · intro h
        by_cases hc : b = 0x81#8
        · rw [if_neg (by simp [hc])]
          have : l = [] := by
            rcases h with h | h
            · exact List.length_eq_zero_iff.1 (by omega)
            · exact absurd hc h
          rw [if_pos this]
        · rw [if_pos hc]
      · rintro ⟨h1, hc⟩
        rw [if_neg (by simp [hc])]
        have hl : l ≠ [] := by rintro rfl; simp at h1
        obtain ⟨c, l', rfl⟩ := List.exists_cons_of_ne_nil hl
        rw [if_neg (by simp), varintLoop]
        have e : ∀ x, varintAdd m x (7 * 9 + 7) = .ub := fun x => by unfold varintAdd; rw [if_neg (by omega)]
        rw [if_neg (by omega : ¬ (7 * 9 + 7 = 7 * 9 ∧ c ≠ 0x81#8)), e, Res.ub_bind, Res.ub_bind]
        split <;> rfl
    · rw [if_neg (by omega)]
      obtain ⟨g1, g2⟩ := varintAdd_lt (by omega) hn hm
      by_cases hl : l = []
      · subst hl
        rw [if_pos rfl]
        exact ⟨fun _ => rfl, fun h => absurd h.1 (by simp; omega)⟩
      · rw [if_neg hl]
        have ih := varintLoop_bad l m (k + 1) (by omega) hl g1 (fun x hx => hb x (by
          rw [show 10 - k = (10 - (k + 1)) + 1 by omega, List.take_succ_cons]; exact List.mem_cons_of_mem _ hx))
        have e1 : (b :: l)[9 - k]? = l[9 - (k + 1)]? := by
          rw [show 9 - k = (9 - (k + 1)) + 1 by omega, List.getElem?_cons_succ]
        rw [e1, List.length_cons]
        refine ⟨fun h => ih.1 (h.imp_left fun h => by omega), fun h => ih.2 ⟨by omega, h.2⟩⟩

theorem decodeVarint_ok {l rest : List Byte} (h : IsVarint l) (hl : l.length ≤ 10) :
    ∃ m, decodeVarint (l ++ rest) = .ok (m, rest) ∧ m.toNat = varintValue l % 2 ^ 64 := by
  obtain ⟨init, last, rfl, h1, h2⟩ := h
  obtain ⟨m, e, hm⟩ := varintLoop_ok init last rest 0 0 h1 h2 (by simp at hl; omega) (by simp)
  refine ⟨m, ?_, by simpa using hm⟩
  unfold decodeVarint
  rw [if_neg (by simp)]
  exact e

theorem decodeVarint_inv {l rest : List Byte} {m : Word} (h : decodeVarint l = .ok (m, rest)) :
    ∃ l', l = l' ++ rest ∧ IsVarint l' ∧ l'.length ≤ 10 ∧ m.toNat = varintValue l' % 2 ^ 64 ∧ l' ≠ [] := by
  have h0 := h
  unfold decodeVarint at h
  by_cases hl : l = []
  · rw [if_pos hl] at h; cases h
  · rw [if_neg hl] at h
    obtain ⟨init, last, e, h1, h2, h3⟩ := varintLoop_inv l 0 m 0 rest (by omega) h
    have hv : IsVarint (init ++ [last]) := ⟨init, last, rfl, h1, h2⟩
    have h10 : (init ++ [last]).length ≤ 10 := by simp; omega
    refine ⟨init ++ [last], e, hv, h10, ?_, by simp⟩
    obtain ⟨m', e', hm⟩ := decodeVarint_ok (rest := rest) hv h10
    rw [← e, h0] at e'
    injection e' with e'
    injection e' with e1 _
    rw [e1]; exact hm

theorem encodeVarint_spec (x : Nat) : IsVarint (encodeVarint x) ∧ varintValue (encodeVarint x) = x ∧
    ∀ k, x < 128 ^ (k + 1) → (encodeVarint x).length ≤ k + 1 := by
  induction x using Nat.strong_induction_on with
  | _ x ih =>
    rw [encodeVarint]
    by_cases hx : x < 128
    · rw [if_pos hx]
      have e : (BitVec.ofNat 8 x).toNat = x := by rw [BitVec.toNat_ofNat]; omega
      exact ⟨⟨[], _, rfl, by simp, by omega⟩, by simp only [varintValue, e]; omega, fun k _ => by simp⟩
    · rw [if_neg hx]
      obtain ⟨⟨init, last, h1, h2, h3⟩, h4, h5⟩ := ih (x / 128) (by omega)
      have e : (BitVec.ofNat 8 (x % 128 + 128)).toNat = x % 128 + 128 := by rw [BitVec.toNat_ofNat]; omega
      refine ⟨⟨BitVec.ofNat 8 (x % 128 + 128) :: init, last, by rw [h1]; rfl, ?_, h3⟩, ?_, ?_⟩
      · intro b hb
        rcases List.mem_cons.1 hb with rfl | hb
        · omega
        · exact h2 b hb
      · simp only [varintValue, e, h4]; omega
      · intro k hk
        cases k with
        | zero => simp at hk; omega
        | succ k =>
          have := h5 k (by rw [pow_succ] at hk; omega)
          rw [List.length_cons]; omega

/-! ### Messages -/

theorem _root_.Spec.EncodesVarint.wrapped {l : List Byte} {x : Nat} (h : EncodesVarint l x) : WrappedVarint l x := by
  obtain ⟨h1, h2, h3, h4⟩ := h
  exact ⟨h1, h2, by rw [h3]; exact Nat.mod_eq_of_lt h4⟩

theorem _root_.Spec.WrappedVarint.decode {l : List Byte} {x : Nat} (h : WrappedVarint l x) (rest : List Byte) :
    ∃ m : Word, decodeVarint (l ++ rest) = .ok (m, rest) ∧ m.toNat = x := by
  obtain ⟨m, e, hm⟩ := decodeVarint_ok (rest := rest) h.1 h.2.1
  exact ⟨m, e, hm.trans h.2.2⟩

theorem decodeVarint_wrapped {l rest : List Byte} {m : Word} (h : decodeVarint l = .ok (m, rest)) :
    ∃ l', l = l' ++ rest ∧ WrappedVarint l' m.toNat ∧ l' ≠ [] := by
  obtain ⟨l', e, h1, h2, h3, h4⟩ := decodeVarint_inv h
  exact ⟨l', e, ⟨h1, h2, h3.symm⟩, h4⟩

theorem header_id (w : Word) : (w >>> 3).toNat = w.toNat / 8 := by
  rw [BitVec.toNat_ushiftRight, Nat.shiftRight_eq_div_pow]

theorem header_type (w : Word) : (w &&& 7).toNat = w.toNat % 8 := by
  rw [BitVec.toNat_and]
  exact Nat.and_two_pow_sub_one_eq_mod w.toNat 3

theorem decodeField_ok {l : List Byte} {f : Field} (h : EncodesField WrappedVarint l f) (rest : List Byte) :
    decodeField (l ++ rest) = .ok (f, rest) := by
  unfold decodeField
  cases f with
  | varint id x =>
    obtain ⟨k, v, rfl, h1, h2⟩ := h
    obtain ⟨m, e, hm⟩ := h1.decode (v ++ rest)
    obtain ⟨m', e', hm'⟩ := h2.decode rest
    rw [List.append_assoc, e, Res.ok_bind]
    simp only [header_id, header_type, hm]
    rw [show (8 * id + 0) % 8 = 0 by omega, show (8 * id + 0) / 8 = id by omega]
    simp only [e', Res.ok_bind, hm']
  | fixed64 id c =>
    obtain ⟨k, rfl, h1, h2⟩ := h
    obtain ⟨m, e, hm⟩ := h1.decode (c ++ rest)
    rw [List.append_assoc, e, Res.ok_bind]
    simp only [header_id, header_type, hm]
    rw [show (8 * id + 1) % 8 = 1 by omega, show (8 * id + 1) / 8 = id by omega]
    simp only []
    rw [if_neg (by rw [List.length_append]; omega), List.take_left' h2, List.drop_left' h2]
  | fixed32 id c =>
    obtain ⟨k, rfl, h1, h2⟩ := h
    obtain ⟨m, e, hm⟩ := h1.decode (c ++ rest)
    rw [List.append_assoc, e, Res.ok_bind]
    simp only [header_id, header_type, hm]
    rw [show (8 * id + 5) % 8 = 5 by omega, show (8 * id + 5) / 8 = id by omega]
    simp only []
    rw [if_neg (by rw [List.length_append]; omega), List.take_left' h2, List.drop_left' h2]
  | bytes id c =>
    obtain ⟨k, n, rfl, h1, h2⟩ := h
    obtain ⟨m, e, hm⟩ := h1.decode (n ++ (c ++ rest))
    obtain ⟨m', e', hm'⟩ := h2.decode (c ++ rest)
    rw [List.append_assoc, List.append_assoc, e, Res.ok_bind]
    simp only [header_id, header_type, hm]
    rw [show (8 * id + 2) % 8 = 2 by omega, show (8 * id + 2) / 8 = id by omega]
    simp only [e', Res.ok_bind, hm']
    rw [if_neg (by rw [List.length_append]; omega), List.take_left, List.drop_left]

theorem decodeField_inv {l rest : List Byte} {f : Field} (h : decodeField l = .ok (f, rest)) :
    ∃ l', l = l' ++ rest ∧ EncodesField WrappedVarint l' f ∧ l' ≠ [] := by
  unfold decodeField at h
  obtain ⟨⟨w, l1⟩, e1, h'⟩ := Res.bind_eq_ok.1 h
  clear h
  rename _ => h
  obtain ⟨k, rfl, hk, hne⟩ := decodeVarint_wrapped e1
  simp only [header_id, header_type] at h
  have hw : ∀ t, w.toNat % 8 = t → WrappedVarint k (8 * (w.toNat / 8) + t) := by
    intro t ht
    have : 8 * (w.toNat / 8) + t = w.toNat := by omega
    rw [this]; exact hk
  have app : ∀ x : List Byte, k ++ x ≠ [] := fun x hx => hne (List.append_eq_nil_iff.1 hx).1
  split at h
  · rename_i ht
    obtain ⟨⟨x, l2⟩, e2, h'⟩ := Res.bind_eq_ok.1 h
    clear h
    rename _ => h
    obtain ⟨v, rfl, hv, _⟩ := decodeVarint_wrapped e2
    injection h with h
    injection h with h1 h2
    subst h1 h2
    exact ⟨k ++ v, by rw [List.append_assoc], ⟨k, v, rfl, hw 0 ht, hv⟩, app v⟩
  · rename_i ht
    by_cases hl : l1.length < 8
    · rw [if_pos hl] at h; cases h
    · rw [if_neg hl] at h
      injection h with h
      injection h with h1 h2
      subst h1 h2
      exact ⟨k ++ l1.take 8, by rw [List.append_assoc, List.take_append_drop], ⟨k, rfl, hw 1 ht, by rw [List.length_take]; omega⟩, app _⟩
  · rename_i ht
    by_cases hl : l1.length < 4
    · rw [if_pos hl] at h; cases h
    · rw [if_neg hl] at h
      injection h with h
      injection h with h1 h2
      subst h1 h2
      exact ⟨k ++ l1.take 4, by rw [List.append_assoc, List.take_append_drop], ⟨k, rfl, hw 5 ht, by rw [List.length_take]; omega⟩, app _⟩
  · rename_i ht
    obtain ⟨⟨x, l2⟩, e2, h'⟩ := Res.bind_eq_ok.1 h
    clear h
    rename _ => h
    obtain ⟨v, rfl, hv, _⟩ := decodeVarint_wrapped e2
    by_cases hl : l2.length < x.toNat
    · simp only [if_pos hl] at h; cases h
    · simp only [if_neg hl] at h
      injection h with h
      injection h with h1 h2
      subst h1 h2
      refine ⟨k ++ v ++ l2.take x.toNat, by rw [List.append_assoc, List.append_assoc, List.take_append_drop], ⟨k, v, rfl, hw 2 ht, ?_⟩,
        by rw [List.append_assoc]; exact app _⟩
      rw [List.length_take, Nat.min_eq_left (by omega)]; exact hv
  · cases h

theorem _root_.Spec.EncodesField.ne_nil {l : List Byte} {f : Field} (h : EncodesField WrappedVarint l f) : l ≠ [] := by
  have key : ∀ {k x : _} {m : List Byte}, WrappedVarint k x → k ++ m ≠ [] := by
    intro k x m hk
    obtain ⟨⟨init, last, rfl, _⟩, _⟩ := hk
    simp
  cases f with
  | varint id x => obtain ⟨k, v, rfl, h1, h2⟩ := h; exact key h1
  | fixed64 id c => obtain ⟨k, rfl, h1, h2⟩ := h; exact key h1
  | fixed32 id c => obtain ⟨k, rfl, h1, h2⟩ := h; exact key h1
  | bytes id c => obtain ⟨k, n, rfl, h1, h2⟩ := h; rw [List.append_assoc]; exact key h1

theorem decodeMessage_ok {l : List Byte} {fs : List Field} (h : EncodesMessage WrappedVarint l fs) : ∀ fuel, l.length < fuel →
    decodeMessage fuel l = (fs, .ok ()) := by
  induction h with
  | nil =>
    intro fuel hf
    cases fuel with
    | zero => simp at hf
    | succ fuel => simp [decodeMessage]
  | @cons l m f fs h1 h2 ih =>
    intro fuel hf
    have hne := EncodesField.ne_nil h1
    have hpos : 0 < l.length := List.length_pos_iff.2 hne
    rw [List.length_append] at hf
    cases fuel with
    | zero => omega
    | succ fuel =>
      rw [decodeMessage, if_neg (by simp [hne]), decodeField_ok h1]
      simp only [ih fuel (by omega)]

theorem decodeMessage_inv : ∀ (fuel : Nat) (l : List Byte) (fs : List Field) (r : Res Unit), l.length < fuel → decodeMessage fuel l = (fs, r) →
    ∃ l' rest, l = l' ++ rest ∧ EncodesMessage WrappedVarint l' fs ∧
      (match r with
        | .ok _ => rest = []
        | .error => rest ≠ [] ∧ decodeField rest = .error
        | .ub => rest ≠ [] ∧ decodeField rest = .ub)
  | 0, _, _, _, h, _ => absurd h (by omega)
  | fuel + 1, l, fs, r, hf, h => by
    rw [decodeMessage] at h
    by_cases hl : l = []
    · subst hl
      rw [if_pos rfl] at h
      injection h with h1 h2
      subst h1 h2
      exact ⟨[], [], rfl, .nil, rfl⟩
    · rw [if_neg hl] at h
      cases e : decodeField l with
      | ok a =>
        obtain ⟨f, rest⟩ := a
        rw [e] at h
        simp only [] at h
        obtain ⟨l1, rfl, h1, h2⟩ := decodeField_inv e
        have hpos : 0 < l1.length := List.length_pos_iff.2 h2
        rw [List.length_append] at hf
        obtain ⟨l', rest', e', h3, h4⟩ := decodeMessage_inv fuel rest (decodeMessage fuel rest).1 (decodeMessage fuel rest).2 (by omega) rfl
        injection h with h5 h6
        subst h5 h6
        refine ⟨l1 ++ l', rest', ?_, .cons h1 h3, h4⟩
        conv_lhs => rw [e']
        rw [List.append_assoc]
      | error =>
        rw [e] at h
        injection h with h1 h2
        subst h1 h2
        exact ⟨[], l, rfl, .nil, hl, e⟩
      | ub =>
        rw [e] at h
        injection h with h1 h2
        subst h1 h2
        exact ⟨[], l, rfl, .nil, hl, e⟩

theorem isVarint_of_prefix : ∀ (l : List Byte) (j : Nat), (∃ b ∈ l.take j, b.toNat < 128) → ∃ l' rest, l = l' ++ rest ∧ IsVarint l' ∧ l'.length ≤ j
  | [], j, h => by simp at h
  | b :: l, 0, h => by simp at h
  | b :: l, j + 1, h => by
    by_cases hb : b.toNat < 128
    · exact ⟨[b], l, rfl, ⟨[], b, rfl, by simp, hb⟩, by simp⟩
    · obtain ⟨c, hc, hlt⟩ := h
      rw [List.take_succ_cons, List.mem_cons] at hc
      rcases hc with rfl | hc
      · omega
      · obtain ⟨l', rest, e, ⟨init, last, e2, h1, h2⟩, h3⟩ := isVarint_of_prefix l j ⟨c, hc, hlt⟩
        refine ⟨b :: l', rest, by rw [e]; rfl, ⟨b :: init, last, by rw [e2]; rfl, ?_, h2⟩, by rw [List.length_cons]; omega⟩
        intro x hx
        rcases List.mem_cons.1 hx with rfl | hx
        · omega
        · exact h1 x hx

theorem decodeVarint_bad {l : List Byte} (h : ∀ b ∈ l.take 10, 128 ≤ b.toNat) :
    (l.length ≤ 10 ∨ l[9]? ≠ some 0x81#8 → decodeVarint l = .error) ∧ (TooLong l → decodeVarint l = .ub) := by
  unfold decodeVarint
  by_cases hl : l = []
  · subst hl
    rw [if_pos rfl]
    exact ⟨fun _ => rfl, fun h => absurd h.1 (by simp)⟩
  · rw [if_neg hl]
    have := varintLoop_bad l 0 0 (by omega) hl (by simp) h
    exact ⟨this.1, fun h => this.2 ⟨h.1, h.2.2⟩⟩

theorem decodeVarint_ub {l : List Byte} (h : decodeVarint l = .ub) : TooLong l := by
  by_cases hb : ∀ b ∈ l.take 10, 128 ≤ b.toNat
  · refine ⟨?_, hb, ?_⟩
    · by_contra hc
      rw [(decodeVarint_bad hb).1 (Or.inl (by omega))] at h; cases h
    · by_contra hc
      rw [(decodeVarint_bad hb).1 (Or.inr hc)] at h; cases h
  · push Not at hb
    obtain ⟨l', rest, e, h1, h2⟩ := isVarint_of_prefix l 10 (by simpa using hb)
    obtain ⟨m, e', _⟩ := decodeVarint_ok (rest := rest) h1 h2
    rw [e, e'] at h; cases h

theorem decodeField_ub {l : List Byte} (h : decodeField l = .ub) : ∃ a c, l = a ++ c ∧ TooLong c := by
  unfold decodeField at h
  cases e : decodeVarint l with
  | error => rw [e] at h; cases h
  | ub => exact ⟨[], l, rfl, decodeVarint_ub e⟩
  | ok a =>
    obtain ⟨w, l1⟩ := a
    obtain ⟨k, rfl, _, _⟩ := decodeVarint_wrapped e
    rw [e, Res.ok_bind] at h
    simp only [] at h
    split at h
    · cases e2 : decodeVarint l1 with
      | error => rw [e2] at h; cases h
      | ub => exact ⟨k, l1, rfl, decodeVarint_ub e2⟩
      | ok a => rw [e2] at h; cases h
    · split at h <;> cases h
    · split at h <;> cases h
    · cases e2 : decodeVarint l1 with
      | error => rw [e2] at h; cases h
      | ub => exact ⟨k, l1, rfl, decodeVarint_ub e2⟩
      | ok a =>
        rw [e2, Res.ok_bind] at h
        split at h <;> cases h
    · cases h

theorem encodesMessage_mono {V V' : List Byte → Nat → Prop} (hV : ∀ l x, V l x → V' l x) {l : List Byte} {fs : List Field}
    (h : EncodesMessage V l fs) : EncodesMessage V' l fs := by
  induction h with
  | nil => exact .nil
  | @cons l m f fs h1 _ ih =>
    refine .cons ?_ ih
    cases f with
    | varint id x => obtain ⟨k, v, e, a, b⟩ := h1; exact ⟨k, v, e, hV _ _ a, hV _ _ b⟩
    | fixed64 id c => obtain ⟨k, e, a, b⟩ := h1; exact ⟨k, e, hV _ _ a, b⟩
    | fixed32 id c => obtain ⟨k, e, a, b⟩ := h1; exact ⟨k, e, hV _ _ a, b⟩
    | bytes id c => obtain ⟨k, n, e, a, b⟩ := h1; exact ⟨k, n, e, hV _ _ a, hV _ _ b⟩

/-- The ten byte encoding of `2^64`. -/
def encodesTwoTo64 : List Byte := List.replicate 9 0x80#8 ++ [2#8]

theorem zigzagDecode_eq (w : Word) : zigzagDecode w = if w.toNat % 2 = 1 then -((w.toNat / 2 : Nat) : Int) - 1 else ((w.toNat / 2 : Nat) : Int) := by
  have h1 : (w >>> 1).toInt = ((w.toNat / 2 : Nat) : Int) := by
    have hn : (w >>> 1).toNat = w.toNat / 2 := by rw [BitVec.toNat_ushiftRight, Nat.shiftRight_eq_div_pow]
    have := w.isLt
    rw [BitVec.toInt_eq_toNat_of_lt (by rw [hn]; omega), hn]
  have h2 : (w &&& 1 ≠ 0) ↔ w.toNat % 2 = 1 := by
    have hn : (w &&& 1).toNat = w.toNat % 2 := by
      rw [BitVec.toNat_and]
      exact Nat.and_two_pow_sub_one_eq_mod w.toNat 1
    constructor
    · intro h
      by_contra hc
      exact h (BitVec.eq_of_toNat_eq (by rw [hn]; show _ = 0; omega))
    · intro h h0
      rw [h0] at hn
      have : (0 : Word).toNat = 0 := rfl
      omega
  unfold zigzagDecode
  rw [h1]
  by_cases hc : w.toNat % 2 = 1
  · rw [if_pos (h2.2 hc), if_pos hc]
  · rw [if_neg (fun h => hc (h2.1 h)), if_neg hc]

theorem zigzagDecode_zigzag (x : Int) (h1 : -2 ^ 63 ≤ x) (h2 : x < 2 ^ 63) : zigzagDecode (BitVec.ofNat 64 (zigzag x)) = x := by
  rw [zigzagDecode_eq]
  have hlt : zigzag x < 2 ^ 64 := by unfold zigzag; split <;> omega
  rw [BitVec.toNat_ofNat, Nat.mod_eq_of_lt hlt]
  unfold zigzag
  split <;> split <;> omega

theorem zigzag_zigzagDecode (w : Word) : zigzag (zigzagDecode w) = w.toNat ∧ -2 ^ 63 ≤ zigzagDecode w ∧ zigzagDecode w < 2 ^ 63 := by
  have := w.isLt
  rw [zigzagDecode_eq]
  unfold zigzag
  split <;> split <;> omega

end RK
