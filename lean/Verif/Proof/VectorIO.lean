import Verif.Model.VectorIO
import Verif.Proof.BitVector
import Mathlib.Tactic.Ring
/-! # Helper lemmas: bytes, arrays, streams -/
namespace RK

theorem leBytes_length : ∀ (k x : Nat), (leBytes k x).length = k
  | 0, _ => rfl
  | k + 1, x => by simp only [leBytes, List.length_cons, leBytes_length k]

theorem leVal_lt : ∀ l : List Byte, leVal l < 256 ^ l.length
  | [] => by simp [leVal]
  | b :: l => by
    have := leVal_lt l
    have hb : b.toNat < 256 := b.isLt
    simp only [leVal, List.length_cons, pow_succ]
    omega

theorem leVal_leBytes : ∀ (k x : Nat), x < 256 ^ k → leVal (leBytes k x) = x
  | 0, x, h => by simp at h; subst h; rfl
  | k + 1, x, h => by
    have := leVal_leBytes k (x / 256) (by rw [pow_succ] at h; omega)
    simp only [leBytes, leVal, this, BitVec.toNat_ofNat]
    have : (2 : Nat) ^ 8 = 256 := rfl
    omega

theorem leBytes_leVal : ∀ l : List Byte, leBytes l.length (leVal l) = l
  | [] => rfl
  | b :: l => by
    have hb : b.toNat < 256 := b.isLt
    have h1 : (b.toNat + 256 * leVal l) / 256 = leVal l := by omega
    simp only [leBytes, leVal, List.length_cons, h1, leBytes_leVal l]
    congr 1
    apply BitVec.eq_of_toNat_eq
    simp only [BitVec.toNat_ofNat]
    have : (2 : Nat) ^ 8 = 256 := rfl
    omega

/-- Objects and representations of `size` bytes correspond to each other. -/
structure Pod.Lawful {α : Type} (P : Pod α) (valid : α → Prop) : Prop where
  pos : 0 < P.size
  len : ∀ x, (P.enc x).length = P.size
  dec_enc : ∀ x, valid x → P.dec (P.enc x) = x
  enc_dec : ∀ l, l.length = P.size → P.enc (P.dec l) = l
  valid : ∀ l, l.length = P.size → valid (P.dec l)

theorem podUnsigned_lawful : podUnsigned.Lawful (fun x => x < 2 ^ 32) where
  pos := by decide
  len := leBytes_length 4
  dec_enc x h := leVal_leBytes 4 x h
  enc_dec l h := by
    have := leBytes_leVal l
    rw [h] at this
    exact this
  valid l h := by have := leVal_lt l; rw [h] at this; exact this

theorem podWord_lawful : podWord.Lawful (fun _ => True) where
  pos := by decide
  len _ := leBytes_length 8 _
  dec_enc x _ := by
    have : leVal (leBytes 8 x.toNat) = x.toNat := leVal_leBytes 8 _ x.isLt
    simp only [podWord, this, BitVec.ofNat_toNat, BitVec.setWidth_eq]
  enc_dec l h := by
    have h1 := leBytes_leVal l
    have h2 := leVal_lt l
    have h3 : l.length = 8 := h
    rw [h3] at h1 h2
    simp only [podWord, BitVec.toNat_ofNat]
    rw [Nat.mod_eq_of_lt (lt_of_lt_of_eq h2 (by norm_num))]
    exact h1
  valid _ _ := trivial

theorem podChar_lawful : podChar.Lawful (fun _ => True) where
  pos := by decide
  len _ := rfl
  dec_enc _ _ := rfl
  enc_dec l h := by
    match l, h with
    | [b], _ => rfl
  valid _ _ := trivial

section
variable {α : Type} {P : Pod α} {valid : α → Prop}

theorem Pod.Lawful.encAll_length (h : P.Lawful valid) (v : List α) : (P.encAll v).length = P.size * v.length := by
  induction v with
  | nil => rfl
  | cons x v ih =>
    have e : P.encAll (x :: v) = P.enc x ++ P.encAll v := by simp [Pod.encAll]
    rw [e, List.length_append, ih, h.len, List.length_cons]; ring

theorem Pod.Lawful.decAll_encAll (h : P.Lawful valid) (v : List α) (rest : List Byte) (hv : ∀ x ∈ v, valid x) :
    P.decAll v.length (P.encAll v ++ rest) = v := by
  induction v with
  | nil => rfl
  | cons x v ih =>
    have e : P.encAll (x :: v) = P.enc x ++ P.encAll v := by simp [Pod.encAll]
    rw [e, List.length_cons, Pod.decAll, List.append_assoc, ← h.len x, List.take_left, List.drop_left,
      ih (fun y hy => hv y (by simp [hy])), h.dec_enc x (hv x (by simp))]

theorem Pod.Lawful.encAll_decAll (h : P.Lawful valid) : ∀ (n : Nat) (l : List Byte), P.size * n ≤ l.length →
    P.encAll (P.decAll n l) = l.take (P.size * n)
  | 0, l, _ => by simp [Pod.decAll, Pod.encAll]
  | n + 1, l, hl => by
    have hm : P.size * (n + 1) = P.size + P.size * n := by ring
    have e : P.encAll (P.decAll (n + 1) l) = P.enc (P.dec (l.take P.size)) ++ P.encAll (P.decAll n (l.drop P.size)) := by
      simp [Pod.encAll, Pod.decAll]
    rw [e, h.encAll_decAll n _ (by rw [List.length_drop]; omega), h.enc_dec _ (by rw [List.length_take]; omega), hm,
      List.take_add]

theorem Pod.decAll_length : ∀ (n : Nat) (l : List Byte), (P.decAll n l).length = n
  | 0, _ => rfl
  | n + 1, l => by simp [Pod.decAll, Pod.decAll_length n]

theorem Pod.Lawful.decAll_valid (h : P.Lawful valid) : ∀ (n : Nat) (l : List Byte), P.size * n ≤ l.length →
    ∀ x ∈ P.decAll n l, valid x
  | 0, l, _ => by simp [Pod.decAll]
  | n + 1, l, hl => by
    have hm : P.size * (n + 1) = P.size + P.size * n := by ring
    intro x hx
    rw [Pod.decAll, List.mem_cons] at hx
    rcases hx with rfl | hx
    · exact h.valid _ (by rw [List.length_take]; omega)
    · exact h.decAll_valid n _ (by rw [List.length_drop]; omega) x hx

end

theorem addressOfFirst_ok {hardened : Bool} {n : Nat} (h : hardened = false ∨ n ≠ 0) : addressOfFirst hardened n = .ok () := by
  unfold addressOfFirst
  rcases h with h | h
  · rw [h]; rfl
  · rw [if_neg (by simp [h])]

theorem addressOfFirst_eq_ok {hardened : Bool} {n : Nat} {u : Unit} (h : addressOfFirst hardened n = .ok u) :
    hardened = false ∨ n ≠ 0 := by
  unfold addressOfFirst at h
  by_cases hn : n = 0
  · left
    cases hardened with
    | false => rfl
    | true => simp [hn] at h
  · exact Or.inr hn

/-! ### Streams -/

/-- The stream is good and everything written so far is in the file or in the buffer; `room` bytes fit in addition to
what has been written. -/
structure OStream.Fine (o : OStream) (written : List Byte) (cap : Nat) : Prop where
  good : o.good = true
  written : o.file ++ o.pending = written
  room : o.room + o.file.length = cap

theorem OStream.transfer_fine {o : OStream} {w : List Byte} {cap : Nat} (h : o.Fine w cap) (k : Nat) (hc : w.length ≤ cap) :
    (o.transfer k).Fine w cap := by
  have hl : w.length = o.file.length + o.pending.length := by rw [← h.written, List.length_append]
  have hr := h.room
  have hk : (o.pending.take k).length ≤ o.pending.length := by rw [List.length_take]; omega
  have hle : (o.pending.take k).length ≤ o.room := by omega
  unfold OStream.transfer
  simp only [if_pos hle]
  refine ⟨h.good, ?_, ?_⟩
  · show (o.file ++ o.pending.take k) ++ o.pending.drop k = w
    rw [List.append_assoc, List.take_append_drop, h.written]
  · show o.room - (o.pending.take k).length + (o.file ++ o.pending.take k).length = cap
    rw [List.length_append]; omega

theorem OStream.write_fine {o : OStream} {w l : List Byte} {cap : Nat} (h : o.Fine w cap) (hc : (w ++ l).length ≤ cap) :
    (o.write l).Fine (w ++ l) cap := by
  unfold OStream.write
  rw [if_pos h.good]
  have h1 : OStream.Fine { o with pending := o.pending ++ l } (w ++ l) cap :=
    ⟨h.good, by show o.file ++ (o.pending ++ l) = w ++ l; rw [← List.append_assoc, h.written], h.room⟩
  have := OStream.transfer_fine h1 (o.push.headD 0) hc
  exact ⟨this.good, this.written, this.room⟩

theorem OStream.close_fine {o : OStream} {w : List Byte} {cap : Nat} (h : o.Fine w cap) (hc : w.length ≤ cap) : o.close = w := by
  have hl : w.length = o.file.length + o.pending.length := by rw [← h.written, List.length_append]
  have hr := h.room
  have hle : (o.pending.take o.pending.length).length ≤ o.room := by rw [List.take_length]; omega
  unfold OStream.close OStream.transfer
  simp only [if_pos hle]
  show o.file ++ o.pending.take o.pending.length = w
  rw [List.take_length, h.written]

theorem Disk.opened_fine (d : Disk) : d.opened.Fine [] d.room := ⟨rfl, rfl, rfl⟩

theorem readBytes_append {l rest : List Byte} {k : Nat} (h : l.length = k) : readBytes (l ++ rest) k = .ok (l, rest) := by
  subst h
  unfold readBytes
  rw [if_pos (by rw [List.length_append]; omega), List.take_left, List.drop_left]

theorem readBytes_eq_ok {src l rest : List Byte} {k : Nat} (h : readBytes src k = .ok (l, rest)) :
    l.length = k ∧ src = l ++ rest := by
  unfold readBytes at h
  by_cases hk : k ≤ src.length
  · rw [if_pos hk] at h
    injection h with h
    injection h with h1 h2
    subst h1 h2
    exact ⟨by rw [List.length_take]; omega, (List.take_append_drop _ _).symm⟩
  · rw [if_neg hk] at h; cases h

/-! ### Strings -/

theorem splitStrings_cur (s : List Byte) (hs : ∀ b ∈ s, b ≠ 0) : ∀ (data cur : List Byte) (ret : List (List Byte)),
    splitStrings (s ++ 0 :: data) cur ret = splitStrings data [] (ret ++ [cur ++ s]) := by
  induction s with
  | nil => intro data cur ret; simp [splitStrings]
  | cons b s ih =>
    intro data cur ret
    have hb : b ≠ 0 := hs b (by simp)
    rw [List.cons_append, splitStrings, if_neg hb, ih (fun x hx => hs x (by simp [hx]))]
    simp

theorem splitStrings_all (v : List (List Byte)) (hv : ∀ s ∈ v, ∀ b ∈ s, b ≠ 0) : ∀ ret,
    splitStrings (v.flatMap fun s => s ++ [0]) [] ret = ret ++ v := by
  induction v with
  | nil => intro ret; simp [splitStrings]
  | cons s v ih =>
    intro ret
    have e : (List.flatMap (fun s => s ++ [0]) (s :: v)) = s ++ 0 :: (v.flatMap fun s => s ++ [0]) := by simp
    rw [e, splitStrings_cur s (hv s (by simp)), ih (fun t ht => hv t (by simp [ht]))]
    simp

theorem saveStringsLoop_fine (v : List (List Byte)) : ∀ {o : OStream} {w : List Byte} {cap : Nat}, o.Fine w cap →
    (w ++ v.flatMap fun s => s ++ [0]).length ≤ cap → (saveStringsLoop o v).Fine (w ++ v.flatMap fun s => s ++ [0]) cap := by
  induction v with
  | nil => intro o w cap h _; simpa [saveStringsLoop] using h
  | cons s v ih =>
    intro o w cap h hc
    have e : w ++ (List.flatMap (fun s => s ++ [0]) (s :: v)) = (w ++ (s ++ [0])) ++ (v.flatMap fun s => s ++ [0]) := by simp
    rw [e] at hc ⊢
    refine ih (o := o.write (s ++ [0])) (OStream.write_fine h ?_) hc
    rw [List.length_append] at hc
    omega

/-! ### Bit vectors -/

theorem v8_len {v : BitVector} (h : BitVector.Shape v) : BitVector.v8Count v.size * 8 = v.words.length := by
  rw [h.len]; rfl

theorem blockBytes_spec {v : BitVector} (h : BitVector.Shape v) :
    blockBytes v (BitVector.v8Count v.size) = .ok (podWord.encAll v.words) := by
  unfold blockBytes
  rw [v8_len h, if_pos (le_refl _), List.take_length]

theorem new_false {n : Nat} (hn : n + 511 < u64) : ∃ v, BitVector.new n false = some v ∧ v.size = n ∧ v.words.length = BitVector.u64Count n ∧
    (v.data = none → BitVector.u64Count n = 0) := by
  obtain ⟨v, e, h⟩ := BitVector.rep_new hn false
  refine ⟨v, e, ?_, ?_, ?_⟩
  · have := h.1.size; simpa using this
  · have := h.1.shape.len; rw [h.1.size, List.length_replicate] at this; exact this
  · intro hd
    by_cases h0 : n = 0
    · subst h0; rfl
    · exact absurd hd (h.2 h0)

/-- Overwriting all blocks of a fresh vector. -/
theorem overwrite_new {n : Nat} (hn : n + 511 < u64) (l : List Byte) :
    ∃ v v', BitVector.new n false = some v ∧ overwriteBlocks v (BitVector.v8Count n) l = .ok v' ∧ v'.size = n ∧
      v'.words = podWord.decAll (BitVector.u64Count n) l := by
  obtain ⟨v, e, h1, h2, h3⟩ := new_false hn
  have hu : BitVector.v8Count n * 8 = BitVector.u64Count n := rfl
  refine ⟨v, { v with data := v.data.map fun ws => podWord.decAll (BitVector.u64Count n) l ++ ws.drop (BitVector.u64Count n) }, e,
    by unfold overwriteBlocks; rw [hu, h2, if_pos (le_refl _)], h1, ?_⟩
  show (v.data.map fun ws => podWord.decAll (BitVector.u64Count n) l ++ ws.drop (BitVector.u64Count n)).getD [] = _
  cases hd : v.data with
  | none => rw [h3 hd]; rfl
  | some ws =>
    have hw : ws.length = BitVector.u64Count n := by rw [← h2]; simp [BitVector.words, hd]
    show podWord.decAll (BitVector.u64Count n) l ++ ws.drop (BitVector.u64Count n) = _
    rw [← hw, List.drop_length, List.append_nil]

theorem rep_of_words {v v' : BitVector} {B : List Bool} (h : v.Rep B) (hs : v'.size = v.size) (hw : v'.words = v.words) : v'.Rep B := by
  refine ⟨⟨by rw [hs]; exact h.shape.bound, by rw [hw, hs]; exact h.shape.len⟩, hs.trans h.size, fun x => ?_⟩
  rw [hw]; exact h.bits x

end RK
