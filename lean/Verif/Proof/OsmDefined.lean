import Verif.Proof.OsmFile
import Verif.Spec.OsmDefined
/-! # Helper lemmas: where the decoder of OpenStreetMap files is defined -/
namespace RK.Osm
open Spec

/-- `l` is what is left of the list `c` after some numbers. -/
def Tail (c l : List Byte) : Prop := ∃ a xs, c = a ++ l ∧ Numbers a xs

theorem tail_self (c : List Byte) : Tail c c := ⟨[], [], rfl, .nil⟩

theorem numbers_append {a b : List Byte} {xs ys : List Nat} (h : Numbers a xs) (h' : Numbers b ys) : Numbers (a ++ b) (xs ++ ys) := by
  induction h with
  | nil => exact h'
  | cons h1 _ ih => rw [List.append_assoc]; exact .cons h1 ih

theorem varint_long {c l : List Byte} (hc : Tail c l) (h : decodeVarint l = .ub) : LongInList c := by
  obtain ⟨a, xs, e, ha⟩ := hc
  exact ⟨a, xs, l, e, ha, decodeVarint_ub h⟩

theorem varint_num {c l rest : List Byte} {x : Word} (hc : Tail c l) (h : decodeVarint l = .ok (x, rest)) :
    Tail c rest ∧ rest.length < l.length ∧ ListHas c x.toNat := by
  obtain ⟨a, xs, e, ha⟩ := hc
  obtain ⟨w, rfl, hw, hne⟩ := decodeVarint_wrapped h
  refine ⟨⟨a ++ w, xs ++ [x.toNat], by simp [e], numbers_append ha ?_⟩, ?_, ⟨a, xs, w, rest, by simp [e], ha, hw⟩⟩
  · simpa using Numbers.cons hw .nil
  · have := List.length_pos_iff.2 hne
    rw [List.length_append]; omega

theorem field_long {l : List Byte} (h : decodeField l = .ub) : TooLong l ∨ ∃ k x r, l = k ++ r ∧ WrappedVarint k x ∧ TooLong r := by
  unfold decodeField at h
  cases e : decodeVarint l with
  | error => rw [e] at h; cases h
  | ub => exact .inl (decodeVarint_ub e)
  | ok a =>
    obtain ⟨w, r⟩ := a
    obtain ⟨k, rfl, hk, _⟩ := decodeVarint_wrapped e
    refine .inr ⟨k, w.toNat, r, rfl, hk, ?_⟩
    rw [e] at h
    simp only [Res.ok_bind] at h
    have hb : ∀ {α : Type} (f : Word × List Byte → Res α), (∀ a, f a ≠ .ub) → (decodeVarint r >>= f) = .ub → TooLong r := by
      intro α f hf h
      cases e2 : decodeVarint r with
      | error => rw [e2] at h; cases h
      | ub => exact decodeVarint_ub e2
      | ok a => rw [e2] at h; exact absurd h (hf a)
    split at h
    · exact hb _ (fun a => by simp) h
    · split at h <;> cases h
    · split at h <;> cases h
    · refine hb _ (fun a => ?_) h
      obtain ⟨x, r2⟩ := a
      dsimp only
      split <;> simp
    · cases h

/-- What is known after the fields of a message were decoded, up to the end or up to an exception. -/
theorem fields_spec (l : List Byte) : (∀ f ∈ (decodeMessage (l.length + 1) l).1, HasField l f) ∧
    ((decodeMessage (l.length + 1) l).2 = .ub → LongInMessage l) ∧
    ((decodeMessage (l.length + 1) l).2 = .ok () → EncodesMessage WrappedVarint l (decodeMessage (l.length + 1) l).1) := by
  obtain ⟨l', rest, e, h1, h2⟩ := decodeMessage_inv (l.length + 1) l (decodeMessage (l.length + 1) l).1 (decodeMessage (l.length + 1) l).2 (by omega) rfl
  refine ⟨fun f hf => ⟨l', rest, _, e, h1, hf⟩, fun h => ?_, fun h => ?_⟩
  · rw [h] at h2
    exact ⟨l', _, rest, e, h1, field_long h2.2⟩
  · rw [h] at h2
    simp only [] at h2
    subst h2
    rw [List.append_nil] at e
    conv_lhs => rw [e]
    exact h1

theorem message_long {l : List Byte} (h : message l = .ub) : LongInMessage l := by
  have := (fields_spec l).2.1
  unfold message at h
  generalize decodeMessage (l.length + 1) l = x at *
  obtain ⟨fs, r⟩ := x
  cases r with
  | ok _ => cases h
  | error => cases h
  | ub => exact this rfl

theorem message_fields {l : List Byte} {fs : List Field} (h : message l = .ok fs) :
    EncodesMessage WrappedVarint l fs ∧ ∀ f ∈ fs, HasField l f := by
  obtain ⟨h1, _, h3⟩ := fields_spec l
  unfold message at h
  generalize decodeMessage (l.length + 1) l = x at *
  obtain ⟨gs, r⟩ := x
  cases r with
  | ok _ =>
    simp only [Res.ok.injEq] at h
    subst h
    exact ⟨h3 rfl, h1⟩
  | error => cases h
  | ub => cases h

theorem bytes_infix {l : List Byte} {fs : List Field} (h : EncodesMessage WrappedVarint l fs) : ∀ {k : Nat} {c : List Byte},
    .bytes k c ∈ fs → c <:+: l := by
  induction h with
  | nil => intro k c h; cases h
  | cons h1 _ ih =>
    intro k c h
    rcases List.mem_cons.1 h with h | h
    · subst h
      obtain ⟨a, b, rfl, _⟩ := h1
      exact ⟨a ++ b, _, rfl⟩
    · exact (ih h).trans (List.suffix_append _ _).isInfix

theorem hasField_length {l : List Byte} {k : Nat} {c : List Byte} (h : HasField l (.bytes k c)) : c.length ≤ l.length := by
  obtain ⟨a, b, fs, rfl, h1, h2⟩ := h
  have := (bytes_infix h1 h2).length_le
  rw [List.length_append]; omega

theorem lastStr_field {l : List Byte} {fs : List Field} (h : ∀ f ∈ fs, HasField l f) {k : Nat} {c : List Byte}
    (hc : lastStr k fs = some c) : HasField l (.bytes k c) := by
  rw [lastStr_eq] at hc
  have hm := List.mem_of_getLast? hc
  obtain ⟨f, hf, e⟩ := List.mem_filterMap.1 hm
  cases f with
  | bytes i d =>
    simp only [] at e
    by_cases hi : i = k
    · rw [if_pos hi] at e; injection e with e; subst e hi; exact h _ hf
    · rw [if_neg hi] at e; cases e
  | _ => cases e

/-- A null pointer gives no numbers. -/
theorem mem_field {l : List Byte} {fs : List Field} (h : ∀ f ∈ fs, HasField l f) (k : Nat) :
    (mem (lastStr k fs)).length ≤ l.length ∧
    (LongInList (mem (lastStr k fs)) → ∃ c, HasField l (.bytes k c) ∧ LongInList c) ∧
    (∀ x, ListHas (mem (lastStr k fs)) x → ∃ c, HasField l (.bytes k c) ∧ ListHas c x) := by
  unfold mem
  cases e : lastStr k fs with
  | none =>
    refine ⟨by simp, ?_, ?_⟩
    · rintro ⟨a, xs, b, e, _, h⟩
      have hb : b = [] := (List.append_eq_nil_iff.1 e.symm).2
      subst hb
      exact absurd h.1 (by simp)
    · rintro x ⟨a, xs, v, b, e, _, h⟩
      have hv : v = [] := (List.append_eq_nil_iff.1 (List.append_eq_nil_iff.1 e.symm).1).2
      subst hv
      obtain ⟨⟨i, j, e, _⟩, _⟩ := h
      exact absurd (congrArg List.length e) (by simp)
  | some c =>
    have hf := lastStr_field h e
    exact ⟨hasField_length hf, fun h => ⟨c, hf, h⟩, fun x h => ⟨c, hf, h⟩⟩

/-- One of the numbers of the list is `i` if cut to 32 bits. -/
def Num (c : List Byte) (i : Nat) : Prop := ∃ x, ListHas c x ∧ x % 2 ^ 32 = i

theorem pairLoop_defined {c1 c2 : List Byte} : ∀ (fuel : Nat) (ks vs : List Byte), ks.length < fuel → Tail c1 ks → Tail c2 vs →
    (pairLoop fuel ks vs = .ub → LongInList c1 ∨ LongInList c2) ∧
    (∀ kv, pairLoop fuel ks vs = .ok kv → kv.length ≤ ks.length ∧ ∀ p ∈ kv, Num c1 p.1 ∧ Num c2 p.2)
  | 0, _, _, h, _, _ => absurd h (by omega)
  | fuel + 1, ks, vs, h, hk, hv => by
    unfold pairLoop
    by_cases hn : ks ≠ [] ∧ vs ≠ []
    · rw [if_pos hn]
      cases e1 : decodeVarint ks with
      | error => exact ⟨(fun h => by cases h), fun kv h => by cases h⟩
      | ub => exact ⟨fun _ => .inl (varint_long hk e1), fun kv h => by cases h⟩
      | ok a =>
        obtain ⟨k, ks'⟩ := a
        obtain ⟨g1, g2, g3⟩ := varint_num hk e1
        simp only [Res.ok_bind]
        cases e2 : decodeVarint vs with
        | error => exact ⟨(fun h => by cases h), fun kv h => by cases h⟩
        | ub => exact ⟨fun _ => .inr (varint_long hv e2), fun kv h => by cases h⟩
        | ok a =>
          obtain ⟨v, vs'⟩ := a
          obtain ⟨g4, g5, g6⟩ := varint_num hv e2
          simp only [Res.ok_bind]
          obtain ⟨i1, i2⟩ := pairLoop_defined fuel ks' vs' (by omega) g1 g4
          cases e3 : pairLoop fuel ks' vs' with
          | error => exact ⟨(fun h => by cases h), fun kv h => by cases h⟩
          | ub => exact ⟨fun _ => i1 e3, fun kv h => by cases h⟩
          | ok kv =>
            refine ⟨(fun h => by cases h), fun kv' h => ?_⟩
            simp only [Res.ok_bind, Res.ok.injEq] at h
            subst h
            obtain ⟨j1, j2⟩ := i2 kv e3
            refine ⟨by simp only [List.length_cons]; omega, fun p hp => ?_⟩
            rcases List.mem_cons.1 hp with rfl | hp
            · exact ⟨⟨_, g3, rfl⟩, ⟨_, g6, rfl⟩⟩
            · exact j2 p hp
    · rw [if_neg hn]
      by_cases ho : ks ≠ [] ∨ vs ≠ []
      · rw [if_pos ho]; exact ⟨(fun h => by cases h), fun kv h => by cases h⟩
      · rw [if_neg ho]
        refine ⟨(fun h => by cases h), fun kv h => ?_⟩
        injection h with h
        subst h
        exact ⟨by simp, fun p hp => by cases hp⟩

theorem denseTags_defined {c : List Byte} : ∀ (fuel : Nat) (l : List Byte), l.length < fuel → Tail c l →
    (denseTags fuel l = .ub → LongInList c) ∧
    (∀ kv rest, denseTags fuel l = .ok (kv, rest) → kv.length ≤ l.length ∧ Tail c rest ∧ ∀ p ∈ kv, Num c p.1 ∧ Num c p.2)
  | 0, _, h, _ => absurd h (by omega)
  | fuel + 1, l, h, hl => by
    unfold denseTags
    cases e1 : decodeVarint l with
    | error => exact ⟨(fun h => by cases h), fun kv _ h => by cases h⟩
    | ub => exact ⟨fun _ => varint_long hl e1, fun kv _ h => by cases h⟩
    | ok a =>
      obtain ⟨x, l1⟩ := a
      obtain ⟨g1, g2, g3⟩ := varint_num hl e1
      simp only [Res.ok_bind]
      by_cases hx : x = 0
      · rw [if_pos hx]
        refine ⟨(fun h => by cases h), fun kv rest h => ?_⟩
        simp only [Res.ok.injEq, Prod.mk.injEq] at h
        obtain ⟨rfl, rfl⟩ := h
        exact ⟨by simp, g1, fun p hp => by cases hp⟩
      · rw [if_neg hx]
        cases e2 : decodeVarint l1 with
        | error => exact ⟨(fun h => by cases h), fun kv _ h => by cases h⟩
        | ub => exact ⟨fun _ => varint_long g1 e2, fun kv _ h => by cases h⟩
        | ok a =>
          obtain ⟨y, l2⟩ := a
          obtain ⟨g4, g5, g6⟩ := varint_num g1 e2
          simp only [Res.ok_bind]
          obtain ⟨i1, i2⟩ := denseTags_defined fuel l2 (by omega) g4
          cases e3 : denseTags fuel l2 with
          | error => exact ⟨(fun h => by cases h), fun kv _ h => by cases h⟩
          | ub => exact ⟨fun _ => i1 e3, fun kv _ h => by cases h⟩
          | ok a =>
            obtain ⟨kv, l3⟩ := a
            refine ⟨(fun h => by cases h), fun kv' rest h => ?_⟩
            simp only [Res.ok_bind, Res.ok.injEq, Prod.mk.injEq] at h
            obtain ⟨rfl, rfl⟩ := h
            obtain ⟨j1, j2, j3⟩ := i2 kv l3 e3
            refine ⟨by simp only [List.length_cons]; omega, j2, fun p hp => ?_⟩
            rcases List.mem_cons.1 hp with rfl | hp
            · exact ⟨⟨_, g3, rfl⟩, ⟨_, g6, rfl⟩⟩
            · exact j3 p hp

/-- What `clear` and `build` need to be defined. -/
structure TagSafe {V : Type} (m : TagMap V) : Prop where
  lenB : m.entryBegin.length = hashCount
  lenE : m.entryEnd.length = hashCount
  inB : ∀ x ∈ m.hashElementList, x >>> 16 < hashCount

theorem tagSafe_new {V : Type} : TagSafe (TagMap.new : TagMap V) :=
  ⟨List.length_replicate, List.length_replicate, fun x hx => by cases hx⟩

theorem clear_safe {V : Type} {m : TagMap V} (hm : TagSafe m) : ∃ m', m.clear = some m' ∧ TagSafe m' := by
  obtain ⟨m', e, h1, h2, h3⟩ := forEach_inv (f := fun (m : TagMap V) x => do
      let b ← wr m.entryBegin (x >>> 16) 0
      let e ← wr m.entryEnd (x >>> 16) 0
      some { m with entryBegin := b, entryEnd := e })
    (P := fun _ m' => m'.hashElementList = m.hashElementList ∧ m'.entryBegin.length = hashCount ∧ m'.entryEnd.length = hashCount)
    m.hashElementList [] m ⟨rfl, hm.lenB, hm.lenE⟩
    (fun pre x post s e _ ⟨h1, h2, h3⟩ => by
      have hx : x >>> 16 < hashCount := hm.inB x (by rw [List.nil_append] at e; rw [e]; simp)
      rw [wr_lt (by omega), wr_lt (by omega)]
      exact ⟨_, rfl, h1, by simp [h2], by simp [h3]⟩)
  exact ⟨m', e, h2, h3, by rw [h1]; exact hm.inB⟩

theorem hash_or_bound {h i : Nat} (hh : h < hashCount) (hi : i < 2 ^ 28) : (((h <<< 16) ||| i) % u32) >>> 16 < hashCount := by
  have h1 : h <<< 16 < 2 ^ 28 := by rw [Nat.shiftLeft_eq]; have : hashCount = 4096 := rfl; omega
  have h2 := Nat.or_lt_two_pow h1 hi
  have : u32 = 4294967296 := rfl
  have : hashCount = 4096 := rfl
  rw [shr16, Nat.mod_eq_of_lt (by omega)]
  omega

theorem build_safe {V : Type} {m : TagMap V} (hm : TagSafe m) {kv : List (List Byte × V)} (hn : kv.length ≤ 2 ^ 28) :
    ∃ m', m.build kv = some m' ∧ TagSafe m' := by
  obtain ⟨m1, e1, hm1⟩ := clear_safe hm
  obtain ⟨l, el, g1, g2⟩ := hashElements_spec kv
  have hl : ∀ i x, rd l i = some x → x >>> 16 < hashCount ∧ x &&& 0xFFFF < kv.length := by
    intro i x hx
    have hi := rd_some_lt hx
    obtain ⟨p, ep⟩ := rd_isSome (v := kv) (i := i) (by omega)
    obtain ⟨h, eh, hh⟩ := strHash_spec p.1
    have := g2 i p h ep eh
    rw [hx] at this
    injection this with this
    subst this
    refine ⟨hash_or_bound hh (by omega), ?_⟩
    rw [and16]
    have h3 : ((h <<< 16 ||| i) % u32) % 65536 = i % 65536 := by
      rw [Nat.mod_mod_of_dvd _ (by decide : 65536 ∣ u32)]
      rw [show 65536 = 2 ^ 16 from rfl, Nat.or_mod_two_pow, Nat.shiftLeft_eq, Nat.mul_mod_left, Nat.zero_or]
    rw [h3]
    have := Nat.mod_le i 65536
    omega
  have hs : ∀ x ∈ sortNats l, x >>> 16 < hashCount ∧ x &&& 0xFFFF < kv.length := by
    intro x hx
    obtain ⟨i, hi⟩ := List.mem_iff_getElem?.1 ((sortNats_perm l).subset hx)
    exact hl i x hi
  unfold TagMap.build
  rw [e1]
  simp only [Option.bind_eq_bind, Option.bind_some, el]
  obtain ⟨⟨m', pr⟩, e, h1, h2, h3⟩ := forRange_inv (f := tagPlace kv)
    (P := fun _ st => st.1.hashElementList = sortNats l ∧ st.1.entryBegin.length = hashCount ∧ st.1.entryEnd.length = hashCount)
    (lo := 0) (hi := kv.length) (s := ({ m1 with hashElementList := sortNats l, entry := [] }, hashCount)) (by omega)
    ⟨rfl, hm1.lenB, hm1.lenE⟩
    (fun i st _ hi ⟨h1, h2, h3⟩ => by
      obtain ⟨st, pr⟩ := st
      obtain ⟨x, ex⟩ := rd_isSome (v := sortNats l) (i := i) (by rw [(sortNats_perm l).length_eq]; omega)
      obtain ⟨q1, q2⟩ := hs x (rd_mem ex)
      obtain ⟨p, ep⟩ := rd_isSome q2
      unfold tagPlace
      simp only [] at h1 h2 h3
      simp only [h1, ex, Option.bind_eq_bind, Option.bind_some, ep]
      rw [wr_lt (v := st.entryBegin) (by omega), wr_lt (v := st.entryEnd) (by omega)]
      by_cases hp : x >>> 16 ≠ pr
      · rw [if_pos hp]
        exact ⟨_, rfl, rfl, by simp [h2], by simp [h3]⟩
      · rw [if_neg hp]
        exact ⟨_, rfl, rfl, by simp [h2], by simp [h3]⟩)
  rw [e]
  exact ⟨m', rfl, h2, h3, by rw [h1]; exact fun x hx => (hs x hx).1⟩

theorem resMap_defined {α β : Type} {f : α → Res β} : ∀ (l : List α), (resMap f l = .ub → ∃ a ∈ l, f a = .ub) ∧
    (∀ r, resMap f l = .ok r → r.length = l.length)
  | [] => ⟨(fun h => by cases h), fun r h => by injection h with h; subst h; rfl⟩
  | a :: l => by
    unfold resMap
    obtain ⟨i1, i2⟩ := resMap_defined (f := f) l
    cases e : f a with
    | error => exact ⟨(fun h => by cases h), fun r h => by cases h⟩
    | ub => exact ⟨fun _ => ⟨a, List.mem_cons_self, e⟩, fun r h => by cases h⟩
    | ok b =>
      simp only [Res.ok_bind]
      cases e2 : resMap f l with
      | error => exact ⟨(fun h => by cases h), fun r h => by cases h⟩
      | ub =>
        refine ⟨fun _ => ?_, fun r h => by cases h⟩
        obtain ⟨x, hx, ex⟩ := i1 e2
        exact ⟨x, List.mem_cons_of_mem _ hx, ex⟩
      | ok bs =>
        refine ⟨(fun h => by cases h), fun r h => ?_⟩
        simp only [Res.ok_bind, Res.ok.injEq] at h
        subst h
        simp [i2 bs e2]

theorem strAt_defined {strings : List (List Byte)} {i : Nat} (h : strAt strings i = .ub) : i = strings.length := by
  unfold strAt at h
  by_cases hi : i > strings.length
  · rw [if_pos hi] at h; cases h
  · rw [if_neg hi] at h
    by_contra hne
    obtain ⟨x, ex⟩ := rd_isSome (v := strings) (i := i) (by omega)
    rw [ex] at h
    cases h

theorem buildTags_defined {strings : List (List Byte)} {kv : List (Nat × Nat)} {m : TagMap (List Byte)} (hm : TagSafe m)
    (hn : kv.length ≤ 2 ^ 28) :
    (buildTags strings kv m = .ub → ∃ p ∈ kv, p.1 = strings.length ∨ p.2 = strings.length) ∧
    (∀ m', buildTags strings kv m = .ok m' → TagSafe m') := by
  unfold buildTags
  obtain ⟨k1, k2⟩ := resMap_defined (f := fun p : Nat × Nat => strAt strings p.1) kv
  cases e1 : resMap (fun p : Nat × Nat => strAt strings p.1) kv with
  | error => exact ⟨(fun h => by cases h), fun r h => by cases h⟩
  | ub =>
    refine ⟨fun _ => ?_, fun r h => by cases h⟩
    obtain ⟨p, hp, ep⟩ := k1 e1
    exact ⟨p, hp, .inl (strAt_defined ep)⟩
  | ok keys =>
    simp only [Res.ok_bind]
    have hl := k2 keys e1
    obtain ⟨t, et, ht⟩ := build_safe (m := (⟨m.hashElementList, [], m.entryBegin, m.entryEnd⟩ : TagMap Nat)) ⟨hm.lenB, hm.lenE, hm.inB⟩
      (kv := keys.zip (kv.map (·.2))) (by rw [List.length_zip]; omega)
    rw [et]
    simp only [Res.ofOption_some, Res.ok_bind]
    obtain ⟨j1, _⟩ := resMap_defined (f := fun p : List Byte × Nat => do
      let s ← strAt strings p.2
      Res.ok (p.1, s)) t.entry
    cases e2 : resMap (fun p : List Byte × Nat => do
      let s ← strAt strings p.2
      Res.ok (p.1, s)) t.entry with
    | error => exact ⟨(fun h => by cases h), fun r h => by cases h⟩
    | ok entry =>
      refine ⟨(fun h => by cases h), fun r h => ?_⟩
      simp only [Res.ok_bind, Res.ok.injEq] at h
      subst h
      exact ⟨ht.lenB, ht.lenE, ht.inB⟩
    | ub =>
      refine ⟨fun _ => ?_, fun r h => by cases h⟩
      obtain ⟨p, hp, ep⟩ := j1 e2
      have hi : p.2 = strings.length := by
        cases e3 : strAt strings p.2 with
        | ok s => rw [e3] at ep; cases ep
        | error => rw [e3] at ep; cases ep
        | ub => exact strAt_defined e3
      have h2 := List.mem_of_mem_take (build_entries et p hp)
      obtain ⟨q, hq, e⟩ := List.mem_map.1 (List.of_mem_zip h2).2
      exact ⟨q, hq, .inr (by rw [e]; exact hi)⟩

theorem nodeLoop_defined {c : List Byte} : ∀ (fuel : Nat) (l : List Byte) (id : Word), l.length < fuel → Tail c l →
    nodeLoop fuel l id = .ub → LongInList c
  | 0, _, _, h, _, _ => absurd h (by omega)
  | fuel + 1, l, id, h, hl, hu => by
    unfold nodeLoop at hu
    by_cases hn : l ≠ []
    · rw [if_pos hn] at hu
      cases e1 : decodeVarint l with
      | error => rw [e1] at hu; cases hu
      | ub => exact varint_long hl e1
      | ok a =>
        obtain ⟨x, l1⟩ := a
        obtain ⟨g1, g2, _⟩ := varint_num hl e1
        rw [e1] at hu
        simp only [Res.ok_bind] at hu
        cases e2 : nodeLoop fuel l1 (id + BitVec.ofInt 64 (zigzagDecode x)) with
        | error => rw [e2] at hu; cases hu
        | ok _ => rw [e2] at hu; cases hu
        | ub => exact nodeLoop_defined fuel l1 _ (by omega) g1 e2
    · rw [if_neg hn] at hu; cases hu

theorem memberLoop_defined {c1 c2 c3 : List Byte} {strings : List (List Byte)} : ∀ (fuel : Nat) (ids roles types : List Byte) (id : Word),
    ids.length < fuel → Tail c1 ids → Tail c2 roles → Tail c3 types →
    memberLoop strings fuel ids roles types id = .ub → LongInList c1 ∨ LongInList c2 ∨ LongInList c3
  | 0, _, _, _, _, h, _, _, _, _ => absurd h (by omega)
  | fuel + 1, ids, roles, types, id, h, hi, hr, ht, hu => by
    unfold memberLoop at hu
    by_cases hn : ids ≠ []
    · rw [if_pos hn] at hu
      cases e1 : decodeVarint ids with
      | error => rw [e1] at hu; cases hu
      | ub => exact .inl (varint_long hi e1)
      | ok a =>
        obtain ⟨x, ids'⟩ := a
        obtain ⟨g1, g2, _⟩ := varint_num hi e1
        rw [e1] at hu
        simp only [Res.ok_bind] at hu
        cases e2 : decodeVarint roles with
        | error => rw [e2] at hu; cases hu
        | ub => exact .inr (.inl (varint_long hr e2))
        | ok a =>
          obtain ⟨r, roles'⟩ := a
          obtain ⟨g3, _, _⟩ := varint_num hr e2
          rw [e2] at hu
          simp only [Res.ok_bind] at hu
          by_cases hlt : r.toNat < strings.length
          · obtain ⟨role, er⟩ := rd_isSome hlt
            rw [decide_eq_true hlt, er] at hu
            simp only [Res.require_true, Res.ofOption_some, Res.ok_bind] at hu
            cases e3 : decodeVarint types with
            | error => rw [e3] at hu; cases hu
            | ub => exact .inr (.inr (varint_long ht e3))
            | ok a =>
              obtain ⟨t, types'⟩ := a
              obtain ⟨g4, _, _⟩ := varint_num ht e3
              rw [e3] at hu
              simp only [Res.ok_bind] at hu
              cases e4 : Res.require (decide (t.toNat < 3)) with
              | error => rw [e4] at hu; cases hu
              | ub => unfold Res.require at e4; split at e4 <;> cases e4
              | ok _ =>
                rw [e4] at hu
                simp only [Res.ok_bind] at hu
                cases e5 : memberLoop strings fuel ids' roles' types' (id + BitVec.ofInt 64 (zigzagDecode x)) with
                | error => rw [e5] at hu; cases hu
                | ok _ => rw [e5] at hu; cases hu
                | ub => exact memberLoop_defined fuel ids' roles' types' _ (by omega) g1 g3 g4 e5
          · rw [decide_eq_false hlt] at hu; cases hu
    · rw [if_neg hn] at hu; cases hu

/-- The outcome is undefined only if `B` holds, and otherwise the variable `tag_map` can be used again. -/
def SafeOut (B : Prop) (o : Out) : Prop := (o.2 = .ub → B) ∧ ∀ m, o.2 = .ok m → TagSafe m

theorem safeOut_ok {B : Prop} {es : List OsmEvent} {m : TagMap (List Byte)} (h : TagSafe m) : SafeOut B (es, .ok m) :=
  ⟨(fun h => by cases h), fun m' e => by injection e with e; subst e; exact h⟩

theorem safeOut_error {B : Prop} {es : List OsmEvent} : SafeOut B (es, .error) := ⟨(fun h => by cases h), fun m' e => by cases e⟩

theorem safeOut_ub {B : Prop} {es : List OsmEvent} (h : B) : SafeOut B (es, .ub) := ⟨fun _ => h, fun m' e => by cases e⟩

theorem SafeOut.imp {B C : Prop} {o : Out} (h : SafeOut B o) (hi : B → C) : SafeOut C o := ⟨fun e => hi (h.1 e), h.2⟩

theorem safeOut_step {B : Prop} {o : Out} {f : TagMap (List Byte) → Out} (ho : SafeOut B o) (hf : ∀ m, TagSafe m → SafeOut B (f m)) :
    SafeOut B (o.step f) := by
  obtain ⟨es, r⟩ := o
  unfold Out.step
  cases r with
  | ok m => exact hf m (ho.2 m rfl)
  | error => exact safeOut_error
  | ub => exact safeOut_ub (ho.1 rfl)

theorem safeOut_after {B : Prop} {α : Type} {r : Res α} {f : α → Out} (hr : r = .ub → B) (hf : ∀ a, r = .ok a → SafeOut B (f a)) :
    SafeOut B (after r f) := by
  unfold after
  cases r with
  | ok a => exact hf a rfl
  | error => exact safeOut_error
  | ub => exact safeOut_ub (hr rfl)

/-- The common part of the three functions that decode the tags of a single object. -/
theorem tags_defined {d l : List Byte} {fs : List Field} {strings : List (List Byte)} {m : TagMap (List Byte)} (hm : TagSafe m)
    (hl : l.length ≤ 2 ^ 28) (hf : ∀ f ∈ fs, HasField l f) {k : Nat} (hk : k ∈ [1, 3, 4]) (ho : HasObject d k l)
    (hs : StringCount d strings.length) :
    (pairLoop ((mem (lastStr 2 fs)).length + 1) (mem (lastStr 2 fs)) (mem (lastStr 3 fs)) = .ub → UnclearBlock d) ∧
    ∀ kv, pairLoop ((mem (lastStr 2 fs)).length + 1) (mem (lastStr 2 fs)) (mem (lastStr 3 fs)) = .ok kv →
      (buildTags strings kv m = .ub → UnclearBlock d) ∧ ∀ m', buildTags strings kv m = .ok m' → TagSafe m' := by
  obtain ⟨g1, g2⟩ := pairLoop_defined ((mem (lastStr 2 fs)).length + 1) (mem (lastStr 2 fs)) (mem (lastStr 3 fs)) (by omega)
    (tail_self _) (tail_self _)
  obtain ⟨p1, p2, p3⟩ := mem_field hf 2
  obtain ⟨_, q2, q3⟩ := mem_field hf 3
  have tl2 : ∀ c, HasField l (.bytes 2 c) → HasTagList d c := fun c h => .inl ⟨k, hk, l, ho, 2, by decide, h⟩
  have tl3 : ∀ c, HasField l (.bytes 3 c) → HasTagList d c := fun c h => .inl ⟨k, hk, l, ho, 3, by decide, h⟩
  refine ⟨fun h => ?_, fun kv e => ?_⟩
  · rcases g1 h with h | h
    · obtain ⟨c, h1, h2⟩ := p2 h
      exact .inr (.inl ⟨c, .inl (tl2 c h1), h2⟩)
    · obtain ⟨c, h1, h2⟩ := q2 h
      exact .inr (.inl ⟨c, .inl (tl3 c h1), h2⟩)
  · obtain ⟨h1, h2⟩ := g2 kv e
    obtain ⟨k1, k2⟩ := buildTags_defined (strings := strings) (kv := kv) hm (by omega)
    refine ⟨fun h => ?_, k2⟩
    obtain ⟨p, hp, hh | hh⟩ := k1 h
    · obtain ⟨x, x1, x2⟩ := (h2 p hp).1
      obtain ⟨c, c1, c2⟩ := p3 x x1
      exact .inr (.inr ⟨c, _, x, tl2 c c1, hs, c2, by rw [x2, hh]⟩)
    · obtain ⟨x, x1, x2⟩ := (h2 p hp).2
      obtain ⟨c, c1, c2⟩ := q3 x x1
      exact .inr (.inr ⟨c, _, x, tl3 c c1, hs, c2, by rw [x2, hh]⟩)

theorem object_long {d l : List Byte} {k : Nat} (hk : k ∈ [1, 2, 3, 4]) (ho : HasObject d k l) (h : message l = .ub) : UnclearBlock d :=
  .inl ⟨l, .inr (.inr (.inr ⟨k, hk, ho⟩)), message_long h⟩

theorem sparseNode_defined {d : List Byte} {b : Block} {l : List Byte} {m : TagMap (List Byte)} (hm : TagSafe m) (hl : l.length ≤ 2 ^ 28)
    (ho : HasObject d 1 l) (hs : StringCount d b.strings.length) : SafeOut (UnclearBlock d) (sparseNode b l m) := by
  unfold sparseNode
  cases e : message l with
  | error => exact safeOut_error
  | ub => exact safeOut_ub (object_long (by decide) ho e)
  | ok fs =>
    have hf := (message_fields e).2
    simp only [Res.ok_bind]
    split
    · exact safeOut_error
    · obtain ⟨g1, g2⟩ := tags_defined (strings := b.strings) hm hl hf (by decide) ho hs
      cases e2 : pairLoop ((mem (lastStr 2 fs)).length + 1) (mem (lastStr 2 fs)) (mem (lastStr 3 fs)) with
      | error => exact safeOut_error
      | ub => exact safeOut_ub (g1 e2)
      | ok kv =>
        obtain ⟨h1, h2⟩ := g2 kv e2
        simp only [Res.ok_bind]
        cases e3 : buildTags b.strings kv m with
        | error => exact safeOut_error
        | ub => exact safeOut_ub (h1 e3)
        | ok m' => exact safeOut_ok (h2 m' e3)

theorem decodeWay_defined {d : List Byte} {b : Block} {l : List Byte} {m : TagMap (List Byte)} (hm : TagSafe m) (hl : l.length ≤ 2 ^ 28)
    (ho : HasObject d 3 l) (hs : StringCount d b.strings.length) : SafeOut (UnclearBlock d) (decodeWay b l m) := by
  unfold decodeWay
  cases e : message l with
  | error => exact safeOut_error
  | ub => exact safeOut_ub (object_long (by decide) ho e)
  | ok fs =>
    have hf := (message_fields e).2
    simp only [Res.ok_bind]
    split
    · exact safeOut_error
    · obtain ⟨g1, g2⟩ := tags_defined (strings := b.strings) hm hl hf (by decide) ho hs
      cases e2 : pairLoop ((mem (lastStr 2 fs)).length + 1) (mem (lastStr 2 fs)) (mem (lastStr 3 fs)) with
      | error => exact safeOut_error
      | ub => exact safeOut_ub (g1 e2)
      | ok kv =>
        obtain ⟨h1, h2⟩ := g2 kv e2
        simp only [Res.ok_bind]
        cases e3 : buildTags b.strings kv m with
        | error => exact safeOut_error
        | ub => exact safeOut_ub (h1 e3)
        | ok m' =>
          simp only [Res.ok_bind]
          cases e4 : nodeLoop ((mem (lastStr 8 fs)).length + 1) (mem (lastStr 8 fs)) 0 with
          | error => exact safeOut_error
          | ub =>
            obtain ⟨c, c1, c2⟩ := (mem_field hf 8).2.1 (nodeLoop_defined _ _ _ (by omega) (tail_self _) e4)
            exact safeOut_ub (.inr (.inl ⟨c, .inr (.inr (.inl ⟨l, ho, c1⟩)), c2⟩))
          | ok ids => exact safeOut_ok (h2 m' e3)

theorem decodeRelation_defined {d : List Byte} {b : Block} {l : List Byte} {m : TagMap (List Byte)} (hm : TagSafe m) (hl : l.length ≤ 2 ^ 28)
    (ho : HasObject d 4 l) (hs : StringCount d b.strings.length) : SafeOut (UnclearBlock d) (decodeRelation b l m) := by
  unfold decodeRelation
  cases e : message l with
  | error => exact safeOut_error
  | ub => exact safeOut_ub (object_long (by decide) ho e)
  | ok fs =>
    have hf := (message_fields e).2
    simp only [Res.ok_bind]
    split
    · exact safeOut_error
    · obtain ⟨g1, g2⟩ := tags_defined (strings := b.strings) hm hl hf (by decide) ho hs
      cases e2 : pairLoop ((mem (lastStr 2 fs)).length + 1) (mem (lastStr 2 fs)) (mem (lastStr 3 fs)) with
      | error => exact safeOut_error
      | ub => exact safeOut_ub (g1 e2)
      | ok kv =>
        obtain ⟨h1, h2⟩ := g2 kv e2
        simp only [Res.ok_bind]
        cases e3 : buildTags b.strings kv m with
        | error => exact safeOut_error
        | ub => exact safeOut_ub (h1 e3)
        | ok m' =>
          simp only [Res.ok_bind]
          cases e4 : memberLoop b.strings ((mem (lastStr 9 fs)).length + 1) (mem (lastStr 9 fs)) (mem (lastStr 8 fs))
            (mem (lastStr 10 fs)) 0 with
          | error => exact safeOut_error
          | ub =>
            refine safeOut_ub ?_
            rcases memberLoop_defined _ _ _ _ _ (by omega) (tail_self _) (tail_self _) (tail_self _) e4 with h | h | h
            · obtain ⟨c, c1, c2⟩ := (mem_field hf 9).2.1 h
              exact .inr (.inl ⟨c, .inr (.inr (.inr ⟨l, ho, 9, by decide, c1⟩)), c2⟩)
            · obtain ⟨c, c1, c2⟩ := (mem_field hf 8).2.1 h
              exact .inr (.inl ⟨c, .inr (.inr (.inr ⟨l, ho, 8, by decide, c1⟩)), c2⟩)
            · obtain ⟨c, c1, c2⟩ := (mem_field hf 10).2.1 h
              exact .inr (.inl ⟨c, .inr (.inr (.inr ⟨l, ho, 10, by decide, c1⟩)), c2⟩)
          | ok ids => exact safeOut_ok (h2 m' e3)

/-- The pointers of the loop point into the lists of the object `o`. -/
structure DenseIn (o : List Byte) (s : DenseState) : Prop where
  ids : ∃ c, HasField o (.bytes 1 c) ∧ Tail c s.ids
  lats : ∃ c, HasField o (.bytes 8 c) ∧ Tail c s.lats
  lons : ∃ c, HasField o (.bytes 9 c) ∧ Tail c s.lons
  kvs : ∀ l, s.kvs = some l → ∃ c, HasField o (.bytes 10 c) ∧ Tail c l
  tags : TagSafe s.tags

theorem tail_length {c l : List Byte} (h : Tail c l) : l.length ≤ c.length := by
  obtain ⟨a, _, rfl, _⟩ := h
  rw [List.length_append]; omega

theorem densePass_defined {d o : List Byte} {b : Block} (hl : o.length ≤ 2 ^ 28) (ho : HasObject d 2 o) (hst : StringCount d b.strings.length)
    {s : DenseState} (hs : DenseIn o s) :
    (densePass b s = .ub → UnclearBlock d) ∧ ∀ s', densePass b s = .ok s' → DenseIn o s' ∧ s'.ids.length < s.ids.length := by
  unfold densePass
  obtain ⟨c1, f1, t1⟩ := hs.ids
  obtain ⟨c2, f2, t2⟩ := hs.lats
  obtain ⟨c3, f3, t3⟩ := hs.lons
  have hlist : ∀ i ∈ [1, 8, 9], ∀ c, HasField o (.bytes i c) → LongInList c → UnclearBlock d :=
    fun i hi c h1 h2 => .inr (.inl ⟨c, .inr (.inl ⟨o, ho, i, hi, h1⟩), h2⟩)
  cases e1 : decodeVarint s.ids with
  | error => exact ⟨(fun h => by cases h), fun s' h => by cases h⟩
  | ub => exact ⟨fun _ => hlist 1 (by decide) c1 f1 (varint_long t1 e1), fun s' h => by cases h⟩
  | ok a =>
    obtain ⟨x, ids⟩ := a
    obtain ⟨g1, g2, _⟩ := varint_num t1 e1
    simp only [Res.ok_bind]
    cases e2 : decodeVarint s.lats with
    | error => exact ⟨(fun h => by cases h), fun s' h => by cases h⟩
    | ub => exact ⟨fun _ => hlist 8 (by decide) c2 f2 (varint_long t2 e2), fun s' h => by cases h⟩
    | ok a =>
      obtain ⟨y, lats⟩ := a
      obtain ⟨g3, _, _⟩ := varint_num t2 e2
      simp only [Res.ok_bind]
      cases e3 : decodeVarint s.lons with
      | error => exact ⟨(fun h => by cases h), fun s' h => by cases h⟩
      | ub => exact ⟨fun _ => hlist 9 (by decide) c3 f3 (varint_long t3 e3), fun s' h => by cases h⟩
      | ok a =>
        obtain ⟨z, lons⟩ := a
        obtain ⟨g4, _, _⟩ := varint_num t3 e3
        simp only [Res.ok_bind]
        cases ek : s.kvs with
        | none =>
          refine ⟨(fun h => by cases h), fun s' h => ?_⟩
          simp only [Res.ok.injEq] at h
          subst h
          exact ⟨⟨⟨c1, f1, g1⟩, ⟨c2, f2, g3⟩, ⟨c3, f3, g4⟩, (fun l h => by cases h), hs.tags⟩, g2⟩
        | some kvs =>
          obtain ⟨c4, f4, t4⟩ := hs.kvs kvs ek
          have htl : HasTagList d c4 := .inr ⟨o, ho, f4⟩
          obtain ⟨q1, q2⟩ := denseTags_defined (c := c4) (kvs.length + 1) kvs (by omega) t4
          simp only []
          cases e4 : denseTags (kvs.length + 1) kvs with
          | error => exact ⟨(fun h => by cases h), fun s' h => by cases h⟩
          | ub => exact ⟨fun _ => .inr (.inl ⟨c4, .inl htl, q1 e4⟩), fun s' h => by cases h⟩
          | ok a =>
            obtain ⟨kv, kvs'⟩ := a
            obtain ⟨r1, r2, r3⟩ := q2 kv kvs' e4
            have := tail_length t4
            have := hasField_length f4
            obtain ⟨t1, t2⟩ := buildTags_defined (strings := b.strings) (kv := kv) hs.tags (by omega)
            simp only [Res.ok_bind]
            cases e5 : buildTags b.strings kv s.tags with
            | error => exact ⟨(fun h => by cases h), fun s' h => by cases h⟩
            | ub =>
              refine ⟨fun _ => ?_, fun s' h => by cases h⟩
              obtain ⟨p, hp, hh | hh⟩ := t1 e5
              · obtain ⟨x, x1, x2⟩ := (r3 p hp).1
                exact .inr (.inr ⟨c4, _, x, htl, hst, x1, by rw [x2, hh]⟩)
              · obtain ⟨x, x1, x2⟩ := (r3 p hp).2
                exact .inr (.inr ⟨c4, _, x, htl, hst, x1, by rw [x2, hh]⟩)
            | ok tags =>
              refine ⟨(fun h => by cases h), fun s' h => ?_⟩
              simp only [Res.ok_bind, Res.ok.injEq] at h
              subst h
              exact ⟨⟨⟨c1, f1, g1⟩, ⟨c2, f2, g3⟩, ⟨c3, f3, g4⟩, (fun l h => by injection h with h; subst h; exact ⟨c4, f4, r2⟩),
                t2 tags e5⟩, g2⟩

theorem denseLoop_defined {d o : List Byte} {b : Block} (hl : o.length ≤ 2 ^ 28) (ho : HasObject d 2 o) (hst : StringCount d b.strings.length) :
    ∀ (fuel : Nat) (s : DenseState), s.ids.length < fuel → DenseIn o s → SafeOut (UnclearBlock d) (denseLoop b fuel s)
  | 0, _, h, _ => absurd h (by omega)
  | fuel + 1, s, h, hs => by
    unfold denseLoop
    by_cases hn : s.ids ≠ []
    · rw [if_pos hn]
      obtain ⟨g1, g2⟩ := densePass_defined (b := b) hl ho hst hs
      refine safeOut_after g1 fun s' e => ?_
      obtain ⟨h1, h2⟩ := g2 s' e
      exact safeOut_step (safeOut_ok h1.tags) fun _ _ => denseLoop_defined hl ho hst fuel s' (by omega) h1
    · rw [if_neg hn]
      split
      · exact safeOut_error
      · exact safeOut_ok hs.tags

theorem denseNodes_defined {d : List Byte} {b : Block} {l : List Byte} {m : TagMap (List Byte)} (hm : TagSafe m) (hl : l.length ≤ 2 ^ 28)
    (ho : HasObject d 2 l) (hs : StringCount d b.strings.length) : SafeOut (UnclearBlock d) (denseNodes b l m) := by
  unfold denseNodes
  cases e : message l with
  | error => exact safeOut_error
  | ub => exact safeOut_ub (object_long (by decide) ho e)
  | ok fs =>
    have hf := (message_fields e).2
    obtain ⟨m', em, hm'⟩ := clear_safe hm
    simp only [Res.ok_bind]
    cases e1 : lastStr 1 fs with
    | none => exact safeOut_error
    | some ids =>
      cases e2 : lastStr 8 fs with
      | none => exact safeOut_error
      | some lats =>
        cases e3 : lastStr 9 fs with
        | none => exact safeOut_error
        | some lons =>
          simp only [em, Res.ofOption_some, Res.ok_bind]
          exact denseLoop_defined hl ho hs _ _ (by simp) ⟨⟨ids, lastStr_field hf e1, tail_self _⟩, ⟨lats, lastStr_field hf e2, tail_self _⟩,
            ⟨lons, lastStr_field hf e3, tail_self _⟩, (fun c h => ⟨c, lastStr_field hf h, tail_self _⟩), hm'⟩

theorem groupFields_defined {d g : List Byte} {c : Wanted} {b : Block} (hg : g.length ≤ 2 ^ 28) (hgd : HasField d (.bytes 2 g))
    (hs : StringCount d b.strings.length) : ∀ (fs : List Field) (m : TagMap (List Byte)),
    (∀ f ∈ fs, HasField g f) → TagSafe m → SafeOut (UnclearBlock d) (groupFields c b fs m)
  | [], m, _, hm => safeOut_ok hm
  | f :: fs, m, hf, hm => by
    unfold groupFields
    refine safeOut_step ?_ fun m' hm' => groupFields_defined hg hgd hs fs m' (fun f h => hf f (List.mem_cons_of_mem _ h)) hm'
    have h0 := hf f List.mem_cons_self
    unfold groupField
    split
    all_goals try exact safeOut_ok hm
    all_goals
      rename_i l
      have hl : l.length ≤ 2 ^ 28 := le_trans (hasField_length h0) hg
      split
    · exact sparseNode_defined hm hl ⟨g, hgd, h0⟩ hs
    · exact safeOut_ok hm
    · exact denseNodes_defined hm hl ⟨g, hgd, h0⟩ hs
    · exact safeOut_ok hm
    · exact decodeWay_defined hm hl ⟨g, hgd, h0⟩ hs
    · exact safeOut_ok hm
    · exact decodeRelation_defined hm hl ⟨g, hgd, h0⟩ hs
    · exact safeOut_ok hm

theorem decodeGroups_defined {d : List Byte} {c : Wanted} {b : Block} (hd : d.length ≤ 2 ^ 28) (hs : StringCount d b.strings.length) :
    ∀ (gs : List (List Byte)) (m : TagMap (List Byte)),
    (∀ g ∈ gs, HasField d (.bytes 2 g)) → TagSafe m → SafeOut (UnclearBlock d) (decodeGroups c b gs m)
  | [], m, _, hm => safeOut_ok hm
  | g :: gs, m, hg, hm => by
    unfold decodeGroups
    refine safeOut_step ?_ fun m' hm' => decodeGroups_defined hd hs gs m' (fun g h => hg g (List.mem_cons_of_mem _ h)) hm'
    have hi := hg g List.mem_cons_self
    have hl : g.length ≤ 2 ^ 28 := le_trans (hasField_length hi) hd
    obtain ⟨k1, k2, _⟩ := fields_spec g
    unfold decodeGroup
    refine safeOut_step (groupFields_defined hl hi hs _ m k1 hm) fun m' hm' => ?_
    exact safeOut_after (fun h => .inl ⟨g, .inr (.inr (.inl hi)), k2 h⟩) fun _ _ => safeOut_ok hm'

theorem stringsOf_length (fs : List Field) :
    (stringsOf fs).length = (fs.filter isString).length := by
  induction fs with
  | nil => rfl
  | cons f fs ih =>
    have e : stringsOf (f :: fs) = (match f with | .bytes _ c => [c.takeWhile (· ≠ 0)] | _ => []) ++ stringsOf fs := by
      cases f <;> rfl
    rw [e, List.length_append, ih]
    cases f with
    | bytes k c => rw [List.filter_cons_of_pos (by rfl), List.length_cons]; simp; omega
    | _ => rw [List.filter_cons_of_neg (by simp [isString])]; simp

theorem blockFields_defined {d : List Byte} : ∀ (fs : List Field) (b : Block), (∀ f ∈ fs, HasField d f) →
    (∀ g ∈ b.groups, HasField d (.bytes 2 g)) →
    (blockFields b fs = .ub → UnclearBlock d) ∧
    (∀ b', blockFields b fs = .ok b' → (∀ g ∈ b'.groups, HasField d (.bytes 2 g)) ∧ ∃ n, TableSize fs n ∧ b'.strings.length = b.strings.length + n)
  | [], b, _, hg => ⟨(fun h => by cases h), fun b' h => by injection h with h; subst h; exact ⟨hg, 0, .nil, rfl⟩⟩
  | f :: fs, b, hf, hg => by
    unfold blockFields
    have hf' : ∀ f ∈ fs, HasField d f := fun f h => hf f (List.mem_cons_of_mem _ h)
    have h0 := hf f List.mem_cons_self
    have other : ∀ b1 : Block, (∀ c, f ≠ .bytes 1 c) → b1.strings = b.strings → (∀ g ∈ b1.groups, HasField d (.bytes 2 g)) →
        (blockFields b1 fs = .ub → UnclearBlock d) ∧
        (∀ b', blockFields b1 fs = .ok b' → (∀ g ∈ b'.groups, HasField d (.bytes 2 g)) ∧
          ∃ n, TableSize (f :: fs) n ∧ b'.strings.length = b.strings.length + n) := by
      intro b1 h1 h2 h3
      obtain ⟨i1, i2⟩ := blockFields_defined fs b1 hf' h3
      refine ⟨i1, fun b' e => ?_⟩
      obtain ⟨j1, n, j2, j3⟩ := i2 b' e
      exact ⟨j1, n, .other h1 j2, by rw [j3, h2]⟩
    unfold blockField
    split
    · exact other _ (fun c h => by cases h) rfl hg
    · exact other _ (fun c h => by cases h) rfl hg
    · exact other _ (fun c h => by cases h) rfl hg
    · rename_i c
      unfold stringTable
      cases e : message c with
      | error => exact ⟨(fun h => by cases h), fun b' h => by cases h⟩
      | ub => exact ⟨fun _ => .inl ⟨c, .inr (.inl h0), message_long e⟩, fun b' h => by cases h⟩
      | ok gs =>
        simp only [Res.ok_bind]
        obtain ⟨i1, i2⟩ := blockFields_defined fs { b with strings := b.strings ++ stringsOf gs } hf' hg
        refine ⟨i1, fun b' e' => ?_⟩
        obtain ⟨j1, n, j2, j3⟩ := i2 b' e'
        refine ⟨j1, _, .table (message_fields e).1 j2, ?_⟩
        rw [j3]
        rw [List.length_append, stringsOf_length]
        omega
    · rename_i c
      refine other _ (fun c h => by cases h) rfl ?_
      intro g h
      rcases List.mem_append.1 h with h | h
      · exact hg g h
      · rw [List.mem_singleton] at h; subst h; exact h0
    · rename_i h1 h2 h3 h4 h5
      exact other _ (fun c h => h4 c h) rfl hg

theorem decodeBlock_defined {d : List Byte} : (decodeBlock d = .ub → UnclearBlock d) ∧
    ∀ b, decodeBlock d = .ok b → (∀ g ∈ b.groups, HasField d (.bytes 2 g)) ∧ StringCount d b.strings.length := by
  unfold decodeBlock
  obtain ⟨k1, k2, k3⟩ := fields_spec d
  obtain ⟨g1, g2⟩ := blockFields_defined (d := d) (decodeMessage (d.length + 1) d).1 ⟨100, 0, 0, [], []⟩ k1 (fun g h => by cases h)
  generalize decodeMessage (d.length + 1) d = x at *
  obtain ⟨fs, r⟩ := x
  simp only [] at *
  cases e : blockFields ⟨100, 0, 0, [], []⟩ fs with
  | error => exact ⟨(fun h => by cases h), fun b' h => by cases h⟩
  | ub => exact ⟨fun _ => g1 e, fun b' h => by cases h⟩
  | ok b =>
    simp only [Res.ok_bind]
    cases r with
    | error => exact ⟨(fun h => by cases h), fun b' h => by cases h⟩
    | ub => exact ⟨fun _ => .inl ⟨d, .inl rfl, k2 rfl⟩, fun b' h => by cases h⟩
    | ok _ =>
      simp only [Res.ok_bind]
      split
      · exact ⟨(fun h => by cases h), fun b' h => by cases h⟩
      · refine ⟨(fun h => by cases h), fun b' h => ?_⟩
        injection h with h
        subst h
        obtain ⟨h1, n, h2, h3⟩ := g2 b e
        refine ⟨h1, fs, k3 rfl, ?_⟩
        rw [h3]
        simpa using h2

theorem readBlock_defined {c : Wanted} {d : List Byte} (hd : d.length ≤ 2 ^ 28) {m : TagMap (List Byte)} (hm : TagSafe m) :
    SafeOut (UnclearBlock d) (readBlock c d m) := by
  unfold readBlock
  obtain ⟨g1, g2⟩ := decodeBlock_defined (d := d)
  refine safeOut_after g1 fun b e => ?_
  obtain ⟨h1, h2⟩ := g2 b e
  exact decodeGroups_defined hd h2 b.groups m h1 hm

end RK.Osm
