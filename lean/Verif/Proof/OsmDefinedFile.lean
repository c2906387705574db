import Verif.Proof.OsmDefined
/-! # Helper lemmas: where the decoder of OpenStreetMap files is defined, files -/
namespace RK.Osm
open Spec

theorem readStream_cases (n : Nat) (l : List Byte) : readStream n l = .error ∨ readStream n l = .ok none ∨
    ∃ a b, readStream n l = .ok (some (a, b)) ∧ l = a ++ b ∧ a.length = n ∧ n ≤ readSize := by
  unfold readStream
  by_cases h1 : n > readSize
  · rw [if_pos h1]; exact .inl rfl
  · rw [if_neg h1]
    by_cases h2 : n ≤ l.length
    · rw [if_pos h2]
      exact .inr (.inr ⟨_, _, rfl, (List.take_append_drop n l).symm, by rw [List.length_take]; omega, by omega⟩)
    · rw [if_neg h2]; exact .inr (.inl rfl)

theorem readOrThrow_cases (n : Nat) (l : List Byte) : readOrThrow n l = .error ∨
    ∃ a b, readOrThrow n l = .ok (a, b) ∧ l = a ++ b ∧ a.length = n ∧ n ≤ readSize := by
  unfold readOrThrow
  rcases readStream_cases n l with h | h | ⟨a, b, h, h'⟩
  · rw [h]; exact .inl rfl
  · rw [h]; exact .inl rfl
  · rw [h]; exact .inr ⟨a, b, rfl, h'⟩

theorem blockHead_defined (own : Bool) (l : List Byte) : (blockHead own l = .ub → ∃ s h r, l = s ++ h ++ r ∧ s.length = 4 ∧ LongInMessage h) ∧
    (∀ t n r, blockHead own l = .ok (some (t, n, r)) → ∃ s h, l = s ++ h ++ r ∧ s.length = 4 ∧ Announces h n) := by
  unfold blockHead
  rcases readStream_cases 4 l with h | h | ⟨p, l1, h, e, hp, _⟩
  · rw [h]; exact ⟨(fun h => by cases h), fun t n r h => by cases h⟩
  · rw [h]; exact ⟨(fun h => by cases h), fun t n r h => by cases h⟩
  · rw [h]
    simp only [Res.ok_bind]
    rcases readOrThrow_cases (ntohl own (load32 p)).toNat l1 with h2 | ⟨a, b, h2, e2, _⟩
    · rw [h2]; exact ⟨(fun h => by cases h), fun t n r h => by cases h⟩
    · rw [h2]
      simp only [Res.ok_bind]
      subst e2 e
      cases e3 : message a with
      | error => exact ⟨(fun h => by cases h), fun t n r h => by cases h⟩
      | ub => exact ⟨fun _ => ⟨p, a, b, by simp, hp, message_long e3⟩, fun t n r h => by cases h⟩
      | ok fs =>
        simp only [Res.ok_bind]
        split
        · exact ⟨(fun h => by cases h), fun t n r h => by cases h⟩
        · rename_i hne
          refine ⟨(fun h => by cases h), fun t n r h => ?_⟩
          simp only [Res.ok.injEq, Option.some.injEq, Prod.mk.injEq] at h
          obtain ⟨_, h, rfl⟩ := h
          refine ⟨p, a, by simp, hp, fs, (message_fields e3).1, ?_⟩
          rw [lastNum_eq, List.getLastD_eq_getLast?] at h hne
          cases e4 : (nums 3 fs).getLast? with
          | none => rw [e4] at hne; exact absurd rfl hne
          | some x => rw [e4] at h; exact ⟨x, rfl, h⟩

theorem equalLit_defined : ∀ (s lit : List Byte), equalLit s lit = .ub → ∃ x r, s = lit ++ x :: r
  | [], _, h => by cases h
  | a :: s, [], _ => ⟨a, s, rfl⟩
  | a :: s, b :: lit, h => by
    unfold equalLit at h
    by_cases hab : a = b
    · rw [if_pos hab] at h
      obtain ⟨x, r, e⟩ := equalLit_defined s lit h
      exact ⟨x, r, by rw [hab, e]; rfl⟩
    · rw [if_neg hab] at h; cases h

theorem headerFields_defined {b : List Byte} : ∀ (fs : List Field) (o : Bool), (∀ f ∈ fs, HasField b f) →
    headerFields o fs = .ub → HasLongFeature b
  | [], o, _, h => by cases h
  | f :: fs, o, hf, h => by
    have hf' : ∀ f ∈ fs, HasField b f := fun f h => hf f (List.mem_cons_of_mem _ h)
    have h0 := hf f List.mem_cons_self
    unfold headerFields at h
    split at h
    · rename_i heq; cases heq
    · rename_i c fs' heq
      injection heq with h1 h2
      subst h1 h2
      cases e : equalLit c (denseNodesName ++ [0]) with
      | error => rw [e] at h; cases h
      | ub =>
        obtain ⟨x, r, e'⟩ := equalLit_defined _ _ e
        refine ⟨x, r, .inl ?_⟩
        rw [show text "DenseNodes" = denseNodesName by decide]
        simpa [e'] using h0
      | ok b =>
        rw [e] at h
        simp only [Res.ok_bind] at h
        cases b with
        | true => exact headerFields_defined fs _ hf' h
        | false => cases h
    · rename_i c fs' heq
      injection heq with h1 h2
      subst h1 h2
      cases e : equalLit c (sortName ++ [0]) with
      | error => rw [e] at h; cases h
      | ub =>
        obtain ⟨x, r, e'⟩ := equalLit_defined _ _ e
        refine ⟨x, r, .inr ?_⟩
        rw [show text "Sort.Type_then_ID" = sortName by decide]
        simpa [e'] using h0
      | ok b =>
        rw [e] at h
        simp only [Res.ok_bind] at h
        exact headerFields_defined fs _ hf' h
    · rename_i heq
      injection heq with h1 h2
      subst h2
      exact headerFields_defined fs _ hf' h

theorem headerOrdered_defined {b : List Byte} (h : headerOrdered b = .ub) : LongInMessage b ∨ HasLongFeature b := by
  unfold headerOrdered at h
  obtain ⟨k1, h2, _⟩ := fields_spec b
  have h1 := headerFields_defined (b := b) (decodeMessage (b.length + 1) b).1 false k1
  generalize decodeMessage (b.length + 1) b = x at *
  obtain ⟨fs, r⟩ := x
  simp only [] at *
  cases e : headerFields false fs with
  | error => rw [e] at h; cases h
  | ub => exact .inr (h1 e)
  | ok o =>
    rw [e] at h
    simp only [Res.ok_bind] at h
    cases r with
    | error => cases h
    | ok _ => cases h
    | ub => exact .inl (h2 rfl)

/-- What one pass of the loop may do. -/
theorem oneBlock_defined {inflate : List Byte → Option (List Byte)} {file : List Byte} (own : Bool) (st : Status) {l : List Byte}
    (hl : Behind file l) :
    ((oneBlock own st l).2 = .ub → UnclearFile inflate file) ∧
    (∀ r, (oneBlock own st l).2 = .ok (.again r) → Behind file r ∧ r.length < l.length) ∧
    (∀ b r, (oneBlock own st l).2 = .ok (.blob b r) → Behind file r ∧ HasBlob file b ∧ r.length < l.length ∧
      (oneBlock own st l).1.available = true) ∧
    (st.available = true → (oneBlock own st l).1.available = true) := by
  unfold oneBlock
  obtain ⟨g1, g2⟩ := blockHead_defined own l
  cases e : blockHead own l with
  | error => exact ⟨(fun h => by cases h), (fun r h => by cases h), (fun b r h => by cases h), id⟩
  | ub =>
    refine ⟨fun _ => ?_, (fun r h => by cases h), (fun b r h => by cases h), id⟩
    obtain ⟨s, h, r, rfl, h1, h2⟩ := g1 e
    exact .inl ⟨h, ⟨s, r, hl, h1⟩, h2⟩
  | ok o =>
    cases o with
    | none => exact ⟨(fun h => by cases h), (fun r h => by cases h), (fun b r h => by cases h), id⟩
    | some a =>
      obtain ⟨t, n, l1⟩ := a
      obtain ⟨s, h, el, i1, i2⟩ := g2 t n l1 e
      have after : ∀ a b, l1 = a ++ b → a.length = n → Behind file b ∧ HasBlob file a ∧ b.length < l.length := by
        intro a b e1 e2
        subst e1
        rw [el, ← List.append_assoc] at hl
        refine ⟨.next hl i1 (.inl (e2 ▸ i2)), ⟨s, h, b, hl, i1, e2 ▸ i2⟩, ?_⟩
        rw [el]
        simp only [List.length_append]
        omega
      simp only []
      split
      · rcases readOrThrow_cases n l1 with h2 | ⟨a, b, h2, e2, e3, _⟩
        · rw [h2]; exact ⟨(fun h => by cases h), (fun r h => by cases h), (fun b r h => by cases h), fun _ => rfl⟩
        · rw [h2]
          refine ⟨(fun h => by cases h), (fun r h => by cases h), fun b' r' h => ?_, fun _ => rfl⟩
          simp only [Res.ok_bind, Res.ok.injEq, Step.blob.injEq] at h
          obtain ⟨rfl, rfl⟩ := h
          obtain ⟨j1, j2, j3⟩ := after a b e2 e3
          exact ⟨j1, j2, j3, rfl⟩
      · split
        · split
          · exact ⟨(fun h => by cases h), (fun r h => by cases h), (fun b r h => by cases h), id⟩
          · rcases readOrThrow_cases n l1 with h2 | ⟨a, b, h2, e2, e3, _⟩
            · rw [h2]; exact ⟨(fun h => by cases h), (fun r h => by cases h), (fun b r h => by cases h), id⟩
            · rw [h2]
              obtain ⟨j1, j2, j3⟩ := after a b e2 e3
              simp only [Res.ok_bind]
              cases e3 : headerOrdered a with
              | error => exact ⟨(fun h => by cases h), (fun r h => by cases h), (fun b r h => by cases h), id⟩
              | ub =>
                refine ⟨fun _ => .inr ⟨a, j2, ?_⟩, (fun r h => by cases h), (fun b r h => by cases h), id⟩
                exact (headerOrdered_defined e3).imp id .inl
              | ok o =>
                refine ⟨(fun h => by cases h), fun r h => ?_, (fun b r h => by cases h), fun _ => rfl⟩
                simp only [Res.ok_bind, Res.ok.injEq, Step.again.injEq] at h
                subst h
                exact ⟨j1, j3⟩
        · rcases readStream_cases n l1 with h2 | h2 | ⟨a, b, h2, e2, e3, _⟩
          · rw [h2]; exact ⟨(fun h => by cases h), (fun r h => by cases h), (fun b r h => by cases h), id⟩
          · rw [h2]
            refine ⟨(fun h => by cases h), fun r h => ?_, (fun b r h => by cases h), id⟩
            simp only [Res.ok_bind, Res.ok.injEq, Step.again.injEq] at h
            subst h
            refine ⟨.next (b := []) (by rw [List.append_nil, ← el]; exact hl) i1 (.inr rfl), ?_⟩
            rw [el]
            simp only [List.length_append]
            omega
          · rw [h2]
            obtain ⟨j1, j2, j3⟩ := after a b e2 e3
            refine ⟨(fun h => by cases h), fun r h => ?_, (fun b r h => by cases h), id⟩
            simp only [Res.ok_bind, Res.ok.injEq, Step.again.injEq] at h
            subst h
            exact ⟨j1, j3⟩

theorem unblob_defined {inflate : List Byte → Option (List Byte)} {b : List Byte} : (unblob inflate b = .ub → LongInMessage b) ∧
    ∀ f, unblob inflate b = .ok f → ∃ d, f = frame d ∧ d.length + 4 ≤ readSize ∧ IsData inflate b d := by
  unfold unblob
  cases e : message b with
  | error => exact ⟨(fun h => by cases h), fun f h => by cases h⟩
  | ub => exact ⟨fun _ => message_long e, fun f h => by cases h⟩
  | ok fs =>
    have hf := (message_fields e).2
    simp only [Res.ok_bind]
    cases e1 : lastStr 1 fs with
    | none =>
      cases e2 : lastStr 3 fs with
      | none => exact ⟨(fun h => by cases h), fun f h => by cases h⟩
      | some z =>
        simp only []
        split
        · exact ⟨(fun h => by cases h), fun f h => by cases h⟩
        split
        · exact ⟨(fun h => by cases h), fun f h => by cases h⟩
        cases e3 : inflate z with
        | none => exact ⟨(fun h => by cases h), fun f h => by cases h⟩
        | some d =>
          simp only []
          split
          · exact ⟨(fun h => by cases h), fun f h => by cases h⟩
          split
          · exact ⟨(fun h => by cases h), fun f h => by cases h⟩
          refine ⟨(fun h => by cases h), fun f h => ?_⟩
          rename_i hlen hsize
          injection h with h
          subst h
          have hd : d.length = lastNum 2 (2 ^ 64 - 1) fs := by omega
          exact ⟨d, by unfold frame; rw [hd], by unfold readSize at *; omega, .inr ⟨z, lastStr_field hf e2, e3⟩⟩
    | some raw =>
      cases e2 : lastStr 3 fs with
      | some _ => exact ⟨(fun h => by cases h), fun f h => by cases h⟩
      | none =>
        simp only []
        split
        · exact ⟨(fun h => by cases h), fun f h => by cases h⟩
        split
        · exact ⟨(fun h => by cases h), fun f h => by cases h⟩
        split
        · exact ⟨(fun h => by cases h), fun f h => by cases h⟩
        refine ⟨(fun h => by cases h), fun f h => ?_⟩
        rename_i hs hsize hraw
        injection h with h
        subst h
        have hd : raw.length = lastNum 2 (2 ^ 64 - 1) fs := by omega
        exact ⟨raw, by unfold frame; rw [hd], by unfold readSize at *; omega, .inl (lastStr_field hf e1)⟩

/-- `d` is the data in a block of the file. -/
def DataOf (inflate : List Byte → Option (List Byte)) (file d : List Byte) : Prop := ∃ b, HasBlob file b ∧ IsData inflate b d

theorem decompress_defined {inflate : List Byte → Option (List Byte)} {own : Bool} {file : List Byte} : ∀ (fuel : Nat) (st : Status) (l : List Byte),
    l.length < fuel → Behind file l →
    ((decompress inflate own fuel st l).2.2 = .ub → UnclearFile inflate file) ∧
    (∃ ds : List (List Byte), (decompress inflate own fuel st l).2.1 = ds.map frame ∧ ∀ d ∈ ds, d.length + 4 ≤ readSize ∧ DataOf inflate file d) ∧
    (st.available = true → (decompress inflate own fuel st l).1.available = true) ∧
    ((decompress inflate own fuel st l).1.available = false → (decompress inflate own fuel st l).2.1 = [])
  | 0, _, _, h, _ => absurd h (by omega)
  | fuel + 1, st, l, h, hl => by
    unfold decompress
    obtain ⟨g1, g2, g3, g4⟩ := oneBlock_defined (inflate := inflate) own st hl
    generalize oneBlock own st l = x at *
    obtain ⟨st1, r⟩ := x
    simp only [] at g1 g2 g3 g4
    cases r with
    | error => exact ⟨(fun h => by cases h), ⟨[], rfl, fun d h => by cases h⟩, g4, fun _ => rfl⟩
    | ub => exact ⟨fun _ => g1 rfl, ⟨[], rfl, fun d h => by cases h⟩, g4, fun _ => rfl⟩
    | ok s =>
      cases s with
      | done => exact ⟨(fun h => by cases h), ⟨[], rfl, fun d h => by cases h⟩, g4, fun _ => rfl⟩
      | again r =>
        obtain ⟨h1, h2⟩ := g2 r rfl
        obtain ⟨i1, i2, i3, i4⟩ := decompress_defined (inflate := inflate) (own := own) fuel st1 r (by omega) h1
        exact ⟨i1, i2, fun h => i3 (g4 h), i4⟩
      | blob b r =>
        obtain ⟨h1, h2, h3, h4⟩ := g3 b r rfl
        obtain ⟨u1, u2⟩ := unblob_defined (inflate := inflate) (b := b)
        simp only []
        cases e : unblob inflate b with
        | error => exact ⟨(fun h => by cases h), ⟨[], rfl, fun d h => by cases h⟩, g4, fun _ => rfl⟩
        | ub => exact ⟨fun _ => .inr ⟨b, h2, .inl (u1 e)⟩, ⟨[], rfl, fun d h => by cases h⟩, g4, fun _ => rfl⟩
        | ok f =>
          obtain ⟨d, rfl, hd1, hd2⟩ := u2 f e
          obtain ⟨i1, ⟨ds, i2, i2'⟩, i3, i4⟩ := decompress_defined (inflate := inflate) (own := own) fuel st1 r (by omega) h1
          refine ⟨i1, ⟨d :: ds, by simp [i2], fun d' h => ?_⟩, fun h => i3 (g4 h), fun h => ?_⟩
          · rcases List.mem_cons.1 h with rfl | h
            · exact ⟨hd1, b, h2, hd2⟩
            · exact i2' d' h
          · have := i3 h4
            simp only [] at h
            rw [this] at h; cases h

theorem blockStream_defined {c : Wanted} : ∀ (ds : List (List Byte)) (fuel : Nat) (m : TagMap (List Byte)),
    (∀ d ∈ ds, d.length + 4 ≤ readSize) → (ds.map frame).flatten.length < fuel → TagSafe m →
    SafeOut (∃ d ∈ ds, UnclearBlock d) (blockStream c fuel (ds.map frame).flatten m)
  | _, 0, _, _, h, _ => absurd h (by omega)
  | [], fuel + 1, m, _, _, hm => by
    unfold blockStream
    simp only [List.map_nil, List.flatten_nil]
    rw [readStream_end 4 (by decide) (by decide)]
    exact safeOut_ok hm
  | d :: ds, fuel + 1, m, hd, hf, hm => by
    unfold blockStream
    have hs : d.length + 4 ≤ readSize := hd d List.mem_cons_self
    have hr : readSize = 67108864 := by decide
    simp only [List.map_cons, List.flatten_cons, List.length_append] at hf ⊢
    rw [show frame d = store32 (BitVec.ofNat 32 d.length) ++ d from rfl, List.append_assoc,
      readStream_append (store32_length _) (by decide)]
    simp only [after]
    rw [load_store, BitVec.toNat_ofNat, Nat.mod_eq_of_lt (by omega), readOrThrow_append rfl (by omega)]
    refine safeOut_step ((readBlock_defined (d := d) (by omega) hm).imp fun h => ⟨d, List.mem_cons_self, h⟩) fun m' hm' => ?_
    have hfl : (frame d).length = d.length + 4 := by
      unfold frame; rw [List.length_append, store32_length]; omega
    exact (blockStream_defined ds fuel m' (fun d h => hd d (List.mem_cons_of_mem _ h)) (by omega) hm').imp
      fun ⟨d, h1, h2⟩ => ⟨d, List.mem_cons_of_mem _ h1, h2⟩

theorem internalRead_defined {inflate : List Byte → Option (List Byte)} {own : Bool} {file : List Byte} (c : Wanted) (k : Nat) :
    SafeOut (UnclearFile inflate file) (internalRead c (decompressFile inflate own file).2 k) := by
  unfold decompressFile
  obtain ⟨h1, ⟨ds, h2, h3⟩, _, _⟩ := decompress_defined (inflate := inflate) (own := own) (file := file) (file.length + 1)
    ⟨false, false, false, false⟩ file (by omega) .start
  generalize decompress inflate own (file.length + 1) ⟨false, false, false, false⟩ file = x at *
  obtain ⟨st, out, r⟩ := x
  simp only [] at h1 h2
  subst h2
  have hb : ∀ e : List (List Byte), (∀ d ∈ e, d ∈ ds) → (∃ d ∈ e, UnclearBlock d) → UnclearFile inflate file := by
    rintro e he ⟨d, hd, hbad⟩
    obtain ⟨b, h4, h5⟩ := (h3 d (he d hd)).2
    exact .inr ⟨b, h4, .inr (.inr ⟨d, h5, hbad⟩)⟩
  unfold internalRead
  cases r with
  | ok _ => exact (blockStream_defined ds _ _ (fun d h => (h3 d h).1) (by simp) tagSafe_new).imp (hb ds fun d h => h)
  | ub => exact safeOut_ub (h1 rfl)
  | error =>
    simp only []
    rw [← List.map_take]
    exact safeOut_step ((blockStream_defined (ds.take k) _ _ (fun d h => (h3 d (List.mem_of_mem_take h)).1) (by simp) tagSafe_new).imp
      (hb _ fun d h => List.mem_of_mem_take h)) fun _ _ => safeOut_error

theorem decompress_nothing {inflate : List Byte → Option (List Byte)} {own : Bool} {file : List Byte}
    (h : (decompressFile inflate own file).1.available = false) (c : Wanted) (k : Nat) :
    (unorderedRead inflate own c k file).1 = [] := by
  have h4 : (decompressFile inflate own file).2.1 = [] := by
    unfold decompressFile at h ⊢
    exact (decompress_defined (inflate := inflate) (own := own) (file := file) (file.length + 1)
      ⟨false, false, false, false⟩ file (by omega) .start).2.2.2 h
  unfold unorderedRead
  split
  · generalize decompressFile inflate own file = x at *
    obtain ⟨st, out, r⟩ := x
    simp only [] at h4
    subst h4
    cases r with
    | ok _ => rfl
    | ub => rfl
    | error => simp only [internalRead, List.take_nil]; rfl
  · rfl

/-! ### Files of small bytes, for an example -/

/-- All bytes are below 128 and none is 18, which is the key of a group in a block. -/
def Plain (l : List Byte) : Prop := ∀ b ∈ l, b.toNat < 128 ∧ b ≠ 18#8

theorem Plain.infix {a b : List Byte} (h : Plain b) (hab : a <:+: b) : Plain a := fun x hx => h x (hab.subset hx)

theorem plain_tooLong {a b : List Byte} (h : Plain (a ++ b)) : ¬ TooLong b := by
  rintro ⟨h1, h2, _⟩
  cases b with
  | nil => simp at h1
  | cons x b =>
    have := (h x (by simp)).1
    have := h2 x (by simp)
    omega

theorem plain_message {l : List Byte} (h : Plain l) : ¬ LongInMessage l := by
  rintro ⟨a, fs, b, rfl, _, h1 | ⟨k, x, r, rfl, _, h1⟩⟩
  · exact plain_tooLong h h1
  · rw [← List.append_assoc] at h; exact plain_tooLong h h1

theorem hasField_infix {l : List Byte} {k : Nat} {c : List Byte} (h : HasField l (.bytes k c)) : c <:+: l := by
  obtain ⟨a, b, fs, rfl, h1, h2⟩ := h
  exact (bytes_infix h1 h2).trans (List.prefix_append _ _).isInfix

theorem plain_group {l : List Byte} (h : Plain l) {g : List Byte} : ¬ HasField l (.bytes 2 g) := by
  rintro ⟨a, b, fs, rfl, h1, h2⟩
  replace h : Plain a := h.infix (List.prefix_append _ _).isInfix
  clear b
  induction h1 with
  | nil => cases h2
  | cons h1 _ ih =>
    rcases List.mem_cons.1 h2 with rfl | h2
    · obtain ⟨k, n, rfl, ⟨⟨i, j, rfl, hi, hj⟩, _, hv⟩, _⟩ := h1
      cases i with
      | cons x i =>
        have := (h x (by simp)).1
        have := hi x (by simp)
        omega
      | nil =>
        refine (h j (by simp)).2 ?_
        simp only [List.nil_append, varintValue] at hv
        apply BitVec.eq_of_toNat_eq
        simp only [BitVec.toNat_ofNat]
        omega
    · exact ih h2 (h.infix (List.suffix_append _ _).isInfix)

theorem plain_block {d : List Byte} (h : Plain d) : ¬ UnclearBlock d := by
  have ho : ∀ k o, ¬ HasObject d k o := fun k o ⟨g, h1, _⟩ => plain_group h h1
  have ht : ∀ c, ¬ HasTagList d c := by
    rintro c (⟨k, _, o, h1, _⟩ | ⟨o, h1, _⟩) <;> exact ho _ _ h1
  rintro (⟨l, h1 | h1 | h1 | ⟨k, _, h1⟩, h2⟩ | ⟨c, h1 | ⟨o, h1, _⟩ | ⟨o, h1, _⟩ | ⟨o, h1, _⟩, _⟩ | ⟨c, n, x, h1, _⟩)
  · exact plain_message (h1 ▸ h) h2
  · exact plain_message (h.infix (hasField_infix h1)) h2
  · exact plain_group h h1
  · exact ho _ _ h1
  · exact ht _ h1
  · exact ho _ _ h1
  · exact ho _ _ h1
  · exact ho _ _ h1
  · exact ht _ h1

theorem behind_infix {file r : List Byte} (h : Behind file r) : r <:+: file := by
  induction h with
  | start => exact List.infix_rfl
  | next _ _ _ ih => exact (List.suffix_append _ _).isInfix.trans ih

theorem plain_file {file : List Byte} (h : Plain file) (h1 : ¬ text "DenseNodes" <:+: file) (h2 : ¬ text "Sort.Type_then_ID" <:+: file) :
    ¬ UnclearFile (fun _ => none) file := by
  rintro (⟨hd, ⟨s, r, h3, _⟩, h4⟩ | ⟨b, ⟨s, hd, r, h3, _⟩, h4⟩)
  · exact plain_message (h.infix (List.IsInfix.trans ⟨s, r, by simp⟩ (behind_infix h3))) h4
  · have hb : b <:+: file := List.IsInfix.trans ⟨s ++ hd, r, by simp⟩ (behind_infix h3)
    rcases h4 with h4 | ⟨x, r, h4 | h4⟩ | ⟨d, h4 | ⟨_, _, h4⟩, h5⟩
    · exact plain_message (h.infix hb) h4
    · exact h1 (((List.prefix_append _ _).isInfix.trans (hasField_infix h4)).trans hb)
    · exact h2 (((List.prefix_append _ _).isInfix.trans (hasField_infix h4)).trans hb)
    · exact plain_block (h.infix ((hasField_infix h4).trans hb)) h5
    · cases h4

end RK.Osm
