import Verif.Model.TagMap
import Verif.Proof.Chordal
/-! # Proofs about TagMap -/
namespace RK

variable {V : Type}

theorem insertNat_perm (x : Nat) : ∀ l, (insertNat x l).Perm (x :: l)
  | [] => by simp [insertNat]
  | y :: l => by
    unfold insertNat
    split
    · exact .refl _
    · exact (List.Perm.cons y (insertNat_perm x l)).trans (List.Perm.swap x y l)

theorem sortNats_perm : ∀ l, (sortNats l).Perm l
  | [] => .refl _
  | x :: l => (insertNat_perm x (sortNats l)).trans ((sortNats_perm l).cons x)

theorem charHash_lt (c : Byte) : charHash c < 16 := by
  unfold charHash
  have := Nat.mod_lt c.toNat (show 0 < 7 by omega)
  repeat' split
  all_goals omega

theorem strHash_spec (s : List Byte) : ∃ h, strHash s = some h ∧ h < hashCount := by
  unfold strHash
  by_cases h0 : s.length = 0
  · exact ⟨0, by rw [if_pos h0], by decide⟩
  · obtain ⟨a, ea⟩ := rd_isSome (v := s) (i := 0) (by omega)
    obtain ⟨b, eb⟩ := rd_isSome (v := s) (i := s.length - 1) (by omega)
    obtain ⟨c, ec⟩ := rd_isSome (v := s) (i := (s.length - 1) / 2) (by omega)
    refine ⟨(charHash a * 16 + charHash b) * 16 + charHash c, by rw [if_neg h0]; simp only [ea, eb, ec, Option.bind_eq_bind, Option.bind_some], ?_⟩
    have h1 := charHash_lt a
    have h2 := charHash_lt b
    have h3 := charHash_lt c
    unfold hashCount
    omega

theorem shr16 (x : Nat) : x >>> 16 = x / 65536 := by rw [Nat.shiftRight_eq_div_pow]

theorem and16 (x : Nat) : x &&& 0xFFFF = x % 65536 := Nat.and_two_pow_sub_one_eq_mod x 16

theorem hash_or {h i : Nat} (hh : h < hashCount) (hi : i < 65536) : ((h <<< 16) ||| i) % u32 = h * 65536 + i := by
  rw [← Nat.shiftLeft_add_eq_or_of_lt (by simpa using hi), Nat.shiftLeft_eq]
  have : hashCount = 4096 := rfl
  have : u32 = 4294967296 := rfl
  exact Nat.mod_eq_of_lt (by omega)

theorem hashElements_spec (kv : List (List Byte × V)) : ∃ l, hashElements kv = some l ∧ l.length = kv.length ∧
    ∀ i p h, rd kv i = some p → strHash p.1 = some h → rd l i = some (((h <<< 16) ||| i) % u32) := by
  obtain ⟨l, e, h1, h2⟩ := forRange_inv (f := fun l i => do
      let (k, _) ← rd kv i
      let h ← strHash k
      some (l ++ [((h <<< 16) ||| i) % u32])) (lo := 0) (hi := kv.length) (s := ([] : List Nat))
    (P := fun i l => l.length = i ∧ ∀ j p h, j < i → rd kv j = some p → strHash p.1 = some h → rd l j = some (((h <<< 16) ||| j) % u32))
    (by omega) ⟨rfl, fun j p h hj => by omega⟩
    (fun i l _ hi hl => by
      obtain ⟨p, ep⟩ := rd_isSome hi
      obtain ⟨h, eh, _⟩ := strHash_spec p.1
      refine ⟨l ++ [((h <<< 16) ||| i) % u32], by simp [ep, eh], by simp [hl.1], ?_⟩
      intro j q h' hj eq eh'
      by_cases hji : j = i
      · subst hji
        rw [ep] at eq
        injection eq with eq
        subst eq
        rw [eh] at eh'
        injection eh' with eh'
        subst eh'
        simp [rd, List.getElem?_append, hl.1]
      · have := hl.2 j q h' (by omega) eq eh'
        have hlt := rd_some_lt this
        unfold rd at this ⊢
        rw [List.getElem?_append_left hlt]
        exact this)
  exact ⟨l, e, h1, fun i p h hp => h2 i p h (rd_some_lt hp) hp⟩

/-- The invariant between calls: the buckets are empty except for those in `hash_element_list`. -/
structure TagClean (m : TagMap V) : Prop where
  lenB : m.entryBegin.length = hashCount
  lenE : m.entryEnd.length = hashCount
  inB : ∀ x ∈ m.hashElementList, x >>> 16 < hashCount
  zero : ∀ h, h < hashCount → (∀ x ∈ m.hashElementList, x >>> 16 ≠ h) → rd m.entryBegin h = some 0 ∧ rd m.entryEnd h = some 0

theorem tagClean_new : TagClean (TagMap.new : TagMap V) :=
  ⟨List.length_replicate, List.length_replicate, (fun x hx => by cases hx),
    fun h hh _ => ⟨rd_replicate hh, rd_replicate hh⟩⟩

theorem tagClear_spec {m : TagMap V} (hm : TagClean m) : ∃ m', m.clear = some m' ∧ m'.hashElementList = m.hashElementList ∧
    m'.entry = m.entry ∧ m'.entryBegin = List.replicate hashCount 0 ∧ m'.entryEnd = List.replicate hashCount 0 := by
  obtain ⟨m', e, h1, h2, h3, h4, h5⟩ := forEach_inv (f := fun (m : TagMap V) x => do
      let b ← wr m.entryBegin (x >>> 16) 0
      let e ← wr m.entryEnd (x >>> 16) 0
      some { m with entryBegin := b, entryEnd := e })
    (P := fun pre m' => m'.hashElementList = m.hashElementList ∧ m'.entry = m.entry ∧ m'.entryBegin.length = hashCount ∧
      m'.entryEnd.length = hashCount ∧ ∀ h, h < hashCount → (∀ x ∈ m.hashElementList, x >>> 16 ≠ h) ∨ (∃ x ∈ pre, x >>> 16 = h) →
        rd m'.entryBegin h = some 0 ∧ rd m'.entryEnd h = some 0)
    m.hashElementList [] m ⟨rfl, rfl, hm.lenB, hm.lenE, fun h hh hx => by
      rcases hx with hx | ⟨x, hx, _⟩
      · exact hm.zero h hh hx
      · cases hx⟩
    (fun pre x post s hsplit _ hs => by
      obtain ⟨g1, g2, g3, g4, g5⟩ := hs
      have hx : x >>> 16 < hashCount := hm.inB x (by
        rw [List.nil_append] at hsplit; rw [hsplit]; simp)
      refine ⟨{ s with entryBegin := s.entryBegin.set (x >>> 16) 0, entryEnd := s.entryEnd.set (x >>> 16) 0 }, ?_, g1, g2, by simpa using g3,
        by simpa using g4, ?_⟩
      · simp only [wr_lt (show x >>> 16 < s.entryBegin.length by omega), wr_lt (show x >>> 16 < s.entryEnd.length by omega),
          Option.bind_eq_bind, Option.bind_some]
      · intro h hh hor
        show rd (s.entryBegin.set (x >>> 16) 0) h = _ ∧ rd (s.entryEnd.set (x >>> 16) 0) h = _
        rw [rd_set (by omega), rd_set (by omega)]
        by_cases hhx : h = x >>> 16
        · rw [if_pos hhx, if_pos hhx]; exact ⟨rfl, rfl⟩
        · rw [if_neg hhx, if_neg hhx]
          refine g5 h hh ?_
          rcases hor with hor | ⟨y, hy, e⟩
          · exact Or.inl hor
          · rcases List.mem_append.1 hy with hy | hy
            · exact Or.inr ⟨y, hy, e⟩
            · rw [List.mem_singleton] at hy
              exact absurd (by rw [← e, hy]) hhx)
  rw [List.nil_append] at h5
  have key : ∀ h, h < hashCount → rd m'.entryBegin h = some 0 ∧ rd m'.entryEnd h = some 0 := by
    intro h hh
    refine h5 h hh ?_
    by_cases hc : ∃ x ∈ m.hashElementList, x >>> 16 = h
    · exact Or.inr hc
    · push Not at hc; exact Or.inl hc
  refine ⟨m', e, h1, h2, ?_, ?_⟩
  · refine list_ext_rd (by simpa using h3) (fun i hi => ?_)
    rw [(key i (by omega)).1, rd_replicate (by omega)]
  · refine list_ext_rd (by simpa using h4) (fun i hi => ?_)
    rw [(key i (by omega)).2, rd_replicate (by omega)]

theorem tagClean_clear {m m' : TagMap V} (hm : TagClean m) (h : m.clear = some m') : TagClean m' := by
  obtain ⟨m1, e, h1, h2, h3, h4⟩ := tagClear_spec hm
  rw [h] at e
  injection e with e
  subst e
  refine ⟨by rw [h3]; exact List.length_replicate, by rw [h4]; exact List.length_replicate, by rw [h1]; exact hm.inB, fun h hh _ => ?_⟩
  rw [h3, h4]
  exact ⟨rd_replicate hh, rd_replicate hh⟩

/-- The invariant of the loop in `build`: `L` is the sorted list. -/
structure TagInv (kv : List (List Byte × V)) (L : List Nat) (i : Nat) (m : TagMap V) (prev : Nat) : Prop where
  hel : m.hashElementList = L
  lenB : m.entryBegin.length = hashCount
  lenE : m.entryEnd.length = hashCount
  lenEntry : m.entry.length = i
  entry : ∀ k x, k < i → rd L k = some x → rd m.entry k = rd kv (x % 65536)
  bucket : ∀ h, h < hashCount → ∃ b e, rd m.entryBegin h = some b ∧ rd m.entryEnd h = some e ∧ e ≤ i ∧
    (∀ k x, k < i → rd L k = some x → (x / 65536 = h ↔ b ≤ k ∧ k < e)) ∧
    ((∀ k x, k < i → rd L k = some x → x / 65536 ≠ h) → b = 0 ∧ e = 0)
  first : i = 0 → prev = hashCount
  prev : ∀ x, 0 < i → rd L (i - 1) = some x → prev = x / 65536

theorem tagPlace_spec {kv : List (List Byte × V)} {L : List Nat} {i x : Nat} {m : TagMap V} {prev : Nat}
    (hm : TagInv kv L i m prev) (hx : rd L i = some x) (hj : x % 65536 < kv.length) (hh : x / 65536 < hashCount)
    (hs : ∀ k k' y y', k ≤ k' → rd L k = some y → rd L k' = some y' → y ≤ y') :
    ∃ m', tagPlace kv (m, prev) i = some (m', x / 65536) ∧ TagInv kv L (i + 1) m' (x / 65536) := by
  obtain ⟨p, ep⟩ := rd_isSome hj
  obtain ⟨b0, e0, eb0, ee0, hle, hb, hz⟩ := hm.bucket _ hh
  -- the new begin of the bucket
  have hbeg : ∃ eb, (if x >>> 16 ≠ prev then wr m.entryBegin (x >>> 16) i else some m.entryBegin) = some eb ∧ eb.length = hashCount ∧
      (∀ h, h ≠ x / 65536 → rd eb h = rd m.entryBegin h) ∧
      ∃ b, rd eb (x / 65536) = some b ∧ b ≤ i ∧ ∀ k y, k < i → rd L k = some y → (y / 65536 = x / 65536 ↔ b ≤ k) := by
    rw [shr16]
    by_cases hp : x / 65536 = prev
    · rw [if_neg (by simpa using hp)]
      refine ⟨_, rfl, hm.lenB, fun h _ => rfl, b0, eb0, ?_, ?_⟩
      · have hi : 0 < i := by
          rcases Nat.eq_zero_or_pos i with h0 | h0
          · have := hm.first h0; omega
          · exact h0
        obtain ⟨y, ey⟩ := rd_isSome (v := L) (i := i - 1) (by have := rd_some_lt hx; omega)
        have h1 := hm.prev y hi ey
        have := ((hb (i - 1) y (by omega) ey).1 (by omega)).1
        omega
      · intro k y hk ey
        rw [hb k y hk ey]
        have hi : 0 < i := by omega
        obtain ⟨z, ez⟩ := rd_isSome (v := L) (i := i - 1) (by have := rd_some_lt hx; omega)
        have h1 := hm.prev z hi ez
        have := (hb (i - 1) z (by omega) ez).1 (by omega)
        omega
    · rw [if_pos (by simpa using hp), wr_lt (by rw [hm.lenB]; exact hh)]
      refine ⟨_, rfl, by rw [List.length_set]; exact hm.lenB, fun h hne => ?_, i, ?_, Nat.le_refl _, ?_⟩
      · rw [rd_set (by rw [hm.lenB]; exact hh), if_neg hne]
      · rw [rd_set (by rw [hm.lenB]; exact hh), if_pos rfl]
      · intro k y hk ey
        refine ⟨fun hy => ?_, fun h => by omega⟩
        exfalso
        obtain ⟨z, ez⟩ := rd_isSome (v := L) (i := i - 1) (by have := rd_some_lt hx; omega)
        have h1 := hm.prev z (by omega) ez
        have h3 := hs (i - 1) i z x (by omega) ez hx
        have h4 := hs k (i - 1) y z (by omega) ey ez
        have h5 := Nat.div_le_div_right (c := 65536) h3
        have h6 := Nat.div_le_div_right (c := 65536) h4
        omega
  obtain ⟨eb, e1, l1, g1, b, e2, g2, g3⟩ := hbeg
  have hlE : x / 65536 < m.entryEnd.length := by rw [hm.lenE]; exact hh
  refine ⟨{ m with entry := m.entry ++ [p], entryBegin := eb, entryEnd := m.entryEnd.set (x / 65536) (i + 1) }, ?_, ?_⟩
  · unfold tagPlace
    simp only [hm.hel, hx, Option.bind_eq_bind, Option.bind_some, and16, ep, e1]
    simp only [shr16, wr_lt hlE, Option.bind_some]
  · refine ⟨hm.hel, l1, by rw [List.length_set]; exact hm.lenE, by simp [hm.lenEntry], ?_, ?_, fun h => by omega, ?_⟩
    · intro k y hk ey
      show rd (m.entry ++ [p]) k = _
      by_cases hki : k = i
      · subst hki
        rw [hx] at ey
        injection ey with ey
        subst ey
        rw [ep]
        simp [rd, hm.lenEntry]
      · rw [← hm.entry k y (by omega) ey]
        unfold rd
        rw [List.getElem?_append_left (by rw [hm.lenEntry]; omega)]
    · intro h hhc
      by_cases hhx : h = x / 65536
      · subst hhx
        refine ⟨b, i + 1, e2, ?_, Nat.le_refl _, ?_, ?_⟩
        · show rd (m.entryEnd.set (x / 65536) (i + 1)) _ = _
          rw [rd_set hlE, if_pos rfl]
        · intro k y hk ey
          by_cases hki : k = i
          · subst hki
            rw [hx] at ey
            injection ey with ey
            subst ey
            exact ⟨fun _ => ⟨g2, by omega⟩, fun _ => rfl⟩
          · rw [g3 k y (by omega) ey]
            constructor
            · intro h; exact ⟨h, by omega⟩
            · intro h; exact h.1
        · intro hno
          exact absurd rfl (hno i x (by omega) hx)
      · obtain ⟨b', e', q1, q2, q3, q4, q5⟩ := hm.bucket h hhc
        refine ⟨b', e', (g1 h hhx).trans q1, ?_, by omega, ?_, ?_⟩
        · show rd (m.entryEnd.set (x / 65536) (i + 1)) _ = _
          rw [rd_set hlE, if_neg hhx]; exact q2
        · intro k y hk ey
          by_cases hki : k = i
          · subst hki
            rw [hx] at ey
            injection ey with ey
            subst ey
            exact ⟨fun h => absurd h.symm hhx, fun h => by omega⟩
          · exact q4 k y (by omega) ey
        · intro hno
          exact q5 (fun k y hk ey => hno k y (by omega) ey)
    · intro y _ ey
      rw [Nat.add_sub_cancel, hx] at ey
      injection ey with ey
      rw [ey]

theorem rd_mem {α : Type} {l : List α} {i : Nat} {x : α} (h : rd l i = some x) : x ∈ l := List.mem_of_getElem? h

/-- Facts about the sorted list. -/
theorem sorted_hashElements {kv : List (List Byte × V)} (hn : kv.length ≤ 65536) : ∃ l, hashElements kv = some l ∧
    (sortNats l).length = kv.length ∧
    (∀ k x, rd (sortNats l) k = some x → ∃ p, rd kv (x % 65536) = some p ∧ strHash p.1 = some (x / 65536) ∧ x / 65536 < hashCount) ∧
    (∀ k k' y y', k < k' → rd (sortNats l) k = some y → rd (sortNats l) k' = some y' → y < y') ∧
    (∀ j p h, rd kv j = some p → strHash p.1 = some h → ∃ k, rd (sortNats l) k = some (h * 65536 + j)) := by
  obtain ⟨l, e, h1, h2⟩ := hashElements_spec kv
  have h3 : ∀ j p h, rd kv j = some p → strHash p.1 = some h → rd l j = some (h * 65536 + j) := by
    intro j p h hp hh
    have hj := rd_some_lt hp
    obtain ⟨h', e', hlt⟩ := strHash_spec p.1
    rw [hh] at e'
    injection e' with e'
    subst e'
    rw [h2 j p h hp hh, hash_or hlt (by omega)]
  have h4 : ∀ j x, rd l j = some x → ∃ p, rd kv j = some p ∧ strHash p.1 = some (x / 65536) ∧ x % 65536 = j ∧ x / 65536 < hashCount := by
    intro j x hx
    have hj := rd_some_lt hx
    obtain ⟨p, ep⟩ := rd_isSome (v := kv) (i := j) (by omega)
    obtain ⟨h', e', hlt⟩ := strHash_spec p.1
    have := h3 j p h' ep e'
    rw [hx] at this
    injection this with this
    refine ⟨p, ep, ?_, by omega, by omega⟩
    rw [e', this]; congr 1; omega
  have hnd : l.Nodup := by
    refine List.pairwise_iff_getElem.2 (fun i j hi hj hij he => ?_)
    obtain ⟨_, _, _, g1, _⟩ := h4 j _ (rd_lt hj)
    obtain ⟨_, _, _, g2, _⟩ := h4 i _ (rd_lt hi)
    rw [he] at g2
    omega
  have hperm := sortNats_perm l
  have hnd' : (sortNats l).Nodup := hperm.nodup_iff.2 hnd
  refine ⟨l, e, hperm.length_eq.trans h1, ?_, ?_, ?_⟩
  · intro k x hx
    obtain ⟨j, hj⟩ := List.mem_iff_getElem?.1 (mem_sortNats.1 (rd_mem hx))
    obtain ⟨p, ep, g1, g2, g3⟩ := h4 j x hj
    exact ⟨p, by rw [g2]; exact ep, g1, g3⟩
  · intro k k' y y' hk ey ey'
    obtain ⟨hk1, e1⟩ := rd_eq_some.1 ey
    obtain ⟨hk2, e2⟩ := rd_eq_some.1 ey'
    have hle := List.pairwise_iff_getElem.1 (sorted_sortNats l) k k' hk1 hk2 hk
    have hne := List.pairwise_iff_getElem.1 hnd' k k' hk1 hk2 hk
    rw [e1, e2] at hle hne
    exact lt_of_le_of_ne hle hne
  · intro j p h hp hh
    exact List.mem_iff_getElem?.1 (mem_sortNats.2 (rd_mem (h3 j p h hp hh)))

theorem tagBuild_spec {m : TagMap V} (hm : TagClean m) {kv : List (List Byte × V)} (hn : kv.length ≤ 65536) :
    ∃ m' l prev, m.build kv = some m' ∧ TagClean m' ∧ TagInv kv (sortNats l) kv.length m' prev ∧ hashElements kv = some l := by
  obtain ⟨m1, e1, _, _, hB, hE⟩ := tagClear_spec hm
  obtain ⟨l, el, g1, g2, g3, g4⟩ := sorted_hashElements hn
  have hmono : ∀ k k' y y', k ≤ k' → rd (sortNats l) k = some y → rd (sortNats l) k' = some y' → y ≤ y' := by
    intro k k' y y' hk ey ey'
    rcases Nat.lt_or_eq_of_le hk with h | rfl
    · exact Nat.le_of_lt (g3 k k' y y' h ey ey')
    · rw [ey] at ey'; injection ey' with e; omega
  obtain ⟨⟨m', prev⟩, ef, hinv⟩ := forRange_inv (f := tagPlace kv) (lo := 0) (hi := kv.length)
    (s := ({ m1 with hashElementList := sortNats l, entry := [] }, hashCount)) (P := fun i st => TagInv kv (sortNats l) i st.1 st.2) (by omega)
    ⟨rfl, by show m1.entryBegin.length = _; rw [hB]; exact List.length_replicate,
      by show m1.entryEnd.length = _; rw [hE]; exact List.length_replicate, rfl, fun k x hk => by omega,
      fun h hh => ⟨0, 0, by show rd m1.entryBegin h = _; rw [hB]; exact rd_replicate hh,
        by show rd m1.entryEnd h = _; rw [hE]; exact rd_replicate hh, Nat.le_refl _, fun k x hk => by omega, fun _ => ⟨rfl, rfl⟩⟩,
      fun _ => rfl, fun x h0 => by omega⟩
    (fun i st _ hi hst => by
      obtain ⟨x, ex⟩ := rd_isSome (v := sortNats l) (i := i) (by omega)
      obtain ⟨p, ep, _, hh⟩ := g2 i x ex
      obtain ⟨m', e, h⟩ := tagPlace_spec hst ex (rd_some_lt ep) hh hmono
      exact ⟨_, e, h⟩)
  refine ⟨m', l, prev, ?_, ?_, hinv, el⟩
  · unfold TagMap.build
    simp only [e1, el, ef, Option.bind_eq_bind, Option.bind_some]
  · have hin : TagInv kv (sortNats l) kv.length m' prev := hinv
    refine ⟨hin.lenB, hin.lenE, ?_, ?_⟩
    · intro x hx
      rw [hin.hel] at hx
      obtain ⟨k, hk⟩ := List.mem_iff_getElem?.1 hx
      obtain ⟨_, _, _, h⟩ := g2 k x hk
      rw [shr16]; exact h
    · intro h hh hno
      obtain ⟨b, e, eb, ee, _, _, hz⟩ := hin.bucket h hh
      obtain ⟨rfl, rfl⟩ := hz (fun k x _ ex hx => hno x (by rw [hin.hel]; exact rd_mem ex) (by rw [shr16]; exact hx))
      exact ⟨eb, ee⟩

/-- The loop of the lookup finds the first matching entry of the range. -/
theorem tagFind_spec {entry : List (List Byte × V)} {key : List Byte} : ∀ (n i : Nat), i + n ≤ entry.length →
    (tagFind entry key i n = some none ∧ ∀ k p, i ≤ k → k < i + n → rd entry k = some p → p.1 ≠ key) ∨
    (∃ k v, tagFind entry key i n = some (some v) ∧ i ≤ k ∧ k < i + n ∧ rd entry k = some (key, v) ∧
      ∀ k' p, i ≤ k' → k' < k → rd entry k' = some p → p.1 ≠ key)
  | 0, i, _ => Or.inl ⟨rfl, fun k p h1 h2 => by omega⟩
  | n + 1, i, h => by
    obtain ⟨⟨k, v⟩, e⟩ := rd_isSome (v := entry) (i := i) (by omega)
    rw [tagFind, e]
    simp only [Option.bind_eq_bind, Option.bind_some]
    by_cases hk : k = key
    · subst hk
      rw [if_pos rfl]
      exact Or.inr ⟨i, v, rfl, Nat.le_refl _, by omega, e, fun k' p h1 h2 => by omega⟩
    · rw [if_neg hk]
      rcases tagFind_spec (entry := entry) (key := key) n (i + 1) (by omega) with ⟨h1, h2⟩ | ⟨k1, v1, h1, h2, h3, h4, h5⟩
      · refine Or.inl ⟨h1, fun k' p ha hb hp => ?_⟩
        by_cases hki : k' = i
        · subst hki; rw [e] at hp; injection hp with hp; subst hp; exact hk
        · exact h2 k' p (by omega) (by omega) hp
      · refine Or.inr ⟨k1, v1, h1, by omega, by omega, h4, fun k' p ha hb hp => ?_⟩
        by_cases hki : k' = i
        · subst hki; rw [e] at hp; injection hp with hp; subst hp; exact hk
        · exact h5 k' p (by omega) (by omega) hp

theorem get_spec {m m' : TagMap V} (hm : TagClean m) {kv : List (List Byte × V)} (hn : kv.length ≤ 65536) (hb : m.build kv = some m') (key : List Byte) :
    m'.get key = some ((kv.find? (fun p => p.1 = key)).map Prod.snd) := by
  obtain ⟨m1, l, prev, e1, hc, hinv, el⟩ := tagBuild_spec hm hn
  rw [hb] at e1
  injection e1 with e1
  subst e1
  obtain ⟨l', el', g1, g2, g3, g4⟩ := sorted_hashElements hn
  rw [el] at el'
  injection el' with el'
  subst el'
  obtain ⟨h, eh, hh⟩ := strHash_spec key
  obtain ⟨b, e, eb, ee, hle, hbu, _⟩ := hinv.bucket h hh
  have hget : m'.get key = tagFind m'.entry key b (e - b) := by
    unfold TagMap.get
    simp only [eh, eb, ee, Option.bind_eq_bind, Option.bind_some]
  rw [hget]
  -- every pair with the key is in the range
  have hpos : ∀ j p, rd kv j = some p → p.1 = key → ∃ k, rd (sortNats l) k = some (h * 65536 + j) ∧ b ≤ k ∧ k < e ∧ rd m'.entry k = some p := by
    intro j p hp hk
    obtain ⟨k, ek⟩ := g4 j p h hp (by rw [hk]; exact eh)
    have hj := rd_some_lt hp
    have hkl := rd_some_lt ek
    rw [g1] at hkl
    have := (hbu k _ hkl ek).1 (by omega)
    refine ⟨k, ek, this.1, this.2, ?_⟩
    rw [hinv.entry k _ hkl ek, show (h * 65536 + j) % 65536 = j by omega, hp]
  by_cases hbe : e ≤ b
  · have : kv.find? (fun p => p.1 = key) = none := by
      rw [List.find?_eq_none]
      intro p hp hk
      obtain ⟨j, hj⟩ := List.mem_iff_getElem?.1 hp
      obtain ⟨k, _, h1, h2, _⟩ := hpos j p hj (by simpa using hk)
      omega
    rw [this, show e - b = 0 by omega]; rfl
  · rcases tagFind_spec (entry := m'.entry) (key := key) (e - b) b (by rw [hinv.lenEntry]; omega) with ⟨h1, h2⟩ | ⟨k, v, h1, h2, h3, h4, h5⟩
    · rw [h1]
      have : kv.find? (fun p => p.1 = key) = none := by
        rw [List.find?_eq_none]
        intro p hp hk
        obtain ⟨j, hj⟩ := List.mem_iff_getElem?.1 hp
        obtain ⟨k, _, q1, q2, q3⟩ := hpos j p hj (by simpa using hk)
        exact h2 k p q1 (by omega) q3 (by simpa using hk)
      rw [this]; rfl
    · rw [h1]
      obtain ⟨x, ex⟩ := rd_isSome (v := sortNats l) (i := k) (by rw [g1]; omega)
      have hx := (hbu k x (by omega) ex).2 ⟨h2, by omega⟩
      have hent := hinv.entry k x (by omega) ex
      rw [h4] at hent
      have : kv.find? (fun p => p.1 = key) = some (key, v) := by
        rw [List.find?_eq_some_iff_getElem]
        refine ⟨by simp, x % 65536, rd_some_lt hent.symm, (rd_eq_some.1 hent.symm).2, ?_⟩
        intro j hj
        have hjl : j < kv.length := by have := rd_some_lt hent.symm; omega
        by_contra hc
        simp only [Bool.not_eq_true', decide_eq_false_iff_not, not_not] at hc
        obtain ⟨k', ek', q1, q2, q3⟩ := hpos j kv[j] (rd_lt hjl) hc
        have hkk : k' < k := by
          by_contra hge
          rcases Nat.lt_or_eq_of_le (Nat.le_of_not_lt hge) with hlt | heq
          · have := g3 k k' _ _ hlt ex ek'; omega
          · subst heq; rw [ex] at ek'; injection ek' with ek'; omega
        exact h5 k' _ q1 hkk q3 hc
      rw [this]; rfl

/-- For any number of pairs, the entries are among the first 65536 pairs. -/
theorem build_entries {m m' : TagMap V} {kv : List (List Byte × V)} (h : m.build kv = some m') : ∀ p ∈ m'.entry, p ∈ kv.take 65536 := by
  unfold TagMap.build at h
  obtain ⟨m1, _, h⟩ := Option.bind_eq_some_iff.1 h
  obtain ⟨l, _, h⟩ := Option.bind_eq_some_iff.1 h
  obtain ⟨⟨m2, prev⟩, hf, h⟩ := Option.bind_eq_some_iff.1 h
  have := forRange_inv' (P := fun _ (st : TagMap V × Nat) => ∀ p ∈ st.1.entry, p ∈ kv.take 65536) (by omega) (by simp) hf
    (fun i st st' _ _ hst hs => by
      obtain ⟨m, prev⟩ := st
      unfold tagPlace at hs
      obtain ⟨x, _, hs⟩ := Option.bind_eq_some_iff.1 hs
      obtain ⟨e, he, hs⟩ := Option.bind_eq_some_iff.1 hs
      obtain ⟨eb, _, hs⟩ := Option.bind_eq_some_iff.1 hs
      obtain ⟨ee, _, hs⟩ := Option.bind_eq_some_iff.1 hs
      injection hs with hs
      subst hs
      intro p hp
      rcases List.mem_append.1 hp with hp | hp
      · exact hst p hp
      · rw [List.mem_singleton] at hp
        subst hp
        rw [and16] at he
        obtain ⟨hlt, hx⟩ := rd_eq_some.1 he
        rw [List.mem_take_iff_getElem]
        exact ⟨x % 65536, by have := Nat.mod_lt x (show 0 < 65536 by omega); omega, hx⟩)
  injection h with h
  subst h
  exact this

theorem build_perm {m m' : TagMap V} (hm : TagClean m) {kv : List (List Byte × V)} (hn : kv.length ≤ 65536) (hb : m.build kv = some m') :
    m'.entry.Perm kv := by
  obtain ⟨m1, l, prev, e1, hc, hinv, el⟩ := tagBuild_spec hm hn
  rw [hb] at e1
  injection e1 with e1
  subst e1
  obtain ⟨l', el', h1, h2⟩ := hashElements_spec kv
  rw [el] at el'
  injection el' with el'
  subst el'
  have hl : (sortNats l).length = kv.length := (sortNats_perm l).length_eq.trans h1
  have a1 : m'.entry.map some = (sortNats l).map (fun x => rd kv (x % 65536)) := by
    refine list_ext_rd (by rw [List.length_map, List.length_map, hinv.lenEntry, hl]) (fun i hi => ?_)
    rw [List.length_map, hinv.lenEntry] at hi
    obtain ⟨x, ex⟩ := rd_isSome (v := sortNats l) (i := i) (by omega)
    have h3 := hinv.entry i x hi ex
    obtain ⟨p, ep⟩ := rd_isSome (v := m'.entry) (i := i) (by rw [hinv.lenEntry]; exact hi)
    unfold rd at ex ep h3 ⊢
    rw [List.getElem?_map, List.getElem?_map, ex, ep, Option.map_some, Option.map_some, ← h3, ep]
  have a2 : l.map (fun x => rd kv (x % 65536)) = kv.map some := by
    refine list_ext_rd (by rw [List.length_map, List.length_map, h1]) (fun i hi => ?_)
    rw [List.length_map] at hi
    obtain ⟨p, ep⟩ := rd_isSome (v := kv) (i := i) (by omega)
    obtain ⟨h, eh, hlt⟩ := strHash_spec p.1
    have h3 := h2 i p h ep eh
    rw [hash_or hlt (by omega)] at h3
    unfold rd at ep h3 ⊢
    rw [List.getElem?_map, List.getElem?_map, h3, ep, Option.map_some, Option.map_some, show (h * 65536 + i) % 65536 = i by omega, ep]
  have := (sortNats_perm l).map (fun x => rd kv (x % 65536))
  rw [← a1, a2] at this
  exact (List.map_perm_map_iff (fun a b h => Option.some.inj h)).1 this

end RK
