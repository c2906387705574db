import Verif.Proof.CchTri
/-! Helper lemmas: removing the arcs that always have infinite weight. -/
namespace RK
open Spec BitVector

theorem isPath_of_lt {E : Nat → Nat → Prop} {a b x y : Nat} (h : InnerPath E (fun z => z < a) x y) (hab : a ≤ b) :
    InnerPath E (fun z => z < b) x y := innerPath_mono (fun _ h' => by omega) h

/-- What the input mapping needs: input arc `i` leads from `rt[i]` to `rh[i]`. -/
structure MapOk (upTail upHead rt rh m : List Nat) (U : List Bool) : Prop where
  len : m.length = rt.length
  lenH : rh.length = rt.length
  lenU : U.length = rt.length
  at_ : ∀ i t h, rd rt i = some t → rd rh i = some h → MapAt upTail upHead m U i t h

/-- The input arcs mapped to an upward arc, by direction. -/
theorem MapOk.arc {upTail upHead rt rh m : List Nat} {U : List Bool} (mo : MapOk upTail upHead rt rh m U)
    (hs : SortedArcs upTail upHead) (hsm : upTail.length ≤ invalidId) {a x y : Nat} (hx : rd upTail a = some x)
    (hy : rd upHead a = some y) (hxy : x < y) (i : Nat) :
    ((rd m i = some a ∧ at' U i = true) ↔ rd rt i = some x ∧ rd rh i = some y) ∧
    ((rd m i = some a ∧ at' U i = false) ↔ rd rt i = some y ∧ rd rh i = some x) := by
  have ha := rd_some_lt hx
  have key : ∀ t h, rd rt i = some t → rd rh i = some h → rd m i = some a →
      (t < h ∧ t = x ∧ h = y ∧ at' U i = true) ∨ (h < t ∧ t = y ∧ h = x ∧ at' U i = false) := by
    intro t h et eh em
    obtain ⟨m1, m2, m3⟩ := mo.at_ i t h et eh
    rcases Nat.lt_trichotomy t h with hth | hth | hth
    · obtain ⟨a', e1, e2, e3, e4⟩ := m2 hth
      cases (em.symm.trans e1 : some a = some a')
      exact Or.inl ⟨hth, rd_congr_some e2 hx, rd_congr_some e3 hy, e4⟩
    · have := rd_congr_some em (m1 hth)
      omega
    · obtain ⟨a', e1, e2, e3, e4⟩ := m3 hth
      cases (em.symm.trans e1 : some a = some a')
      exact Or.inr ⟨hth, rd_congr_some e3 hy, rd_congr_some e2 hx, e4⟩
  have get : ∀ {v}, rd m i = some v → ∃ t h, rd rt i = some t ∧ rd rh i = some h := by
    intro v hv
    have := rd_some_lt hv
    have h1 := mo.len
    have h2 := mo.lenH
    obtain ⟨t, et⟩ := rd_isSome (v := rt) (i := i) (by omega)
    obtain ⟨h, eh⟩ := rd_isSome (v := rh) (i := i) (by omega)
    exact ⟨t, h, et, eh⟩
  constructor
  · constructor
    · rintro ⟨em, eu⟩
      obtain ⟨t, h, et, eh⟩ := get em
      rcases key t h et eh em with ⟨_, h2, h3, _⟩ | ⟨_, _, _, h4⟩
      · subst h2; subst h3; exact ⟨et, eh⟩
      · rw [eu] at h4; cases h4
    · rintro ⟨et, eh⟩
      obtain ⟨_, m2, _⟩ := mo.at_ i x y et eh
      obtain ⟨a', e1, e2, e3, e4⟩ := m2 hxy
      have := hs.inj e2 e3 hx hy
      subst this
      exact ⟨e1, e4⟩
  · constructor
    · rintro ⟨em, eu⟩
      obtain ⟨t, h, et, eh⟩ := get em
      rcases key t h et eh em with ⟨_, _, _, h4⟩ | ⟨_, h2, h3, _⟩
      · rw [eu] at h4; cases h4
      · subst h2; subst h3; exact ⟨et, eh⟩
    · rintro ⟨et, eh⟩
      obtain ⟨_, _, m3⟩ := mo.at_ i y x et eh
      obtain ⟨a', e1, e2, e3, e4⟩ := m3 hxy
      have := hs.inj e2 e3 hx hy
      subst this
      exact ⟨e1, e4⟩

/-- Mapped arcs exist. -/
theorem MapOk.lt {upTail upHead rt rh m : List Nat} {U : List Bool} (mo : MapOk upTail upHead rt rh m U)
    {i a : Nat} (h : rd m i = some a) (hne : a ≠ invalidId) : a < upTail.length ∧ a < upHead.length := by
  have := rd_some_lt h
  have h1 := mo.len
  have h2 := mo.lenH
  obtain ⟨t, et⟩ := rd_isSome (v := rt) (i := i) (by omega)
  obtain ⟨hd, eh⟩ := rd_isSome (v := rh) (i := i) (by omega)
  obtain ⟨m1, m2, m3⟩ := mo.at_ i t hd et eh
  rcases Nat.lt_trichotomy t hd with hth | hth | hth
  · obtain ⟨a', e1, e2, e3, e4⟩ := m2 hth
    cases (h.symm.trans e1 : some a = some a')
    exact ⟨rd_some_lt e2, rd_some_lt e3⟩
  · exact absurd (rd_congr_some h (m1 hth)) hne
  · obtain ⟨a', e1, e2, e3, e4⟩ := m3 hth
    cases (h.symm.trans e1 : some a = some a')
    exact ⟨rd_some_lt e2, rd_some_lt e3⟩

/-! ### Marking -/

theorem markInputs_spec {m : List Nat} {up : BitVector} {U : List Bool} {A : Nat} (hu : up.Rep U)
    (hU : U.length = m.length) (hm : ∀ i a, rd m i = some a → a ≠ invalidId → a < A)
    {f b : BitVector} (hf : f.Rep (List.replicate A false)) (hb : b.Rep (List.replicate A false)) :
    ∃ f' b' F B, forRange 0 m.length (f, b) (markInput m up) = some (f', b') ∧ f'.Rep F ∧ b'.Rep B ∧
      F.length = A ∧ B.length = A ∧
      (∀ a, at' F a = true ↔ a ≠ invalidId ∧ ∃ i, rd m i = some a ∧ at' U i = true) ∧
      (∀ a, at' B a = true ↔ a ≠ invalidId ∧ ∃ i, rd m i = some a ∧ at' U i = false) := by
  obtain ⟨⟨f', b'⟩, e, F, B, h1, h2, h3, h4, h5, h6⟩ := forRange_inv (lo := 0) (hi := m.length) (s := (f, b))
    (f := markInput m up)
    (fun k s => ∃ F B, s.1.Rep F ∧ s.2.Rep B ∧ F.length = A ∧ B.length = A ∧
      (∀ a, at' F a = true ↔ a ≠ invalidId ∧ ∃ i, i < k ∧ rd m i = some a ∧ at' U i = true) ∧
      (∀ a, at' B a = true ↔ a ≠ invalidId ∧ ∃ i, i < k ∧ rd m i = some a ∧ at' U i = false)) (Nat.zero_le _)
    ⟨_, _, hf, hb, by simp, by simp, by intro a; simp [at_replicate_false], by intro a; simp [at_replicate_false]⟩
    (by
      rintro k ⟨f, b⟩ _ hk ⟨F, B, r1, r2, l1, l2, q1, q2⟩
      obtain ⟨a, ea⟩ := rd_isSome (v := m) hk
      have step : ∀ (b : Bool) (a' : Nat), (∃ i, i < k + 1 ∧ rd m i = some a' ∧ at' U i = b) ↔
          (∃ i, i < k ∧ rd m i = some a' ∧ at' U i = b) ∨ (a' = a ∧ at' U k = b) := by
        intro b a'
        constructor
        · rintro ⟨i, h1, h2, h3⟩
          by_cases hik : i = k
          · subst hik; exact Or.inr ⟨rd_congr_some h2 ea, h3⟩
          · exact Or.inl ⟨i, by omega, h2, h3⟩
        · rintro (⟨i, h1, h2⟩ | ⟨rfl, h⟩)
          · exact ⟨i, by omega, h2⟩
          · exact ⟨k, by omega, ea, h⟩
      unfold markInput
      simp only [ea, Option.bind_eq_bind, Option.bind_some]
      by_cases hne : a ≠ invalidId
      · rw [if_pos hne, hu.isSet (by omega)]
        have hA := hm k a ea hne
        simp only [Option.bind_some]
        cases hbit : at' U k with
        | true =>
          obtain ⟨f', ef, hf'⟩ := r1.set (x := a) (by omega)
          refine ⟨(f', b), by simp [ef], _, B, hf', r2, by simpa using l1, l2, ?_, ?_⟩
          · intro a'
            rw [at_set (by omega), step]
            by_cases haa : a' = a
            · subst haa; simp [hbit, hne]
            · rw [if_neg haa, q1]; simp [haa]
          · intro a'
            rw [step, q2]; simp [hbit]
        | false =>
          obtain ⟨b', eb, hb'⟩ := r2.set (x := a) (by omega)
          refine ⟨(f, b'), by simp [eb], F, _, r1, hb', l1, by simpa using l2, ?_, ?_⟩
          · intro a'
            rw [step, q1]; simp [hbit]
          · intro a'
            rw [at_set (by omega), step]
            by_cases haa : a' = a
            · subst haa; simp [hbit, hne]
            · rw [if_neg haa, q2]; simp [haa]
      · rw [if_neg hne]
        have hne : a = invalidId := by simpa using hne
        refine ⟨(f, b), rfl, F, B, r1, r2, l1, l2, ?_, ?_⟩
        · intro a'
          rw [step, q1]
          constructor
          · rintro ⟨h1, h2⟩; exact ⟨h1, Or.inl h2⟩
          · rintro ⟨h1, h2 | ⟨h2, _⟩⟩
            · exact ⟨h1, h2⟩
            · exact absurd (h2.trans hne) h1
        · intro a'
          rw [step, q2]
          constructor
          · rintro ⟨h1, h2⟩; exact ⟨h1, Or.inl h2⟩
          · rintro ⟨h1, h2 | ⟨h2, _⟩⟩
            · exact ⟨h1, h2⟩
            · exact absurd (h2.trans hne) h1)
  refine ⟨f', b', F, B, e, h1, h2, h3, h4, ?_, ?_⟩
  · intro a
    rw [h5]
    constructor
    · rintro ⟨h, i, _, h'⟩; exact ⟨h, i, h'⟩
    · rintro ⟨h, i, h', h''⟩; exact ⟨h, i, rd_some_lt h', h', h''⟩
  · intro a
    rw [h6]
    constructor
    · rintro ⟨h, i, _, h'⟩; exact ⟨h, i, h'⟩
    · rintro ⟨h, i, h', h''⟩; exact ⟨h, i, rd_some_lt h', h', h''⟩

/-! ### Spreading along triangles -/

theorem spread_spec {c b : BitVector} {C B : List Bool} (hc : c.Rep C) (hb : b.Rep B) (hl : B.length = C.length)
    {T : Tri} (h1 : T.bottom < C.length) (h2 : T.mid < C.length) (h3 : T.top < C.length) :
    ∃ c' C', spread c b T = some c' ∧ c'.Rep C' ∧ C'.length = C.length ∧
      ∀ a, at' C' a = (at' C a || (decide (a = T.top) && (at' B T.bottom && at' C T.mid))) := by
  unfold spread
  rw [hc.isSet h3]
  simp only [Option.bind_eq_bind, Option.bind_some]
  cases e1 : at' C T.top with
  | true =>
    refine ⟨c, C, by simp, hc, rfl, ?_⟩
    intro a
    by_cases ha : a = T.top
    · subst ha; simp [e1]
    · simp [ha]
  | false =>
    rw [hb.isSet (by omega)]
    simp only [Bool.not_false, if_true, Option.bind_some]
    cases e2 : at' B T.bottom with
    | false => exact ⟨c, C, by simp, hc, rfl, by simp⟩
    | true =>
      simp only [if_true]
      rw [hc.isSet h2]
      simp only [Option.bind_some]
      cases e3 : at' C T.mid with
      | false => exact ⟨c, C, by simp, hc, rfl, by simp⟩
      | true =>
        obtain ⟨c', ec, hc'⟩ := hc.set (x := T.top) h3
        refine ⟨c', _, by simpa using ec, hc', by simp, ?_⟩
        intro a
        rw [at_set h3]
        by_cases ha : a = T.top <;> simp [ha]

/-- The markings after some triangles `D` have been processed. -/
structure SpreadInv (tail head : List Nat) (F0 B0 : List Bool) (D : Tri → Prop) (F B : List Bool) : Prop where
  lenF : F.length = F0.length
  lenB : B.length = F0.length
  baseF : ∀ a, at' F0 a = true → at' F a = true
  baseB : ∀ a, at' B0 a = true → at' B a = true
  soundF : ∀ a, at' F a = true → at' F0 a = true ∨ ∃ T x y z, TriAt tail head T x y z ∧ T.top = a ∧
    at' B T.bottom = true ∧ at' F T.mid = true
  soundB : ∀ a, at' B a = true → at' B0 a = true ∨ ∃ T x y z, TriAt tail head T x y z ∧ T.top = a ∧
    at' F T.bottom = true ∧ at' B T.mid = true
  doneF : ∀ T x y z, TriAt tail head T x y z → D T → at' B T.bottom = true → at' F T.mid = true → at' F T.top = true
  doneB : ∀ T x y z, TriAt tail head T x y z → D T → at' F T.bottom = true → at' B T.mid = true → at' B T.top = true

theorem SpreadInv.step {n : Nat} {fo tail head : List Nat} (u : UpOk n fo head tail) {F0 B0 F B : List Bool}
    {D : Tri → Prop} (h : SpreadInv tail head F0 B0 D F B) {T0 : Tri} {x0 y0 z0 : Nat}
    (hT : TriAt tail head T0 x0 y0 z0)
    (hD : ∀ T x y z, TriAt tail head T x y z → D T → x ≤ x0)
    {F' B' : List Bool} (lF : F'.length = F.length) (lB : B'.length = B.length)
    (eF : ∀ a, at' F' a = (at' F a || (decide (a = T0.top) && (at' B T0.bottom && at' F T0.mid))))
    (eB : ∀ a, at' B' a = (at' B a || (decide (a = T0.top) && (at' F' T0.bottom && at' B T0.mid)))) :
    SpreadInv tail head F0 B0 (fun T => D T ∨ T = T0) F' B' := by
  have hxy0 := (u.up x0 y0 ⟨T0.bottom, hT.bt, hT.bh⟩).1
  have monoF : ∀ a, at' F a = true → at' F' a = true := fun a ha => by rw [eF, ha]; rfl
  have monoB : ∀ a, at' B a = true → at' B' a = true := fun a ha => by rw [eB, ha]; rfl
  -- arcs with tail at most `x0` keep their marks
  have keep : ∀ a x, rd tail a = some x → x ≤ x0 → at' F' a = at' F a ∧ at' B' a = at' B a := by
    intro a x ha hx
    have hne : a ≠ T0.top := by
      intro hc; subst hc
      have := rd_congr_some ha hT.tt; omega
    rw [eF, eB]; simp [hne]
  have kb := keep T0.bottom x0 hT.bt (Nat.le_refl _)
  have km := keep T0.mid x0 hT.mt (Nat.le_refl _)
  refine ⟨by rw [lF, h.lenF], by rw [lB, h.lenB], fun a ha => monoF a (h.baseF a ha), fun a ha => monoB a (h.baseB a ha),
    ?_, ?_, ?_, ?_⟩
  · intro a ha
    rw [eF] at ha
    by_cases hold : at' F a = true
    · rcases h.soundF a hold with h1 | ⟨T, x, y, z, h1, h2, h3, h4⟩
      · exact Or.inl h1
      · exact Or.inr ⟨T, x, y, z, h1, h2, monoB _ h3, monoF _ h4⟩
    · simp only [Bool.not_eq_true] at hold
      rw [hold] at ha
      simp only [Bool.false_or, Bool.and_eq_true, decide_eq_true_eq] at ha
      exact Or.inr ⟨T0, x0, y0, z0, hT, ha.1.symm, by rw [kb.2]; exact ha.2.1, by rw [km.1]; exact ha.2.2⟩
  · intro a ha
    rw [eB] at ha
    by_cases hold : at' B a = true
    · rcases h.soundB a hold with h1 | ⟨T, x, y, z, h1, h2, h3, h4⟩
      · exact Or.inl h1
      · exact Or.inr ⟨T, x, y, z, h1, h2, monoF _ h3, monoB _ h4⟩
    · simp only [Bool.not_eq_true] at hold
      rw [hold] at ha
      simp only [Bool.false_or, Bool.and_eq_true, decide_eq_true_eq] at ha
      exact Or.inr ⟨T0, x0, y0, z0, hT, ha.1.symm, ha.2.1, by rw [km.2]; exact ha.2.2⟩
  · rintro T x y z h1 (h2 | rfl) h3 h4
    · have hx := hD T x y z h1 h2
      rw [(keep _ x h1.bt hx).2] at h3
      rw [(keep _ x h1.mt hx).1] at h4
      exact monoF _ (h.doneF T x y z h1 h2 h3 h4)
    · rw [kb.2] at h3
      rw [km.1] at h4
      rw [eF, h3, h4]; simp
  · rintro T x y z h1 (h2 | rfl) h3 h4
    · have hx := hD T x y z h1 h2
      rw [(keep _ x h1.bt hx).1] at h3
      rw [(keep _ x h1.mt hx).2] at h4
      exact monoB _ (h.doneB T x y z h1 h2 h3 h4)
    · rw [km.2] at h4
      rw [eB, h3, h4]; simp

theorem SpreadInv.mono {tail head : List Nat} {F0 B0 F B : List Bool} {D D' : Tri → Prop}
    (h : SpreadInv tail head F0 B0 D F B) (hD : ∀ T x y z, TriAt tail head T x y z → D' T → D T) :
    SpreadInv tail head F0 B0 D' F B :=
  ⟨h.lenF, h.lenB, h.baseF, h.baseB, h.soundF, h.soundB,
    fun T x y z h1 h2 => h.doneF T x y z h1 (hD T x y z h1 h2), fun T x y z h1 h2 => h.doneB T x y z h1 (hD T x y z h1 h2)⟩

theorem spreadAll_spec {n : Nat} {fo tail head : List Nat} (u : UpOk n fo head tail) {F0 B0 : List Bool}
    (hF0 : F0.length = head.length) (hB0 : B0.length = head.length) {f b : BitVector} (hf : f.Rep F0) (hb : b.Rep B0) :
    ∃ f' b' F B, forRange 0 head.length (f, b) (spreadArc fo head tail) = some (f', b') ∧ f'.Rep F ∧ b'.Rep B ∧
      SpreadInv tail head F0 B0 (fun _ => True) F B := by
  have hlen := u.sorted.1
  obtain ⟨⟨f', b'⟩, e, F, B, h1, h2, h3⟩ := forRange_inv (lo := 0) (hi := head.length) (s := (f, b))
    (f := spreadArc fo head tail)
    (fun k s => ∃ F B, s.1.Rep F ∧ s.2.Rep B ∧ SpreadInv tail head F0 B0 (fun T => T.bottom < k) F B) (Nat.zero_le _)
    ⟨F0, B0, hf, hb, rfl, by omega, fun _ h => h, fun _ h => h, fun _ h => Or.inl h, fun _ h => Or.inl h,
      fun T x y z _ h => absurd h (Nat.not_lt_zero _), fun T x y z _ h => absurd h (Nat.not_lt_zero _)⟩
    (by
      rintro k ⟨f, b⟩ _ hk ⟨F, B, r1, r2, inv⟩
      obtain ⟨x, hx⟩ := rd_isSome (v := tail) (i := k) (by omega)
      obtain ⟨y, hy⟩ := rd_isSome (v := head) hk
      obtain ⟨l, el, hl⟩ := upperTriangles_spec u hx hy
      unfold spreadArc
      simp only [el, Option.bind_eq_bind, Option.bind_some]
      obtain ⟨⟨f', b'⟩, e, F', B', p1, p2, p3⟩ := forEach_inv (f := spreadTri)
        (fun pre s => ∃ F B, s.1.Rep F ∧ s.2.Rep B ∧ SpreadInv tail head F0 B0 (fun T => T.bottom < k ∨ T ∈ pre) F B)
        l [] (f, b) ⟨F, B, r1, r2, by simpa using inv⟩
        (by
          rintro pre T0 post ⟨f, b⟩ hsplit _ ⟨F, B, r1, r2, inv⟩
          have hmem : T0 ∈ l := by
            have : T0 ∈ pre ++ T0 :: post := by simp
            rw [← hsplit] at this; simpa using this
          obtain ⟨hbot, z, hT⟩ := (hl T0).1 hmem
          have hpre : ∀ T ∈ pre, T.bottom = k := by
            intro T hT'
            have : T ∈ pre ++ T0 :: post := by simp [hT']
            rw [← hsplit] at this
            exact ((hl T).1 (by simpa using this)).1
          have b1 := rd_some_lt hT.bh
          have b2 := rd_some_lt hT.mh
          have b3 := rd_some_lt hT.th
          have lF := inv.lenF
          have lB := inv.lenB
          obtain ⟨f', F', e1, q1, q2, q3⟩ := spread_spec r1 r2 (by omega) (T := T0) (by omega) (by omega) (by omega)
          obtain ⟨b', B', e2, q4, q5, q6⟩ := spread_spec r2 q1 (by omega) (T := T0) (by omega) (by omega) (by omega)
          refine ⟨(f', b'), by simp [spreadTri, e1, e2], F', B', q1, q4, ?_⟩
          refine (inv.step u hT ?_ q2 q5 q3 q6).mono ?_
          · rintro T x' y' z' hT' (h | h)
            · have := u.sorted.mono hT'.bt hT'.bh hx hy
              rcases Nat.lt_or_ge x x' with hlt | hge
              · exfalso
                rcases u.sorted.2 T.bottom k x' x y' y h hT'.bt hx hT'.bh hy with h' | ⟨h', _⟩ <;> omega
              · exact hge
            · have := hpre T h
              have e1 := hT'.bt
              rw [this] at e1
              exact Nat.le_of_eq (rd_congr_some e1 hx)
          · rintro T x' y' z' _ (h | h)
            · exact Or.inl (Or.inl h)
            · rcases List.mem_append.1 h with h | h
              · exact Or.inl (Or.inr h)
              · exact Or.inr (by simpa using h))
      refine ⟨(f', b'), e, F', B', p1, p2, p3.mono ?_⟩
      intro T x' y' z' hT' hlt
      by_cases hk' : T.bottom < k
      · exact Or.inl hk'
      · right
        have hbk : T.bottom = k := by omega
        have e1 := hT'.bt
        have e2 := hT'.bh
        rw [hbk] at e1 e2
        have q1 := rd_congr_some e1 hx
        have q2 := rd_congr_some e2 hy
        rw [q1, q2] at hT'
        simpa using (hl T).2 ⟨hbk, z', hT'⟩)
  refine ⟨f', b', F, B, e, h1, h2, h3.mono ?_⟩
  intro T x y z hT _
  exact rd_some_lt hT.bh

/-- The marks at the end: paths of directed input arcs through lower nodes. -/
theorem marks_iff {n : Nat} {fo tail head : List Nat} (u : UpOk n fo head tail) {D : Nat → Nat → Prop}
    {F0 B0 F B : List Bool} (h : SpreadInv tail head F0 B0 (fun _ => True) F B)
    (hcl : ∀ x a b, HasArc tail head x a → HasArc tail head x b → a < b → HasArc tail head a b)
    (hbase : ∀ x y, D x y ∨ D y x → x < y → HasArc tail head x y)
    (hF0 : ∀ a x y, rd tail a = some x → rd head a = some y → (at' F0 a = true ↔ D x y))
    (hB0 : ∀ a x y, rd tail a = some x → rd head a = some y → (at' B0 a = true ↔ D y x)) :
    (∀ a x y, rd tail a = some x → rd head a = some y →
      (at' F a = true ↔ InnerPath D (fun z => z < x) x y) ∧ (at' B a = true ↔ InnerPath D (fun z => z < x) y x)) ∧
    ∀ x y, x < y → InnerPath D (fun z => z < x) x y ∨ InnerPath D (fun z => z < x) y x → HasArc tail head x y := by
  -- marks imply paths
  have snd : ∀ k a x y, x < k → rd tail a = some x → rd head a = some y →
      (at' F a = true → InnerPath D (fun z => z < x) x y) ∧ (at' B a = true → InnerPath D (fun z => z < x) y x) := by
    intro k
    induction k with
    | zero => intro a x y h; omega
    | succ k ih =>
      intro a x y hk hx hy
      constructor
      · intro ha
        rcases h.soundF a ha with h1 | ⟨T, x', y', z', hT, htop, h3, h4⟩
        · exact .edge ((hF0 a x y hx hy).1 h1)
        · have e1 := hT.tt
          have e2 := hT.th
          rw [htop] at e1 e2
          have q1 := rd_congr_some e1 hx
          have q2 := rd_congr_some e2 hy
          subst q1; subst q2
          have hlt := (u.up _ _ ⟨T.bottom, hT.bt, hT.bh⟩).1
          have p1 := (ih T.bottom x' y' (by omega) hT.bt hT.bh).2 h3
          have p2 := (ih T.mid x' z' (by omega) hT.mt hT.mh).1 h4
          exact innerPath_append (isPath_of_lt p1 (by omega)) hlt (isPath_of_lt p2 (by omega))
      · intro ha
        rcases h.soundB a ha with h1 | ⟨T, x', y', z', hT, htop, h3, h4⟩
        · exact .edge ((hB0 a x y hx hy).1 h1)
        · have e1 := hT.tt
          have e2 := hT.th
          rw [htop] at e1 e2
          have q1 := rd_congr_some e1 hx
          have q2 := rd_congr_some e2 hy
          subst q1; subst q2
          have hlt := (u.up _ _ ⟨T.bottom, hT.bt, hT.bh⟩).1
          have p1 := (ih T.bottom x' y' (by omega) hT.bt hT.bh).1 h3
          have p2 := (ih T.mid x' z' (by omega) hT.mt hT.mh).2 h4
          exact innerPath_append (isPath_of_lt p2 (by omega)) hlt (isPath_of_lt p1 (by omega))
  -- paths imply marks
  have cmp : ∀ (r p q : Nat), r ≤ p → r ≤ q → p ≠ q → InnerPath D (fun z => z < r) p q →
      (p < q → ∃ a, rd tail a = some p ∧ rd head a = some q ∧ at' F a = true) ∧
      (q < p → ∃ a, rd tail a = some q ∧ rd head a = some p ∧ at' B a = true) := by
    intro r
    induction r with
    | zero =>
      intro p q _ _ hne hp
      cases hp with
      | edge he =>
        constructor
        · intro hlt
          obtain ⟨a, h1, h2⟩ := hbase p q (Or.inl he) hlt
          exact ⟨a, h1, h2, h.baseF a ((hF0 a p q h1 h2).2 he)⟩
        · intro hlt
          obtain ⟨a, h1, h2⟩ := hbase q p (Or.inr he) hlt
          exact ⟨a, h1, h2, h.baseB a ((hB0 a q p h1 h2).2 he)⟩
      | step _ hz _ => exact absurd hz (Nat.not_lt_zero _)
    | succ r ih =>
      intro p q hp' hq' hne hpath
      rcases innerPath_split hpath with h1 | ⟨h1, h2⟩
      · exact ih p q (by omega) (by omega) hne h1
      · obtain ⟨b, b1, b2, b3⟩ := (ih p r (by omega) (by omega) (by omega) h1).2 (by omega)
        obtain ⟨m, m1, m2, m3⟩ := (ih r q (by omega) (by omega) (by omega) h2).1 (by omega)
        constructor
        · intro hlt
          obtain ⟨t, t1, t2⟩ := hcl r p q ⟨b, b1, b2⟩ ⟨m, m1, m2⟩ hlt
          exact ⟨t, t1, t2, h.doneF ⟨b, m, t⟩ r p q ⟨b1, b2, m1, m2, t1, t2⟩ trivial b3 m3⟩
        · intro hlt
          obtain ⟨t, t1, t2⟩ := hcl r q p ⟨m, m1, m2⟩ ⟨b, b1, b2⟩ hlt
          exact ⟨t, t1, t2, h.doneB ⟨m, b, t⟩ r q p ⟨m1, m2, b1, b2, t1, t2⟩ trivial m3 b3⟩
  refine ⟨?_, ?_⟩
  · intro a x y hx hy
    have hxy := (u.up x y ⟨a, hx, hy⟩).1
    refine ⟨⟨(snd (x + 1) a x y (by omega) hx hy).1, ?_⟩, ⟨(snd (x + 1) a x y (by omega) hx hy).2, ?_⟩⟩
    · intro hp
      obtain ⟨a', h1, h2, h3⟩ := (cmp x x y (Nat.le_refl _) (by omega) (by omega) hp).1 hxy
      rw [u.sorted.inj hx hy h1 h2]; exact h3
    · intro hp
      obtain ⟨a', h1, h2, h3⟩ := (cmp x y x (by omega) (Nat.le_refl _) (by omega) hp).2 hxy
      rw [u.sorted.inj hx hy h1 h2]; exact h3
  · intro x y hxy hp
    rcases hp with hp | hp
    · obtain ⟨a', h1, h2, h3⟩ := (cmp x x y (Nat.le_refl _) (by omega) (by omega) hp).1 hxy
      exact ⟨a', h1, h2⟩
    · obtain ⟨a', h1, h2, h3⟩ := (cmp x y x (by omega) (Nat.le_refl _) (by omega) hp).2 hxy
      exact ⟨a', h1, h2⟩

/-! ### Removing the unmarked arcs -/

theorem at_zipWith_or : ∀ {F B : List Bool} (_ : F.length = B.length) (a : Nat),
    at' (List.zipWith (· || ·) F B) a = (at' F a || at' B a)
  | [], B, h, a => by
    cases B
    · simp [at']
    · simp at h
  | f :: F, [], h, a => by simp at h
  | f :: F, b :: B, h, 0 => by simp [at_cons_zero]
  | f :: F, b :: B, h, a + 1 => by
    simp only [List.zipWith_cons_cons, at_cons_succ]
    exact at_zipWith_or (by simpa using h) a

theorem pick_up {n : Nat} {fo head tail : List Nat} (u : UpOk n fo head tail) {K : List Bool}
    (hK : K.length = head.length) :
    ∃ fo', invertVector (pick true K tail) n = some fo' ∧ UpOk n fo' (pick true K head) (pick true K tail) := by
  have hlen := u.sorted.1
  have hKt : K.length = tail.length := by omega
  have hs : SortedArcs (pick true K tail) (pick true K head) := by
    refine ⟨by rw [pick_length hKt, pick_length hK], ?_⟩
    intro a b ta tb ha hb hab e1 e2 e3 e4
    obtain ⟨i, i1, i2, i3⟩ := pick_pos hKt e1
    obtain ⟨i', i1', i2', i3'⟩ := pick_pos hK e3
    have : i = i' := Sel.unique (f := at' K) ⟨i1, i2⟩ ⟨i1', i2'⟩
    subst this
    obtain ⟨j, j1, j2, j3⟩ := pick_pos hKt e2
    obtain ⟨j', j1', j2', j3'⟩ := pick_pos hK e4
    have : j = j' := Sel.unique (f := at' K) ⟨j1, j2⟩ ⟨j1', j2'⟩
    subst this
    refine u.sorted.2 i j ta tb ha hb ?_ i3 j3 i3' j3'
    rcases Nat.lt_or_ge i j with h | h
    · exact h
    · have := rk_mono (at' K) h; omega
  have hup : ∀ x y, HasArc (pick true K tail) (pick true K head) x y → x < y ∧ y < n := by
    intro x y hxy
    obtain ⟨i, _, h1, h2⟩ := (hasArc_pick hKt hK x y).1 hxy
    exact u.up x y ⟨i, h1, h2⟩
  have hlt : ∀ x ∈ pick true K tail, x < n := by
    intro x hx
    obtain ⟨j, hj⟩ := mem_iff_rd.1 hx
    obtain ⟨i, _, _, hi⟩ := pick_pos hKt hj
    exact mem_lt_of_rd u.tail_lt hi
  obtain ⟨fo', e, l1, l2⟩ := invertVector_spec hs.pairwise hlt
  exact ⟨fo', e, hs, hup, l1, l2⟩

theorem filterUp_spec {n : Nat} {g : UpGraph} {up : BitVector} {U : List Bool} {rt rh : List Nat}
    (u : UpOk n g.firstOut g.head g.tail) (hsm : g.tail.length ≤ invalidId) (hu : up.Rep U)
    (mo : MapOk g.tail g.head rt rh g.inputToCch U)
    (hcl : ∀ x a b, HasArc g.tail g.head x a → HasArc g.tail g.head x b → a < b → HasArc g.tail g.head a b) :
    ∃ g', filterUp n g up = some g' ∧ UpOk n g'.firstOut g'.head g'.tail ∧ g'.tail.length ≤ invalidId ∧
      MapOk g'.tail g'.head rt rh g'.inputToCch U ∧
      ∀ x y, HasArc g'.tail g'.head x y ↔ x < y ∧
        (InnerPath (HasArc rt rh) (fun z => z < x) x y ∨ InnerPath (HasArc rt rh) (fun z => z < x) y x) := by
  have hlen := u.sorted.1
  have hsm' : g.head.length + 511 < u64 := by
    have : invalidId = 4294967295 := rfl
    have : u64 = 18446744073709551616 := rfl
    omega
  obtain ⟨f0, ef0, rf0, _⟩ := rep_new (n := g.head.length) hsm' false
  obtain ⟨f1, b1, F0, B0, e1, rF0, rB0, lF0, lB0, qF0, qB0⟩ := markInputs_spec (A := g.head.length) hu
    (by rw [mo.lenU, mo.len]) (fun i a h1 h2 => (mo.lt h1 h2).2) rf0 rf0
  obtain ⟨f2, b2, F, B, e2, rF, rB, inv⟩ := spreadAll_spec u lF0 lB0 rF0 rB0
  have lF := inv.lenF
  have lB := inv.lenB
  obtain ⟨k0, ek0, rk0⟩ := rF.copy
  obtain ⟨kp, ekp, rK⟩ := rk0.orEq rB (by omega)
  have atK : ∀ a, at' (List.zipWith (· || ·) F B) a = (at' F a || at' B a) := at_zipWith_or (by omega)
  have lK : (List.zipWith (· || ·) F B).length = g.head.length := by simp; omega
  obtain ⟨K, rfl⟩ : ∃ K, K = List.zipWith (· || ·) F B := ⟨_, rfl⟩
  obtain ⟨mp, emp, hmp⟩ := LocalIDMapper.new_spec rK
  obtain ⟨fo', efo, hup'⟩ := pick_up u lK
  have lKt : (List.zipWith (· || ·) F B).length = g.tail.length := by omega
  have hb0 : ∀ a x y, rd g.tail a = some x → rd g.head a = some y →
      (at' F0 a = true ↔ HasArc rt rh x y) ∧ (at' B0 a = true ↔ HasArc rt rh y x) := by
    intro a x y hx hy
    have hne : a ≠ invalidId := by have := rd_some_lt hx; omega
    have hxy := (u.up x y ⟨a, hx, hy⟩).1
    have key := mo.arc u.sorted hsm hx hy hxy
    constructor
    · rw [qF0]
      constructor
      · rintro ⟨_, i, h⟩
        obtain ⟨h1, h2⟩ := (key i).1.1 h
        exact ⟨i, h1, h2⟩
      · rintro ⟨i, h1, h2⟩
        exact ⟨hne, i, (key i).1.2 ⟨h1, h2⟩⟩
    · rw [qB0]
      constructor
      · rintro ⟨_, i, h⟩
        obtain ⟨h1, h2⟩ := (key i).2.1 h
        exact ⟨i, h1, h2⟩
      · rintro ⟨i, h1, h2⟩
        exact ⟨hne, i, (key i).2.2 ⟨h1, h2⟩⟩
  have hbase : ∀ x y, HasArc rt rh x y ∨ HasArc rt rh y x → x < y → HasArc g.tail g.head x y := by
    rintro x y (⟨i, h1, h2⟩ | ⟨i, h1, h2⟩) hxy
    · obtain ⟨a, _, a1, a2, _⟩ := (mo.at_ i x y h1 h2).2.1 hxy
      exact ⟨a, a1, a2⟩
    · obtain ⟨a, _, a1, a2, _⟩ := (mo.at_ i y x h1 h2).2.2 hxy
      exact ⟨a, a1, a2⟩
  obtain ⟨mk1, mk2⟩ := marks_iff u (D := HasArc rt rh) inv hcl hbase (fun a x y h1 h2 => (hb0 a x y h1 h2).1)
    (fun a x y h1 h2 => (hb0 a x y h1 h2).2)
  -- input arcs lead to kept arcs
  have kept : ∀ i a, rd g.inputToCch i = some a → a ≠ invalidId → at' (List.zipWith (· || ·) F B) a = true := by
    intro i a h1 h2
    rw [atK]
    cases hb : at' U i with
    | true => rw [inv.baseF a ((qF0 a).2 ⟨h2, i, h1, hb⟩)]; rfl
    | false => rw [inv.baseB a ((qB0 a).2 ⟨h2, i, h1, hb⟩)]; simp
  obtain ⟨m', em, lm, hm, _⟩ := mapM_spec (f := relabel mp) (l := g.inputToCch) (by
    intro x hx
    obtain ⟨i, hi⟩ := mem_iff_rd.1 hx
    unfold relabel
    by_cases hne : x ≠ invalidId
    · rw [if_pos hne, hmp.toLocal (kept i x hi hne)]; exact ⟨_, rfl⟩
    · rw [if_neg hne]; exact ⟨_, rfl⟩)
  refine ⟨⟨fo', pick true _ g.head, pick true _ g.tail, m'⟩, ?_, hup', ?_, ?_, ?_⟩
  · unfold filterUp
    simp only [ef0, Option.bind_eq_bind, Option.bind_some]
    rw [e1]
    simp only [Option.bind_some]
    rw [e2]
    simp only [Option.bind_some, ek0, ekp, keepElementIf, inplaceKeep, inplaceFilter_spec rK true g.head lK,
      inplaceFilter_spec rK true g.tail lKt, efo, emp, em]
  · exact Nat.le_trans pick_length_le hsm
  · refine ⟨by rw [lm, mo.len], mo.lenH, mo.lenU, ?_⟩
    intro i t h et eh
    obtain ⟨m1, m2, m3⟩ := mo.at_ i t h et eh
    have tr : ∀ a, rd g.inputToCch i = some a → a ≠ invalidId →
        rd m' i = some (rk (at' (List.zipWith (· || ·) F B)) a) ∧
        rd (pick true (List.zipWith (· || ·) F B) g.tail) (rk (at' (List.zipWith (· || ·) F B)) a) = rd g.tail a ∧
        rd (pick true (List.zipWith (· || ·) F B) g.head) (rk (at' (List.zipWith (· || ·) F B)) a) = rd g.head a := by
      intro a h1 h2
      have hk := kept i a h1 h2
      refine ⟨?_, pick_rk lKt hk, pick_rk lK hk⟩
      rw [hm i a h1]
      unfold relabel
      rw [if_pos h2, hmp.toLocal hk]
    refine ⟨?_, ?_, ?_⟩
    · intro hth
      rw [hm i _ (m1 hth)]
      unfold relabel
      rw [if_neg (by simp)]
    · intro hth
      obtain ⟨a, a1, a2, a3, a4⟩ := m2 hth
      obtain ⟨q1, q2, q3⟩ := tr a a1 (by have := rd_some_lt a2; omega)
      exact ⟨_, q1, by rw [q2]; exact a2, by rw [q3]; exact a3, a4⟩
    · intro hth
      obtain ⟨a, a1, a2, a3, a4⟩ := m3 hth
      obtain ⟨q1, q2, q3⟩ := tr a a1 (by have := rd_some_lt a2; omega)
      exact ⟨_, q1, by rw [q2]; exact a2, by rw [q3]; exact a3, a4⟩
  · intro x y
    rw [hasArc_pick lKt lK]
    constructor
    · rintro ⟨a, h1, h2, h3⟩
      have hxy := (u.up x y ⟨a, h2, h3⟩).1
      rw [atK, Bool.or_eq_true] at h1
      rcases h1 with h1 | h1
      · exact ⟨hxy, Or.inl ((mk1 a x y h2 h3).1.1 h1)⟩
      · exact ⟨hxy, Or.inr ((mk1 a x y h2 h3).2.1 h1)⟩
    · rintro ⟨hxy, hp⟩
      obtain ⟨a, h2, h3⟩ := mk2 x y hxy hp
      refine ⟨a, ?_, h2, h3⟩
      rw [atK, Bool.or_eq_true]
      rcases hp with hp | hp
      · exact Or.inl ((mk1 a x y h2 h3).1.2 hp)
      · exact Or.inr ((mk1 a x y h2 h3).2.2 hp)

end RK
