import Verif.Proof.Witness
/-! Helper lemmas about the contraction of one node. -/
namespace RK
open WitnessSearch ChGraph

/-- `A'` has all arcs of `A`, possibly lighter. -/
def Dom (A A' : ArcMap) : Prop := ∀ x y i, A x y = some i → ∃ i', A' x y = some i' ∧ i'.weight ≤ i.weight

theorem Dom.refl (A : ArcMap) : Dom A A := fun _ _ i h => ⟨i, h, Nat.le_refl _⟩

theorem Dom.trans {A B C : ArcMap} (h : Dom A B) (g : Dom B C) : Dom A C := by
  intro x y i hi
  obtain ⟨j, hj, hle⟩ := h x y i hi
  obtain ⟨k, hk, hle'⟩ := g x y j hj
  exact ⟨k, hk, by omega⟩

theorem dom_addMap (A : ArcMap) (x y : Nat) (i : Info) : Dom A (addMap A x y i) := by
  intro u v j hj
  rcases addMap_cases A x y i with ⟨k, hk, hkw, he⟩ | ⟨hk, he⟩
  · rw [he]; exact ⟨j, hj, Nat.le_refl _⟩
  · rw [he]
    unfold upd2
    by_cases huv : u = x ∧ v = y
    · rw [if_pos huv]
      obtain ⟨rfl, rfl⟩ := huv
      exact ⟨i, rfl, Nat.le_of_lt (hk j hj)⟩
    · rw [if_neg huv]; exact ⟨j, hj, Nat.le_refl _⟩

theorem addMap_self (A : ArcMap) (x y : Nat) (i : Info) :
    ∃ j, addMap A x y i x y = some j ∧ j.weight ≤ i.weight := by
  rcases addMap_cases A x y i with ⟨k, hk, hkw, he⟩ | ⟨hk, he⟩
  · rw [he]; exact ⟨k, hk, hkw⟩
  · rw [he]; exact ⟨i, by simp [upd2], Nat.le_refl _⟩

theorem addMap_origin (A : ArcMap) (x y : Nat) (i : Info) {u v : Nat} {j : Info}
    (h : addMap A x y i u v = some j) : A u v = some j ∨ (u = x ∧ v = y ∧ j = i) := by
  rcases addMap_cases A x y i with ⟨k, hk, hkw, he⟩ | ⟨hk, he⟩
  · rw [he] at h; exact Or.inl h
  · rw [he] at h
    unfold upd2 at h
    split at h
    · rename_i huv; cases h; exact Or.inr ⟨huv.1, huv.2, rfl⟩
    · exact Or.inl h

theorem Dom.walk {A A' : ArcMap} (h : Dom A A') {b x y l : Nat} (hw : RWalk (arcR A b) x y l) :
    ∃ l', l' ≤ l ∧ RWalk (arcR A' b) x y l' := by
  refine hw.dom ?_
  rintro u v w ⟨i, hi, rfl, h1, h2⟩
  obtain ⟨j, hj, hle⟩ := h u v i hi
  exact ⟨j.weight, hle, j, hj, rfl, h1, h2⟩

theorem WInv.dom {w : WitnessSearch} {n : Nat} {A A' : ArcMap} {E : Nat → Nat → Nat → Prop} {s b L : Nat}
    (h : WInv w n A E s b L) (hd : Dom A A') : WInv w n A' E s b L := by
  obtain ⟨k, P, m, hk, hr, hs, h0⟩ := h.fwd
  refine ⟨⟨k, P, m, hk.imp ?_ (Nat.le_refl _), hr, hs, h0⟩, h.bwd, h.bypass⟩
  rintro x d ⟨hx, l, hl, hw⟩
  obtain ⟨l', hl', hw'⟩ := hd.walk hw
  exact ⟨hx, l', by omega, hw'⟩

theorem WInv.sinv {w : WitnessSearch} {n : Nat} {A : ArcMap} {E : Nat → Nat → Nat → Prop} {s b L : Nat}
    (h : WInv w n A E s b L) : ∃ R L, SInv w.fwd n R L := by
  obtain ⟨k, P, m, hk, _⟩ := h.fwd
  exact ⟨_, _, k, P, m, hk⟩

/-- The shortcut for the pair of arcs `a`, `b` at `v`. -/
def shortcut (v : Nat) (i1 i2 : Info) : Info := ⟨i1.weight + i2.weight, add32 i1.hop i2.hop, v⟩

/-- State of the graph during the contraction of `v`. -/
structure CInv (n mp : Nat) (A0 : ArcMap) (v : Nat) (iv ov : List ChArc) (lv : List Nat) (g : ChGraph)
    (A : ArcMap) : Prop where
  rep : GRep g n A
  level : g.level = lv
  out : rd g.out v = some ov
  inn : rd g.inn v = some iv
  atv : ∀ x, A x v = A0 x v ∧ A v x = A0 v x
  dom : Dom A0 A
  origin : ∀ x y i, A x y = some i → A0 x y = some i ∨
    ∃ i1 i2, A0 x v = some i1 ∧ A0 v y = some i2 ∧ i = shortcut v i1 i2 ∧
      (2 * n ≤ mp → ∀ l, RWalk (arcR A0 v) x y l → i.weight < l)

/-- There is a walk from `a` to `b` around `v` that is not longer than the one via `v`. -/
def Bridged (A : ArcMap) (v : Nat) (a b : ChArc) : Prop :=
  a.node ≠ b.node → ∃ l, l ≤ a.weight + b.weight ∧ RWalk (arcR A v) a.node b.node l

theorem Bridged.dom {A A' : ArcMap} {v : Nat} {a b : ChArc} (h : Bridged A v a b) (hd : Dom A A') :
    Bridged A' v a b := by
  intro hab
  obtain ⟨l, hl, hw⟩ := h hab
  obtain ⟨l', hl', hw'⟩ := hd.walk hw
  exact ⟨l', by omega, hw'⟩

theorem CInv.weight {n mp : Nat} {A0 : ArcMap} {v : Nat} {iv ov : List ChArc} {lv : List Nat} {g : ChGraph}
    {A : ArcMap} (h : CInv n mp A0 v iv ov lv g A) {M : Nat} (hW : ∀ x y i, A0 x y = some i → i.weight ≤ 2 * M)
    (hM : ∀ x i, A0 x v = some i ∨ A0 v x = some i → i.weight ≤ M) :
    ∀ x y i, A x y = some i → i.weight ≤ 2 * M := by
  intro x y i hi
  rcases h.origin x y i hi with h | ⟨i1, i2, h1, h2, rfl, _⟩
  · exact hW _ _ _ h
  · have := hM _ _ (Or.inl h1)
    have := hM _ _ (Or.inr h2)
    simp only [shortcut]; omega

theorem contractPair_spec {n mp : Nat} {A0 : ArcMap} {v : Nat} {iv ov : List ChArc} {lv : List Nat}
    {g : ChGraph} {A : ArcMap} {w : WitnessSearch} {a b : ChArc} {j M : Nat}
    (hdom : ∀ x y i, A0 x y = some i → x < n ∧ y < n ∧ x ≠ y)
    (hW : ∀ x y i, A0 x y = some i → i.weight ≤ 2 * M)
    (hM : ∀ x i, A0 x v = some i ∨ A0 v x = some i → i.weight ≤ M) (h8 : 8 * M < u32)
    (h : CInv n mp A0 v iv ov lv g A) (hw : WInv w n A (arcR A0 v) a.node v (4 * M))
    (hmpw : w.maxPop = mp) (ha : A0 a.node v = some a.info)
    (hb : rd ov j = some b) (hb0 : A0 v b.node = some b.info) :
    ∃ g' w' A', contractPair v a (g, w) j = some (g', w') ∧ CInv n mp A0 v iv ov lv g' A' ∧
      WInv w' n A' (arcR A0 v) a.node v (4 * M) ∧ w'.maxPop = w.maxPop ∧ Dom A A' ∧ Bridged A' v a b := by
  unfold contractPair
  simp only [h.out, hb, Option.bind_eq_bind, Option.bind_some]
  obtain ⟨an, vn, av⟩ := hdom _ _ _ ha
  obtain ⟨_, bn, vb⟩ := hdom _ _ _ hb0
  by_cases hab : a.node = b.node
  · rw [if_neg (by simpa using hab)]
    exact ⟨g, w, A, rfl, h, hw, rfl, Dom.refl A, fun hc => absurd hab hc⟩
  · rw [if_pos hab]
    have hwa := hM _ _ (Or.inl ha)
    have hwb := hM _ _ (Or.inr hb0)
    simp only [ChArc.info] at hwa hwb
    have hsum : add32 a.weight b.weight = a.weight + b.weight :=
      add32_eq (L := 2 * M) (by omega) (by omega)
    rw [hsum]
    have hEA : ∀ x y w, arcR A0 v x y w → ∃ w', w' ≤ w ∧ arcR A v x y w' := by
      rintro x y w ⟨i, hi, rfl, hx, hy⟩
      obtain ⟨i', hi', hle⟩ := h.dom x y i hi
      exact ⟨i'.weight, hle, i', hi', rfl, hx, hy⟩
    obtain ⟨w', f, e, hw', hmp, hf, hnf⟩ := pathExists_spec h.rep (W := 2 * M) (L := 4 * M)
      (len := a.weight + b.weight) hEA (h.weight hW hM) (by omega) (by omega) hw an bn (fun hc => vb hc.symm)
    rw [e]
    simp only [Option.bind_some]
    cases f with
    | true =>
      simp only [if_true]
      exact ⟨g, w', A, rfl, h, hw', hmp, Dom.refl A, fun _ => hf rfl⟩
    | false =>
      simp only [Bool.false_eq_true, if_false]
      obtain ⟨g', eg, hg', ho, hi, hl⟩ := addArc_spec h.rep (x := a.node) (y := b.node)
        (w := a.weight + b.weight) (hop := add32 a.hop b.hop) (mid := v) an bn hab
      rw [eg]
      have hd := dom_addMap A a.node b.node ⟨a.weight + b.weight, add32 a.hop b.hop, v⟩
      refine ⟨g', w', _, rfl, ⟨hg', by rw [hl]; exact h.level, ?_, ?_, ?_, h.dom.trans hd, ?_⟩,
        WInv.dom hw' hd, hmp, hd, ?_⟩
      · rw [ho v (fun hc => av hc.symm)]; exact h.out
      · rw [hi v (fun hc => vb hc)]; exact h.inn
      · intro x
        have hne1 : addMap A a.node b.node ⟨a.weight + b.weight, add32 a.hop b.hop, v⟩ x v = A x v := by
          rcases addMap_cases A a.node b.node ⟨a.weight + b.weight, add32 a.hop b.hop, v⟩ with
            ⟨k, hk, hkw, he⟩ | ⟨hk, he⟩
          · rw [he]
          · rw [he, upd2, if_neg (fun hc => vb hc.2)]
        have hne2 : addMap A a.node b.node ⟨a.weight + b.weight, add32 a.hop b.hop, v⟩ v x = A v x := by
          rcases addMap_cases A a.node b.node ⟨a.weight + b.weight, add32 a.hop b.hop, v⟩ with
            ⟨k, hk, hkw, he⟩ | ⟨hk, he⟩
          · rw [he]
          · rw [he, upd2, if_neg (fun hc => av hc.1.symm)]
        rw [hne1, hne2]; exact h.atv x
      · intro x y i hxy
        rcases addMap_origin _ _ _ _ hxy with hA | ⟨rfl, rfl, rfl⟩
        · exact h.origin x y i hA
        · exact Or.inr ⟨a.info, b.info, ha, hb0, rfl, by rw [← hmpw]; exact hnf rfl⟩
      · intro _
        obtain ⟨j', hj', hle⟩ := addMap_self A a.node b.node ⟨a.weight + b.weight, add32 a.hop b.hop, v⟩
        exact ⟨j'.weight, hle, RWalk.single ⟨j', hj', rfl, av, fun hc => vb hc.symm⟩⟩

theorem contractIn_spec {n mp : Nat} {A0 : ArcMap} {v : Nat} {iv ov : List ChArc} {lv : List Nat}
    {g : ChGraph} {A : ArcMap} {w : WitnessSearch} {a : ChArc} {i M : Nat}
    (hdom : ∀ x y i, A0 x y = some i → x < n ∧ y < n ∧ x ≠ y)
    (hW : ∀ x y i, A0 x y = some i → i.weight ≤ 2 * M)
    (hM : ∀ x i, A0 x v = some i ∨ A0 v x = some i → i.weight ≤ M) (h8 : 8 * M < u32)
    (h : CInv n mp A0 v iv ov lv g A) (hw : Idle w n) (hmpw : w.maxPop = mp)
    (ha : rd iv i = some a) (ha0 : A0 a.node v = some a.info) (hov : ∀ b ∈ ov, A0 v b.node = some b.info) :
    ∃ g' w' A', contractIn v ov.length (g, w) i = some (g', w') ∧ CInv n mp A0 v iv ov lv g' A' ∧
      Idle w' n ∧ w'.maxPop = w.maxPop ∧ Dom A A' ∧ ∀ b ∈ ov, Bridged A' v a b := by
  obtain ⟨an, vn, av⟩ := hdom _ _ _ ha0
  obtain ⟨⟨RF, LF, hF⟩, RB, LB, hB⟩ := hw
  obtain ⟨S, eS, hS⟩ := startSide_from (R' := ReachF A v a.node) (L' := 4 * M) (arcR A0 v) hF an
    ⟨av, 0, Nat.le_refl _, RWalk.nil _⟩
  obtain ⟨r, er, A', hC, hwi, hmp, hd, hbr⟩ := forRange_inv (f := contractPair v a) (lo := 0)
    (hi := ov.length) (s := (g, { w with fwd := S, bypass := v }))
    (fun j s => ∃ A', CInv n mp A0 v iv ov lv s.1 A' ∧ WInv s.2 n A' (arcR A0 v) a.node v (4 * M) ∧
      s.2.maxPop = w.maxPop ∧ Dom A A' ∧
      ∀ j' b, j' < j → rd ov j' = some b → Bridged A' v a b) (by omega)
    ⟨A, h, ⟨hS, ⟨RB, LB, hB⟩, rfl⟩, rfl, Dom.refl A, by intro j' b hj'; omega⟩
    (by
      rintro j ⟨g1, w1⟩ _ hj ⟨A1, hC1, hw1, hm1, hd1, hbr1⟩
      obtain ⟨b, hb⟩ := rd_isSome (v := ov) (i := j) hj
      have hb0 := hov b (List.mem_of_getElem? hb)
      obtain ⟨g2, w2, A2, e2, hC2, hw2, hm2, hd2, hbr2⟩ :=
        contractPair_spec hdom hW hM h8 hC1 hw1 (by rw [hm1]; exact hmpw) ha0 hb hb0
      exact ⟨_, e2, A2, hC2, hw2, by rw [hm2]; exact hm1,
        hd1.trans hd2, by
          intro j' b' hj' hb'
          by_cases hjj : j' = j
          · subst hjj; rw [hb] at hb'; cases hb'; exact hbr2
          · exact (hbr1 j' b' (by omega) hb').dom hd2⟩)
  refine ⟨r.1, r.2, A', ?_, hC, ⟨WInv.sinv hwi, hwi.bwd⟩, hmp, hd, ?_⟩
  · unfold contractIn pinSource
    simp only [h.inn, ha, eS, Option.bind_eq_bind, Option.bind_some]
    exact er
  · intro b hb
    obtain ⟨j, hj⟩ := List.getElem?_of_mem hb
    exact hbr j b (rd_some_lt hj) hj

/-- The arcs `A'` of the remaining graph after `v` was contracted in the graph with arcs `A`. -/
structure Contracted (A : ArcMap) (v : Nat) (A' : ArcMap) : Prop where
  avoid : ∀ x y i, A' x y = some i → x ≠ v ∧ y ≠ v
  dom : ∀ x y i, A x y = some i → x ≠ v → y ≠ v → ∃ i', A' x y = some i' ∧ i'.weight ≤ i.weight
  origin : ∀ x y i, A' x y = some i → A x y = some i ∨
    ∃ i1 i2, A x v = some i1 ∧ A v y = some i2 ∧ i = shortcut v i1 i2
  bridge : ∀ x y i1 i2, A x v = some i1 → A v y = some i2 → x ≠ y →
    ∃ l, l ≤ i1.weight + i2.weight ∧ RWalk (fun p q w => ∃ i, A' p q = some i ∧ i.weight = w) x y l

theorem contractNode_spec {n : Nat} {A : ArcMap} {v : Nat} {g : ChGraph} {w : WitnessSearch} {M : Nat}
    (hg : GRep g n A) (hw : Idle w n) (hv : v < n)
    (hW : ∀ x y i, A x y = some i → i.weight ≤ 2 * M)
    (hM : ∀ x i, A x v = some i ∨ A v x = some i → i.weight ≤ M) (h8 : 8 * M < u32) :
    ∃ g' w' A', contractNode (g, w) v = some (g', w') ∧ GRep g' n A' ∧ Idle w' n ∧
      w'.maxPop = w.maxPop ∧ g'.level = g.level ∧ Contracted A v A' ∧
      (2 * n ≤ w.maxPop → ∀ x y i, A' x y = some i → A x y = some i ∨
        ∃ i1 i2, A x v = some i1 ∧ A v y = some i2 ∧ i = shortcut v i1 i2 ∧
          ∀ l, RWalk (arcR A v) x y l → i.weight < l) := by
  obtain ⟨ov, eo, ho⟩ := hg.out v hv
  obtain ⟨iv, ei, hi⟩ := hg.inn v hv
  obtain ⟨r, er, A1, hC, hwi, hmp, hbr⟩ := forRange_inv (f := contractIn v ov.length) (lo := 0)
    (hi := iv.length) (s := (g, w))
    (fun j s => ∃ A', CInv n w.maxPop A v iv ov g.level s.1 A' ∧ Idle s.2 n ∧ s.2.maxPop = w.maxPop ∧
      ∀ j' a, j' < j → rd iv j' = some a → ∀ b ∈ ov, Bridged A' v a b) (by omega)
    ⟨A, ⟨hg, rfl, eo, ei, fun _ => ⟨rfl, rfl⟩, Dom.refl A, fun _ _ _ h => Or.inl h⟩, hw, rfl,
      by intro j' a hj'; omega⟩
    (by
      rintro j ⟨g1, w1⟩ _ hj ⟨A1, hC1, hw1, hm1, hbr1⟩
      obtain ⟨a, ha⟩ := rd_isSome (v := iv) (i := j) hj
      have ha0 := (hi.mem a).1 (List.mem_of_getElem? ha)
      obtain ⟨g2, w2, A2, e2, hC2, hw2, hm2, hd2, hbr2⟩ :=
        contractIn_spec hg.dom hW hM h8 hC1 hw1 hm1 ha ha0 (fun b hb => (ho.mem b).1 hb)
      exact ⟨_, e2, A2, hC2, hw2, by rw [hm2]; exact hm1, by
          intro j' a' hj' ha' b hb
          by_cases hjj : j' = j
          · subst hjj; rw [ha] at ha'; cases ha'; exact hbr2 b hb
          · exact (hbr1 j' a' (by omega) ha' b hb).dom hd2⟩)
  obtain ⟨g', eg, hg', hl⟩ := removeAll_spec hC.rep hv
  refine ⟨g', r.2, delMap A1 v, ?_, hg', hwi, hmp, by rw [hl]; exact hC.level, ⟨?_, ?_, ?_, ?_⟩, ?_⟩
  · unfold contractNode
    simp only [ei, eo, er, eg, Option.bind_eq_bind, Option.bind_some]
  · intro x y i h
    unfold delMap at h
    split at h
    · cases h
    · rename_i hc; exact ⟨fun h' => hc (Or.inl h'), fun h' => hc (Or.inr h')⟩
  · intro x y i h hx hy
    unfold delMap
    rw [if_neg (by simp [hx, hy])]
    exact hC.dom x y i h
  · intro x y i h
    unfold delMap at h
    split at h
    · cases h
    · rcases hC.origin x y i h with h | ⟨i1, i2, h1, h2, h3, _⟩
      · exact Or.inl h
      · exact Or.inr ⟨i1, i2, h1, h2, h3⟩
  · intro x y i1 i2 h1 h2 hxy
    have ha : mkArc x i1 ∈ iv := hi.mem_mk.2 h1
    have hb : mkArc y i2 ∈ ov := ho.mem_mk.2 h2
    obtain ⟨j, hj⟩ := List.getElem?_of_mem ha
    obtain ⟨l, hl, hwk⟩ := hbr j _ (rd_some_lt hj) hj _ hb hxy
    refine ⟨l, hl, hwk.mono ?_⟩
    rintro p q k ⟨i, hi, hk, hp, hq⟩
    refine ⟨i, ?_, hk⟩
    unfold delMap
    rw [if_neg (by simp [hp, hq])]
    exact hi
  · intro h2n x y i h
    unfold delMap at h
    split at h
    · cases h
    · rcases hC.origin x y i h with h | ⟨i1, i2, h1, h2, h3, h4⟩
      · exact Or.inl h
      · exact Or.inr ⟨i1, i2, h1, h2, h3, h4 h2n⟩

/-! Importance estimates: they only touch the witness search. -/

theorem estimatePair_spec {n : Nat} {A : ArcMap} {v : Nat} {g : ChGraph} {a b : ChArc} {W : Nat}
    {s : WitnessSearch × Nat × Nat} (hg : GRep g n A)
    (hW : ∀ x y i, A x y = some i → i.weight ≤ W) (h8 : 6 * W < u32)
    (hw : WInv s.1 n A (fun _ _ _ => False) a.node v (3 * W)) (ha : A a.node v = some a.info) (hb : A v b.node = some b.info) :
    ∃ s', estimatePair g a s b = some s' ∧ WInv s'.1 n A (fun _ _ _ => False) a.node v (3 * W) ∧
      s'.1.maxPop = s.1.maxPop := by
  unfold estimatePair
  by_cases hab : a.node = b.node
  · rw [if_neg (by simpa using hab)]
    exact ⟨s, rfl, hw, rfl⟩
  · rw [if_pos hab]
    have hwa := hW _ _ _ ha
    have hwb := hW _ _ _ hb
    simp only [ChArc.info] at hwa hwb
    obtain ⟨_, bn, vb⟩ := hg.dom _ _ _ hb
    have hsum : add32 a.weight b.weight = a.weight + b.weight :=
      add32_eq (L := 2 * W) (by omega) (by omega)
    rw [hsum]
    obtain ⟨w', f, e, hw', hmp, hf, _⟩ := pathExists_spec hg (W := W) (L := 3 * W)
      (len := a.weight + b.weight) (by intro x y w h; exact h.elim) hW (by omega) (by omega) hw (hg.dom _ _ _ ha).1 bn (fun hc => vb hc.symm)
    rw [e]
    cases f <;> exact ⟨_, rfl, hw', hmp⟩

theorem estimatePairs_spec {n : Nat} {A : ArcMap} {v : Nat} {g : ChGraph} {a : ChArc} {W : Nat}
    (hg : GRep g n A) (hW : ∀ x y i, A x y = some i → i.weight ≤ W) (h8 : 6 * W < u32)
    (ha : A a.node v = some a.info) : ∀ (ov : List ChArc) (s : WitnessSearch × Nat × Nat),
    WInv s.1 n A (fun _ _ _ => False) a.node v (3 * W) → (∀ b ∈ ov, A v b.node = some b.info) →
    ∃ s', forEach ov s (estimatePair g a) = some s' ∧ WInv s'.1 n A (fun _ _ _ => False) a.node v (3 * W) ∧
      s'.1.maxPop = s.1.maxPop
  | [], s, hw, _ => ⟨s, rfl, hw, rfl⟩
  | b :: ov, s, hw, hb => by
    obtain ⟨s1, e1, h1, m1⟩ := estimatePair_spec hg hW h8 hw ha (hb b (by simp))
    obtain ⟨s2, e2, h2, m2⟩ := estimatePairs_spec hg hW h8 ha ov s1 h1 (fun b hb' => hb b (by simp [hb']))
    exact ⟨s2, by simp only [forEach, e1, Option.bind_eq_bind, Option.bind_some, e2], h2, m2.trans m1⟩

theorem estimateIns_spec {n : Nat} {A : ArcMap} {v : Nat} {g : ChGraph} {W : Nat} {ov : List ChArc}
    (hg : GRep g n A) (hW : ∀ x y i, A x y = some i → i.weight ≤ W) (h8 : 6 * W < u32)
    (hb : ∀ b ∈ ov, A v b.node = some b.info) : ∀ (iv : List ChArc) (s : WitnessSearch × Nat × Nat),
    Idle s.1 n → (∀ a ∈ iv, A a.node v = some a.info) →
    ∃ s', forEach iv s (estimateIn g v ov) = some s' ∧ Idle s'.1 n ∧ s'.1.maxPop = s.1.maxPop
  | [], s, hw, _ => ⟨s, rfl, hw, rfl⟩
  | a :: iv, s, hw, ha => by
    obtain ⟨⟨RF, LF, hF⟩, RB, LB, hB⟩ := hw
    have ha0 := ha a (by simp)
    obtain ⟨an, vn, av⟩ := hg.dom _ _ _ ha0
    obtain ⟨S, eS, hS⟩ := startSide_from (R' := ReachF A v a.node) (L' := 3 * W) (fun _ _ _ => False) hF an
      ⟨av, 0, Nat.le_refl _, RWalk.nil _⟩
    obtain ⟨s1, e1, h1, m1⟩ := estimatePairs_spec hg hW h8 ha0 ov
      ({ s.1 with fwd := S, bypass := v }, s.2) ⟨hS, ⟨RB, LB, hB⟩, rfl⟩ hb
    obtain ⟨s2, e2, h2, m2⟩ := estimateIns_spec hg hW h8 hb iv s1 ⟨WInv.sinv h1, h1.bwd⟩
      (fun a ha' => ha a (by simp [ha']))
    refine ⟨s2, ?_, h2, m2.trans m1⟩
    have : estimateIn g v ov s a = some s1 := by
      unfold estimateIn pinSource
      simp only [eS, Option.bind_eq_bind, Option.bind_some]
      exact e1
    simp only [forEach, this, Option.bind_eq_bind, Option.bind_some, e2]

/-- Whatever the estimate is, the witness search can be used again. -/
theorem estimate_idle' {n : Nat} {A : ArcMap} {v : Nat} {g : ChGraph} {w w' : WitnessSearch} {W k : Nat}
    (hg : GRep g n A) (hv : v < n) (hW : ∀ x y i, A x y = some i → i.weight ≤ W) (h8 : 6 * W < u32)
    (hw : Idle w n) (h : estimateNodeImportance g w v = some (w', k)) : Idle w' n ∧ w'.maxPop = w.maxPop := by
  obtain ⟨ov, eo, ho⟩ := hg.out v hv
  obtain ⟨iv, ei, hi⟩ := hg.inn v hv
  obtain ⟨s, es, hs, hmp⟩ := estimateIns_spec hg hW h8 (fun b hb => (ho.mem b).1 hb) iv (w, 0, 0) hw
    (fun a ha => (hi.mem a).1 ha)
  have hl : v < g.level.length := by rw [hg.lenLevel]; exact hv
  unfold estimateNodeImportance at h
  simp only [rd_fn hl, eo, ei, es, Option.bind_eq_bind, Option.bind_some] at h
  rw [Option.bind_eq_some_iff] at h
  obtain ⟨qa, _, h⟩ := h
  rw [Option.bind_eq_some_iff] at h
  obtain ⟨qh, _, h⟩ := h
  cases h
  exact ⟨hs, hmp⟩

theorem estimate_idle {n : Nat} {A : ArcMap} {v : Nat} {g : ChGraph} {w w' : WitnessSearch} {W k : Nat}
    (hg : GRep g n A) (hv : v < n) (hW : ∀ x y i, A x y = some i → i.weight ≤ W) (h8 : 6 * W < u32)
    (hw : Idle w n) (h : estimateNodeImportance g w v = some (w', k)) : Idle w' n :=
  (estimate_idle' hg hv hW h8 hw h).1

theorem AdjRep.length_le {l : List ChArc} {f : Nat → Option Info} (h : AdjRep l f) {n : Nat}
    (hf : ∀ y i, f y = some i → y < n) : l.length ≤ n := by
  have hs : l.map (·.node) ⊆ List.range n := by
    intro y hy
    obtain ⟨a, ha, rfl⟩ := List.mem_map.1 hy
    exact List.mem_range.2 (hf _ _ ((h.mem a).1 ha))
  have := (h.nodup.subperm hs).length_le
  simpa using this

/-- Hop counts of the arcs at `v`. -/
def hopSum (l : List ChArc) : Nat := (l.map (·.hop)).sum

theorem foldl_hops (l : List ChArc) : ∀ s, s + hopSum l < u32 →
    l.foldl (fun s a => add32 s a.hop) s = s + hopSum l := by
  induction l with
  | nil => intro s _; simp [hopSum]
  | cons a l ih =>
    intro s hs
    simp only [hopSum, List.map_cons, List.sum_cons] at hs
    have h1 : add32 s a.hop = s + a.hop := add32_eq (L := s + a.hop) (Nat.le_refl _) (by omega)
    rw [List.foldl_cons, h1, ih _ (by simp only [hopSum]; omega)]
    simp only [hopSum, List.map_cons, List.sum_cons]; omega

theorem estimate_total {n : Nat} {A : ArcMap} {v : Nat} {g : ChGraph} {w : WitnessSearch} {W : Nat}
    (hg : GRep g n A) (hn : n ≤ MinIDQueue.maxIds) (hv : v < n)
    (hW : ∀ x y i, A x y = some i → i.weight ≤ W) (h8 : 6 * W < u32)
    (hw : Idle w n) (hhop : ∀ iv ov, rd g.inn v = some iv → rd g.out v = some ov →
      1 + hopSum iv + hopSum ov < u32) :
    ∃ w' k, estimateNodeImportance g w v = some (w', k) ∧ Idle w' n := by
  obtain ⟨ov, eo, ho⟩ := hg.out v hv
  obtain ⟨iv, ei, hi⟩ := hg.inn v hv
  obtain ⟨s, es, hs, hmp⟩ := estimateIns_spec hg hW h8 (fun b hb => (ho.mem b).1 hb) iv (w, 0, 0) hw
    (fun a ha => (hi.mem a).1 ha)
  have hl : v < g.level.length := by rw [hg.lenLevel]; exact hv
  have hh := hhop iv ov ei eo
  have hlo := ho.length_le (n := n) (fun y i h => (hg.dom _ _ _ h).2.1)
  have hli := hi.length_le (n := n) (fun y i h => (hg.dom _ _ _ h).1)
  have hmax : MinIDQueue.maxIds = 1073741824 := rfl
  have hu : u32 = 4294967296 := rfl
  have h1 : add32 (add32 1 iv.length) ov.length ≠ 0 := by
    rw [add32_eq (a := 1) (b := iv.length) (L := 1 + iv.length) (by omega) (by omega),
      add32_eq (L := 1 + iv.length + ov.length) (by omega) (by omega)]
    omega
  have h2 : (iv ++ ov).foldl (fun s a => add32 s a.hop) 1 ≠ 0 := by
    rw [foldl_hops _ _ (by simp only [hopSum, List.map_append, List.sum_append] at hh ⊢; omega)]
    omega
  unfold estimateNodeImportance
  simp only [rd_fn hl, eo, ei, es, Option.bind_eq_bind, Option.bind_some, div32, if_neg h1, if_neg h2]
  exact ⟨_, _, rfl, hs⟩

end RK
