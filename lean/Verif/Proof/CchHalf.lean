import Verif.Proof.CchPinned
/-! One half (forward or backward) of a query object: adding and pinning nodes, resets, searches to pinned nodes. -/
namespace RK
open Spec

/-- The half stores the labels `D`, the predecessors `P` and the search space `L`. -/
structure CchHalfOk (n : Nat) (c : Cch) (h : CchHalf) (L : List Nat) (D P : Nat → Nat) : Prop where
  dist : Is h.dist n D
  pred : Is h.pred n P
  flags : Flags n h.inSpace L
  space : Space c.parent h.nodes h.ends L

/-- Every node has a proper parent or none. -/
structure TreeOk (n : Nat) (c : Cch) : Prop where
  len : c.parent.length = n
  small : n ≤ invalidId
  parent : ∀ x, x < n → ∃ p, rd c.parent x = some p ∧ x < p ∧ (p < n ∨ p = invalidId)

def noLabel : Nat → Nat := fun _ => infWeight

theorem CchHalfOk.lt {n : Nat} {c : Cch} {h : CchHalf} {L : List Nat} {D P : Nat → Nat} (ok : CchHalfOk n c h L D P)
    (ht : TreeOk n c) : ∀ x ∈ L, x < n := by
  have := ok.space.lt
  rw [ht.len] at this
  exact this

theorem Space.of_nil {parent es L : List Nat} (h : Space parent [] es L) : es = [] ∧ L = [] := by
  generalize hns : ([] : List Nat) = ns at h
  cases h with
  | nil => exact ⟨rfl, rfl⟩
  | snoc => simp at hns

theorem halfOk_new (n : Nat) (c : Cch) : CchHalfOk n c (CchHalf.new n) [] noLabel (fun _ => 0) := by
  refine ⟨⟨by simp [CchHalf.new], fun a ha => rd_replicate ha⟩, ⟨by simp [CchHalf.new], fun a ha => rd_replicate ha⟩,
    ⟨by simp [CchHalf.new], fun a ha => ?_⟩, .nil⟩
  rw [show decide (a ∈ ([] : List Nat)) = false by simp]
  exact rd_replicate ha

theorem sinv_new (n : Nat) (tail head : List Nat) (W P : Nat → Nat) : SInv n tail head W [] [] [] noLabel P :=
  ⟨fun _ _ => Nat.le_refl _, fun _ _ _ => rfl, (fun _ _ h => by cases h), (fun _ h => by cases h),
    fun _ _ h => absurd h (Nat.lt_irrefl _), fun _ _ h => absurd h (Nat.lt_irrefl _)⟩

/-- Flags depend on the set of nodes only. -/
theorem Flags.of_iff {n : Nat} {v : List Bool} {L L' : List Nat} (h : Flags n v L) (hL : ∀ x, x ∈ L ↔ x ∈ L') : Flags n v L' :=
  ⟨h.1, fun x hx => by rw [h.2 x hx]; congr 1; exact decide_eq_decide.2 (hL x)⟩

/-- `internal_add_source`, `internal_add_target`. -/
theorem addNode_spec {n : Nat} {c : Cch} (ht : TreeOk n c) {h : CchHalf} {L : List Nat} {D P : Nat → Nat}
    {tail head : List Nat} {W : Nat → Nat} {S : List (Nat × Nat)} (ok : CchHalfOk n c h L D P)
    (hi : SInv n tail head W S L [] D P) {ext x d : Nat} (hr : rd c.rank ext = some x) (hx : x < n) (hd : d < infWeight) :
    ∃ h' L' D' P', h.addNode c.rank c.parent ext d = some h' ∧ CchHalfOk n c h' L' D' P' ∧
      SInv n tail head W (S ++ [(x, d)]) L' [] D' P' := by
  unfold CchHalf.addNode
  simp only [hr, ok.dist.2 x hx, Option.bind_eq_bind, Option.bind_some]
  by_cases hinf : D x = infWeight
  · rw [if_pos hinf]
    obtain ⟨dist', e1, h1⟩ := ok.dist.wr hx d
    obtain ⟨pred', e2, h2⟩ := ok.pred.wr hx invalidId
    obtain ⟨v', e, seg, e3, g1, g2, g3, g4⟩ := enterNode_spec (f := CchHalf.enter) (t0 := h.ends) (g := fun e => h.ends ++ [e])
      ht.len ht.small ht.parent
      (fun v x hv => by
        have hlt := rd_some_lt hv
        simp [CchHalf.enter, hv, wr_lt hlt])
      (fun v x hv => by simp [CchHalf.enter, hv]) hx ok.flags
    simp only [e1, e2, e3, Option.bind_some]
    have hlen := ok.space.length
    have hends : (if (if e = invalidId then h.ends else h.ends ++ [e]).length ≠ (h.nodes ++ [x]).length then
        (if e = invalidId then h.ends else h.ends ++ [e]) ++ [invalidId] else (if e = invalidId then h.ends else h.ends ++ [e])) =
        h.ends ++ [e] := by
      by_cases he : e = invalidId
      · subst he
        rw [if_pos rfl, if_pos (by simp; omega)]
      · rw [if_neg he, if_neg (by simp; omega)]
    rw [hends]
    refine ⟨_, seg ++ L, _, _, rfl, ⟨h1, h2, g4, ?_⟩, ?_⟩
    · exact .snoc ok.space (by rw [ht.len]; exact hx) g1 g2 g3
    · have hxm : x ∈ seg ++ L := by
        cases g1 with
        | nil =>
          rcases g2 with g2 | g2
          · simpa using g2
          · have := ht.small; omega
        | cons => simp
      refine ⟨?_, ?_, ?_, ?_, ?_, fun _ _ _ _ _ _ _ he => absurd he (by simp)⟩
      · intro y hy
        by_cases hyx : y = x
        · subst hyx; rw [setAt_same]; omega
        · rw [setAt_other _ _ hyx]; exact hi.le y hy
      · intro y hy hyL
        have hyx : y ≠ x := fun hh => hyL (hh ▸ hxm)
        rw [setAt_other _ _ hyx]
        exact hi.out y hy (fun hh => hyL (List.mem_append_right _ hh))
      · intro s k hs
        rcases List.mem_append.1 hs with hs | hs
        · have := hi.src s k hs
          by_cases hsx : s = x
          · subst hsx; rw [setAt_same]; omega
          · rw [setAt_other _ _ hsx]; exact this
        · rw [List.mem_singleton] at hs
          cases hs
          rw [setAt_same]
      · intro y hy; cases hy
      · intro y hy hlt
        by_cases hyx : y = x
        · subst hyx
          rw [setAt_same] at hlt ⊢
          rw [setAt_same]
          exact Or.inl ⟨rfl, by simp⟩
        · rw [setAt_other _ _ hyx] at hlt ⊢
          rw [setAt_other _ _ hyx]
          rcases hi.lab y hy hlt with ⟨q1, q2⟩ | ⟨_, _, _, q, _⟩
          · exact Or.inl ⟨q1, List.mem_append_left _ q2⟩
          · cases q
  · rw [if_neg hinf]
    obtain ⟨dist', e1, h1⟩ := ok.dist.minTo hx d
    simp only [e1, Option.bind_some]
    refine ⟨_, L, _, P, rfl, ⟨h1, ok.pred, ok.flags, ok.space⟩, ?_⟩
    have hlex := hi.le x hx
    refine ⟨?_, ?_, ?_, ?_, ?_, fun _ _ _ _ _ _ _ he => absurd he (by simp)⟩
    · intro y hy
      by_cases hyx : y = x
      · subst hyx; rw [setAt_same]; omega
      · rw [setAt_other _ _ hyx]; exact hi.le y hy
    · intro y hy hyL
      have hyx : y ≠ x := fun hh => hinf (hi.out x hx (hh ▸ hyL))
      rw [setAt_other _ _ hyx]
      exact hi.out y hy hyL
    · intro s k hs
      rcases List.mem_append.1 hs with hs | hs
      · have := hi.src s k hs
        by_cases hsx : s = x
        · subst hsx; rw [setAt_same]; omega
        · rw [setAt_other _ _ hsx]; exact this
      · rw [List.mem_singleton] at hs
        cases hs
        rw [setAt_same]; omega
    · intro y hy; cases hy
    · intro y hy hlt
      by_cases hyx : y = x
      · subst hyx
        rw [setAt_same] at hlt ⊢
        left
        rcases hi.lab y hy (by omega) with ⟨q1, q2⟩ | ⟨_, _, _, q, _⟩
        · refine ⟨q1, ?_⟩
          rcases Nat.le_total (D y) d with hle | hle
          · rw [Nat.min_eq_left hle]; exact List.mem_append_left _ q2
          · rw [Nat.min_eq_right hle]; simp
        · cases q
      · rw [setAt_other _ _ hyx] at hlt ⊢
        rcases hi.lab y hy hlt with ⟨q1, q2⟩ | ⟨_, _, _, q, _⟩
        · exact Or.inl ⟨q1, List.mem_append_left _ q2⟩
        · cases q

/-- Setting the labels of all visited nodes. -/
theorem forEach_setInf {n : Nat} {L d : List Nat} {D : Nat → Nat} (hL : ∀ x ∈ L, x < n) (hd : Is d n D) :
    ∃ d', forEach L d (fun d x => wr d x infWeight) = some d' ∧ Is d' n (fun x => if x ∈ L then infWeight else D x) := by
  obtain ⟨d', e, h⟩ := forEach_inv (f := fun d x => wr d x infWeight)
    (fun pre s => Is s n (fun x => if x ∈ pre then infWeight else D x)) L [] d (by simpa using hd)
    (by
      intro pre x post s hsplit _ hs
      rw [List.nil_append] at hsplit
      obtain ⟨s', e, hs'⟩ := hs.wr (hL x (by rw [hsplit]; simp)) infWeight
      refine ⟨s', e, hs'.1, fun a ha => ?_⟩
      rw [hs'.2 a ha]
      unfold setAt
      by_cases hax : a = x
      · simp [hax]
      · simp [hax])
  exact ⟨d', e, by simpa using h⟩

theorem clearDistances_spec {n : Nat} {c : Cch} (ht : TreeOk n c) {t : CchHalf} {L : List Nat} {D P E : Nat → Nat}
    (ok : CchHalfOk n c t L D P) {d : List Nat} (hd : Is d n E) :
    ∃ d', t.clearDistances c.parent d = some d' ∧ Is d' n (fun x => if x ∈ L then infWeight else E x) := by
  unfold CchHalf.clearDistances
  rw [visit_spec _ ok.space]
  obtain ⟨d', e, h⟩ := forEach_setInf (ok.lt ht) hd
  exact ⟨d', e, h⟩

/-- `reset_source_list`, `reset_target_list`. -/
theorem clear_spec {n : Nat} {c : Cch} (ht : TreeOk n c) {h : CchHalf} {L : List Nat} {D P : Nat → Nat}
    (ok : CchHalfOk n c h L D P) :
    ∃ h', h.clear c.parent = some h' ∧ CchHalfOk n c h' [] (fun x => if x ∈ L then infWeight else D x) P ∧ h'.nodes = [] := by
  obtain ⟨L', hm, hf⟩ := ok.space.visitUp CchHalf.forget
  obtain ⟨⟨b, d⟩, e, hb, hd⟩ := forEach_inv (f := CchHalf.forget)
    (fun pre s => (s.1.length = n ∧ ∀ x, x < n → rd s.1 x = some (decide (x ∈ L ∧ x ∉ pre))) ∧
      Is s.2 n (fun x => if x ∈ pre then infWeight else D x)) L' [] (h.inSpace, h.dist)
    ⟨⟨ok.flags.1, fun x hx => by rw [ok.flags.2 x hx]; simp⟩, by simpa using ok.dist⟩
    (by
      rintro pre x post ⟨b, d⟩ hsplit _ ⟨hb, hd⟩
      rw [List.nil_append] at hsplit
      have hx : x < n := ok.lt ht x ((hm x).1 (by rw [hsplit]; simp))
      have hbl : b.length = n := hb.1
      obtain ⟨d', e1, hd'⟩ := hd.wr hx infWeight
      unfold CchHalf.forget
      simp only [wr_lt (v := b) (x := false) (show x < b.length by omega), e1, Option.bind_eq_bind, Option.bind_some]
      refine ⟨_, rfl, ⟨by simpa using hbl, ?_⟩, hd'.1, ?_⟩
      · intro y hy
        rw [rd_set (by omega)]
        by_cases hyx : y = x
        · rw [if_pos hyx, hyx]; simp
        · rw [if_neg hyx, hb.2 y hy]
          simp [hyx]
      · intro y hy
        rw [hd'.2 y hy]
        unfold setAt
        by_cases hyx : y = x
        · simp [hyx]
        · simp [hyx])
  rw [List.nil_append] at hb hd
  refine ⟨{ h with dist := d, inSpace := b, nodes := [], ends := [] }, ?_, ⟨?_, ok.pred, ?_, .nil⟩, rfl⟩
  · unfold CchHalf.clear
    have e' : forRange 0 h.nodes.length (h.inSpace, h.dist) (visitAt c.parent h.nodes h.ends CchHalf.forget) = some (b, d) := by
      rw [hf]; exact e
    show (forRange 0 h.nodes.length (h.inSpace, h.dist) (visitAt c.parent h.nodes h.ends CchHalf.forget)).bind _ = _
    rw [e']
    rfl
  · refine ⟨hd.1, fun x hx => ?_⟩
    rw [hd.2 x hx]
    simp only [hm]
  · refine ⟨hb.1, fun x hx => ?_⟩
    rw [hb.2 x hx]
    simp [hm]

/-- `internal_pin_targets` on a half without nodes. -/
theorem cchPin_spec {n : Nat} {c : Cch} (ht : TreeOk n c) {h : CchHalf} {L : List Nat} {D P : Nat → Nat}
    (ok : CchHalfOk n c h L D P) (h0 : h.nodes = []) {list rs : List Nat} (hr : rs.length = list.length)
    (hrank : ∀ i t, rd list i = some t → ∃ x, rd c.rank t = some x ∧ rd rs i = some x ∧ x < n) :
    ∃ h' L', h.pin c.rank c.parent list = some h' ∧ CchHalfOk n c h' L' D P ∧ h'.nodes = rs := by
  have hsp := ok.space
  rw [h0] at hsp
  obtain ⟨he0, hL0⟩ := hsp.of_nil
  subst hL0
  have hn0 : CchHalf.resized h.nodes list.length = List.replicate list.length 0 := by rw [h0]; simp [CchHalf.resized]
  have hn1 : CchHalf.resized h.ends list.length = List.replicate list.length 0 := by rw [he0]; simp [CchHalf.resized]
  obtain ⟨⟨ns, es, b⟩, e, g1, g2, g3, L', g4, g5⟩ := forRange_inv (lo := 0) (hi := list.length)
    (s := (List.replicate list.length 0, List.replicate list.length 0, h.inSpace))
    (f := fun (s : List Nat × List Nat × List Bool) i => do
      let t ← rd list i
      let x ← rd c.rank t
      let nodes ← wr s.1 i x
      let ends ← wr s.2.1 i invalidId
      let (b, ends) ← forAncestors c.parent x invalidId (s.2.2, ends) (CchHalf.enterPinned i)
      some (nodes, ends, b))
    (fun k s => s.1.length = list.length ∧ s.2.1.length = list.length ∧ s.1.take k = rs.take k ∧
      ∃ L', Space c.parent (s.1.take k) (s.2.1.take k) L' ∧ Flags n s.2.2 L')
    (Nat.zero_le _)
    ⟨by simp, by simp, by simp, [], by simpa using Space.nil, ok.flags⟩
    (by
      rintro k ⟨ns, es, b⟩ _ hk ⟨g1, g2, g3, L', g4, g5⟩
      have g1' : ns.length = list.length := g1
      have g2' : es.length = list.length := g2
      obtain ⟨t, htk⟩ := rd_isSome (v := list) (i := k) hk
      obtain ⟨x, hx1, hx2, hx3⟩ := hrank k t htk
      have w1 : wr ns k x = some (ns.set k x) := wr_lt (by omega)
      have w2 : wr es k invalidId = some (es.set k invalidId) := wr_lt (by omega)
      obtain ⟨v', e, seg, e3, q1, q2, q3, q4⟩ := enterNode_spec (f := CchHalf.enterPinned k) (t0 := es.set k invalidId)
        (g := fun e => (es.set k invalidId).set k e) ht.len ht.small ht.parent
        (fun v x hv => by
          have hlt := rd_some_lt hv
          simp [CchHalf.enterPinned, hv, wr_lt hlt])
        (fun v x hv => by
          have : k < (es.set k invalidId).length := by simp; omega
          simp only [CchHalf.enterPinned, hv, Option.bind_eq_bind, Option.bind_some, wr_lt this]
          rfl) hx3 g5
      have hes : (if e = invalidId then es.set k invalidId else (es.set k invalidId).set k e) = es.set k e := by
        by_cases he : e = invalidId
        · rw [if_pos he, he]
        · rw [if_neg he, List.set_set]
      rw [hes] at e3
      simp only [htk, hx1, w1, w2, e3, Option.bind_eq_bind, Option.bind_some]
      have t1 : (ns.set k x).take (k + 1) = ns.take k ++ [x] := by
        rw [List.take_add_one, List.take_set_of_le (Nat.le_refl _)]
        simp [show k < ns.length by omega]
      have t2 : (es.set k e).take (k + 1) = es.take k ++ [e] := by
        rw [List.take_add_one, List.take_set_of_le (Nat.le_refl _)]
        simp [show k < es.length by omega]
      refine ⟨_, rfl, by simpa using g1', by simpa using g2', ?_, seg ++ L', ?_, q4⟩
      · show (ns.set k x).take (k + 1) = _
        have g3' : ns.take k = rs.take k := g3
        rw [t1, List.take_add_one, g3']
        unfold rd at hx2
        rw [hx2]
        rfl
      · show Space c.parent ((ns.set k x).take (k + 1)) ((es.set k e).take (k + 1)) _
        rw [t1, t2]
        exact .snoc g4 (by rw [ht.len]; exact hx3) q1 q2 q3)
  have g1' : ns.length = list.length := g1
  have g2' : es.length = list.length := g2
  have e1 : ns.take list.length = ns := List.take_of_length_le (by omega)
  have e2 : es.take list.length = es := List.take_of_length_le (by omega)
  have e3 : rs.take list.length = rs := List.take_of_length_le (by omega)
  have g3' : ns.take list.length = rs.take list.length := g3
  have g4' : Space c.parent (ns.take list.length) (es.take list.length) L' := g4
  rw [e1, e2] at g4'
  rw [e1, e3] at g3'
  refine ⟨{ h with inSpace := b, nodes := ns, ends := es }, L', ?_, ⟨ok.dist, ok.pred, g5, g4'⟩, g3'⟩
  unfold CchHalf.pin
  rw [hn0, hn1, e]
  rfl

/-- `internal_run_to_pinned_targets`. -/
theorem cchPinnedRun_spec {n : Nat} {c : Cch} (ht : TreeOk n c) {fw bw : List Nat} {F B : Nat → Nat} (hF : UpCtx n c fw F)
    (hB : UpCtx n c bw B) {h t : CchHalf} {Ls Lt : List Nat} {D P Pt : Nat → Nat} {S : List (Nat × Nat)}
    (ok : CchHalfOk n c h Ls D P) (hi : SInv n c.upTail c.upHead F S Ls [] D P) (okt : CchHalfOk n c t Lt noLabel Pt) :
    ∃ h' t' DF PF D', CchHalf.pinnedRun c fw bw h t = some (h', t') ∧ CchHalfOk n c h' Ls D' P ∧ CchHalfOk n c t' Lt noLabel Pt ∧
      t'.nodes = t.nodes ∧ SInv n c.upTail c.upHead F S Ls Ls DF PF ∧ PInv n c.upTail c.upHead B DF Lt D' := by
  obtain ⟨d', p', DF, PF, e1, g1, _, g3⟩ := search_spec hF (setPred := fun p _ _ => some p) (PR := fun _ _ => True)
    (fun p _ _ _ _ _ => ⟨p, rfl, trivial⟩) (p := []) (P := P) ok.space.topo (ok.lt ht) ok.dist trivial hi
  have hlen : Lt.length ≤ n := by
    have := (List.subperm_of_subset okt.space.topo.nodup (l₂ := List.range n)
      (fun x hx => List.mem_range.2 (okt.lt ht x hx))).length_le
    simpa using this
  obtain ⟨s, e2, s1, s2, s3⟩ := pushStack_spec okt.dist.1 hlen
  obtain ⟨s', d'', D', e3, r1, r2, r3⟩ := popStack_spec hB g3.le okt.space.topo (okt.lt ht) Lt.length s d' DF (Nat.le_refl _) s1
    (fun i x _ hx => s2 i x hx) (fun i hi hin => by rw [s3 i hi, okt.dist.2 i hin]; rfl) hlen g1
    (by
      rw [List.drop_length]
      exact ⟨fun _ => Nat.le_refl _, fun _ _ => rfl, fun x hx _ => ⟨x, 0, .nil x, hx, rfl⟩, fun _ h => by cases h⟩)
  refine ⟨{ h with dist := d'' }, { t with dist := s' }, DF, PF, D', ?_, ⟨r2, ok.pred, ok.flags, ok.space⟩,
    ⟨?_, okt.pred, okt.flags, okt.space⟩, rfl, g3, r3⟩
  · unfold CchHalf.pinnedRun
    rw [visit_spec _ ok.space, visit_spec _ okt.space]
    simp only [e1, e2, e3, Option.bind_eq_bind, Option.bind_some]
  · rw [r1]
    exact ⟨by simp, fun a ha => rd_replicate ha⟩

end RK
