import Verif.Proof.Components
/-! Helper lemmas: cutting a fragment into its connected components. -/
namespace RK
open Spec Nd

theorem rd_slice {α : Type} {v : List α} {b e i : Nat} (h : i < e - b) :
    rd ((v.drop b).take (e - b)) i = rd v (b + i) := by
  unfold rd
  rw [List.getElem?_take_of_lt h, List.getElem?_drop]

theorem slice_length {α : Type} {v : List α} {b e : Nat} (h : e ≤ v.length) :
    ((v.drop b).take (e - b)).length = e - b := by
  simp; omega

theorem slice_eq {v : List Nat} {b e : Nat} (h1 : b ≤ e) (h2 : e ≤ v.length) :
    slice v b e = some ((v.drop b).take (e - b)) := by
  unfold slice
  simp [h1, h2]

/-- A range of nodes and the range of their arcs. -/
structure PartRange (g : GraphFragment) (nb ne ab ae : Nat) : Prop where
  nle : nb ≤ ne
  nlt : ne ≤ g.nodeCount
  ale : ab ≤ ae
  alt : ae ≤ g.arcCount
  range : ∀ a x y, FragArc g a x y → ((ab ≤ a ∧ a < ae) ↔ (nb ≤ x ∧ x < ne))
  closed : ∀ a x y, FragArc g a x y → ((nb ≤ x ∧ x < ne) ↔ (nb ≤ y ∧ y < ne))

theorem generatePart_spec {g : GraphFragment} (o : FragmentOk g) (hn : g.nodeCount < u32)
    (hm : g.arcCount < u32) {nb ne ab ae : Nat} (R : PartRange g nb ne ab ae) :
    ∃ p, generatePart g nb ne ab ae = some p ∧ FragmentOk p ∧
      p.globalNodeId = (g.globalNodeId.drop nb).take (ne - nb) ∧
      globalArcs p = ((globalArcs g).drop ab).take (ae - ab) ∧ p.arcCount = ae - ab ∧
      ∀ x y, nb ≤ x → x < ne → Conn g x y → nb ≤ y ∧ y < ne ∧ Conn p (x - nb) (y - nb) := by
  have nle := R.nle
  have nlt := R.nlt
  have ale := R.ale
  have alt := R.alt
  have hhd := o.head_len
  have hbk := o.back_len
  have hnc : g.nodeCount = g.globalNodeId.length := rfl
  have hac : g.arcCount = g.tail.length := rfl
  have en : sub32 ne nb = ne - nb := ndSub32_of_le (by omega) nle
  have ea : sub32 ae ab = ae - ab := ndSub32_of_le (by omega) ale
  -- the arcs of the part
  have get : ∀ k, k < ae - ab → ∃ x y b, FragArc g (ab + k) x y ∧ nb ≤ x ∧ x < ne ∧ nb ≤ y ∧ y < ne ∧
      rd g.backArc (ab + k) = some b ∧ ab ≤ b ∧ b < ae := by
    intro k hk
    obtain ⟨x, hx⟩ := rd_isSome (v := g.tail) (i := ab + k) (by omega)
    obtain ⟨y, hy⟩ := rd_isSome (v := g.head) (i := ab + k) (by omega)
    have hA : FragArc g (ab + k) x y := ⟨hx, hy⟩
    have h1 := (R.range _ x y hA).1 ⟨by omega, by omega⟩
    have h2 := (R.closed _ x y hA).1 h1
    obtain ⟨b, hb1, _, hb2⟩ := fragArc_back o hA
    have h3 := (R.range b y x hb2).2 h2
    exact ⟨x, y, b, hA, h1.1, h1.2, h2.1, h2.2, hb1, h3.1, h3.2⟩
  let t := ((g.tail.drop ab).take (ae - ab)).map fun x => sub32 x nb
  let h := ((g.head.drop ab).take (ae - ab)).map fun x => sub32 x nb
  let b := ((g.backArc.drop ab).take (ae - ab)).map fun x => sub32 x ab
  have tl : t.length = ae - ab := by simp only [t, List.length_map]; exact slice_length (by omega)
  have hl : h.length = ae - ab := by simp only [h, List.length_map]; exact slice_length (by omega)
  have bl : b.length = ae - ab := by simp only [b, List.length_map]; exact slice_length (by omega)
  have rt : ∀ k x y c, k < ae - ab → FragArc g (ab + k) x y → rd g.backArc (ab + k) = some c →
      nb ≤ x ∧ nb ≤ y ∧ ab ≤ c ∧ x < ne ∧ y < ne ∧ c < ae →
      rd t k = some (x - nb) ∧ rd h k = some (y - nb) ∧ rd b k = some (c - ab) := by
    intro k x y c hk hA hc hr
    refine ⟨?_, ?_, ?_⟩
    · simp only [t]
      rw [rd_map ((rd_slice hk).trans hA.1), ndSub32_of_le (by omega) hr.1]
    · simp only [h]
      rw [rd_map ((rd_slice hk).trans hA.2), ndSub32_of_le (by omega) hr.2.1]
    · simp only [b]
      rw [rd_map ((rd_slice hk).trans hc), ndSub32_of_le (by omega) hr.2.2.1]
  have full : ∀ k, k < ae - ab → ∃ x y c, FragArc g (ab + k) x y ∧ rd g.backArc (ab + k) = some c ∧
      (nb ≤ x ∧ nb ≤ y ∧ ab ≤ c ∧ x < ne ∧ y < ne ∧ c < ae) ∧
      rd t k = some (x - nb) ∧ rd h k = some (y - nb) ∧ rd b k = some (c - ab) := by
    intro k hk
    obtain ⟨x, y, c, hA, q1, q2, q3, q4, q5, q6, q7⟩ := get k hk
    exact ⟨x, y, c, hA, q5, ⟨q1, q3, q6, q2, q4, q7⟩, rt k x y c hk hA q5 ⟨q1, q3, q6, q2, q4, q7⟩⟩
  have tlt : ∀ x ∈ t, x < ne - nb := by
    intro u hu
    obtain ⟨k, hk, e⟩ := List.getElem_of_mem hu
    obtain ⟨x, y, c, _, _, q, q1, q2, q3⟩ := full k (by omega)
    rw [rd_lt hk, e] at q1; cases q1
    omega
  have hlt : ∀ x ∈ h, x < ne - nb := by
    intro u hu
    obtain ⟨k, hk, e⟩ := List.getElem_of_mem hu
    obtain ⟨x, y, c, _, _, q, q1, q2, q3⟩ := full k (by omega)
    rw [rd_lt hk, e] at q2; cases q2
    omega
  have blt : ∀ x ∈ b, x < ae - ab := by
    intro u hu
    obtain ⟨k, hk, e⟩ := List.getElem_of_mem hu
    obtain ⟨x, y, c, _, _, q, q1, q2, q3⟩ := full k (by omega)
    rw [rd_lt hk, e] at q3; cases q3
    omega
  have ao : ArcsOk (ne - nb) t h b := by
    refine ⟨by omega, by omega, tlt, hlt, ?_⟩
    intro k c' u w hc' hu hw
    have hk : k < ae - ab := by have := rd_some_lt hu; omega
    obtain ⟨x, y, c, hA, hcb, q, q1, q2, q3⟩ := full k hk
    rw [hu] at q1; rw [hw] at q2; rw [hc'] at q3
    cases q1; cases q2; cases q3
    obtain ⟨b1, b2⟩ := o.back _ c x y hcb hA
    have hc : ab + (c - ab) = c := by omega
    have := rt (c - ab) y x (ab + k) (by omega) (by rw [hc]; exact b2) (by rw [hc]; exact b1) (by omega)
    rw [show ab + k - ab = k by omega] at this
    exact ⟨this.2.2, this.1, this.2.1⟩
  have hs : t.Pairwise (· ≤ ·) := by
    rw [List.pairwise_iff_getElem]
    intro i j hi hj hij
    obtain ⟨x, y, c, hA, _, q, q1, _, _⟩ := full i (by omega)
    obtain ⟨x', y', c', hA', _, q', q1', _, _⟩ := full j (by omega)
    rw [rd_lt hi] at q1; rw [rd_lt hj] at q1'
    injection q1 with q1
    injection q1' with q1'
    obtain ⟨l1, r1⟩ := rd_eq_some.1 (show rd g.tail (ab + i) = some x from hA.1)
    obtain ⟨l2, r2⟩ := rd_eq_some.1 (show rd g.tail (ab + j) = some x' from hA'.1)
    have := (List.pairwise_iff_getElem.1 o.sorted) (ab + i) (ab + j) l1 l2 (by omega)
    omega
  have idl : ((g.globalNodeId.drop nb).take (ne - nb)).length = ne - nb := slice_length (by omega)
  obtain ⟨fo, e6, _⟩ := Props.C08_invert_vector t (ne - nb) hs ao.tlt
  have hok : FragmentOk ⟨(g.globalNodeId.drop nb).take (ne - nb), fo, t, h, b⟩ :=
    fragmentOk_of ao hs idl e6
  refine ⟨_, ?_, hok, rfl, ?_, tl, ?_⟩
  · unfold generatePart
    simp only [slice_eq ale alt, slice_eq ale (show ae ≤ g.head.length by omega),
      slice_eq ale (show ae ≤ g.backArc.length by omega), slice_eq nle nlt, en, ea, Option.bind_eq_bind,
      Option.bind_some]
    have c1 : assertBelow t (ne - nb) = some () := by unfold assertBelow; simpa using tlt
    have c2 : assertBelow h (ne - nb) = some () := by unfold assertBelow; simpa using hlt
    have c3 : assertBelow b (ae - ab) = some () := by unfold assertBelow; simpa using blt
    show (assertBelow t (ne - nb)).bind _ = _
    rw [c1, Option.bind_some]
    show (assertBelow h (ne - nb)).bind _ = _
    rw [c2, Option.bind_some]
    show (assertBelow b (ae - ab)).bind _ = _
    rw [c3, Option.bind_some]
    show (invertVector t (ne - nb)).bind _ = _
    rw [e6, Option.bind_some]
  · have gl : (globalArcs g).length = g.arcCount := by
      unfold globalArcs localArcs; simp; omega
    apply list_ext_rd
    · rw [slice_length (by omega)]
      unfold globalArcs localArcs; simp; omega
    · intro k hk
      have hk : k < ae - ab := by
        unfold globalArcs localArcs at hk; simp at hk; omega
      obtain ⟨x, y, c, hA, _, q, q1, q2, _⟩ := full k hk
      rw [rd_slice hk]
      unfold globalArcs localArcs
      rw [rd_map (rd_zip q1 q2), rd_map (rd_zip hA.1 hA.2)]
      have hid : ∀ z, nb ≤ z → z < ne → ((g.globalNodeId.drop nb).take (ne - nb))[z - nb]? =
          g.globalNodeId[z]? := by
        intro z h1 h2
        have := rd_slice (v := g.globalNodeId) (b := nb) (e := ne) (i := z - nb) (by omega)
        unfold rd at this
        rw [this, show nb + (z - nb) = z by omega]
      simp only [hid x (by omega) (by omega), hid y (by omega) (by omega)]
  · intro x y hx1 hx2 hxy
    induction hxy with
    | refl => exact ⟨hx1, hx2, .refl⟩
    | @tail u w _ huw ih =>
      obtain ⟨u1, u2, u3⟩ := ih
      obtain ⟨a, ha⟩ := huw
      have h1 := (R.range a u w ha).2 ⟨u1, u2⟩
      have h2 := (R.closed a u w ha).1 ⟨u1, u2⟩
      refine ⟨h2.1, h2.2, .tail u3 ⟨a - ab, ?_⟩⟩
      obtain ⟨x', y', c, hA, _, q, q1, q2, _⟩ := full (a - ab) (by omega)
      rw [show ab + (a - ab) = a by omega] at hA
      have e1 := hA.1
      rw [ha.1] at e1; cases e1
      have e2 := hA.2
      rw [ha.2] at e2; cases e2
      exact ⟨q1, q2⟩


theorem skipArcs_spec {g : GraphFragment} {comp : List Nat} {cur T : Nat} (o : FragmentOk g)
    (hT : T ≤ g.arcCount) (hnc : ∀ x, x < g.nodeCount → ∃ c, rd comp x = some c)
    (hsame : ∀ a x y, FragArc g a x y → rd comp x = rd comp y)
    (hend : ∀ x, rd g.tail T = some x → rd comp x ≠ some cur) :
    ∀ (fuel ae : Nat), ae ≤ T → T < ae + fuel →
      (∀ a x, ae ≤ a → a < T → rd g.tail a = some x → rd comp x = some cur) →
      skipArcs g comp cur fuel ae = some T
  | 0, ae, h1, h2, _ => by omega
  | fuel + 1, ae, h1, h2, h3 => by
    unfold skipArcs
    have hac : g.arcCount = g.tail.length := rfl
    have hhd := o.head_len
    by_cases he : ae = g.arcCount
    · rw [if_neg (by simpa using he)]
      congr 1; omega
    · rw [if_pos he]
      obtain ⟨x, hx⟩ := rd_isSome (v := g.tail) (i := ae) (by omega)
      obtain ⟨y, hy⟩ := rd_isSome (v := g.head) (i := ae) (by omega)
      have hA : FragArc g ae x y := ⟨hx, hy⟩
      obtain ⟨c, hc⟩ := hnc x (fragArc_lt o hA).1
      have hd := (hsame ae x y hA).symm.trans hc
      simp only [hx, hy, hc, hd, Option.bind_eq_bind, Option.bind_some]
      by_cases hlt : ae < T
      · have := h3 ae x (Nat.le_refl _) hlt hx
        rw [hc] at this; cases this
        rw [if_pos rfl]
        simp only [beq_self_eq_true, check_true, Option.bind_some]
        exact skipArcs_spec o hT hnc hsame hend fuel (ae + 1) (by omega) (by omega)
          (fun a x h h' => h3 a x (by omega) h')
      · have : ae = T := by omega
        subst this
        rw [if_neg]
        rintro rfl
        exact hend x hx hc

/-- The parts found so far cover the nodes below `nb` and the arcs below `ab`. -/
structure PartsInv (g : GraphFragment) (nb ab : Nat) (parts : List GraphFragment) : Prop where
  ok : ∀ p ∈ parts, FragmentOk p ∧ ConnectedFragment p ∧ 0 < p.nodeCount
  ids : parts.flatMap (·.globalNodeId) = g.globalNodeId.take nb
  arcs : parts.flatMap globalArcs = (globalArcs g).take ab

/-- Adding the next part. -/
theorem partsInv_snoc {f g : GraphFragment} {comp : List Nat} (N : Renumbered f g comp)
    (hn : f.nodeCount < u32) (hm : f.arcCount < u32) {nb ne ab ae cur : Nat} {parts : List GraphFragment}
    (P : PartsInv g nb ab parts) (R : PartRange g nb ne ab ae) (hlt : nb < ne)
    (hcur : ∀ x, nb ≤ x → x < ne → rd comp x = some cur) :
    ∃ p, generatePart g nb ne ab ae = some p ∧ PartsInv g ne ae (parts ++ [p]) := by
  have h1 := N.nodes
  have h2 := N.arcs
  obtain ⟨p, e, q1, q2, q3, q4, q5⟩ := generatePart_spec N.ok (by omega) (by omega) R
  have hpn : p.globalNodeId.length = ne - nb := by
    rw [q2]; exact slice_length R.nlt
  have glue : ∀ {α : Type} (v : List α) (b e : Nat), b ≤ e → v.take b ++ (v.drop b).take (e - b) = v.take e := by
    intro α v b e hbe
    have := List.take_add (l := v) (i := b) (j := e - b)
    rw [show b + (e - b) = e by omega] at this
    exact this.symm
  refine ⟨p, e, ?_, ?_, ?_⟩
  · intro r hr
    rcases List.mem_append.1 hr with hr | hr
    · exact P.ok r hr
    · rw [List.mem_singleton] at hr
      subst hr
      refine ⟨q1, ?_, by show 0 < r.globalNodeId.length; omega⟩
      intro x y hx hy
      rw [hpn] at hx hy
      have := q5 (x + nb) (y + nb) (by omega) (by omega)
        (N.conn _ _ cur (hcur _ (by omega) (by omega)) (hcur _ (by omega) (by omega)))
      simpa using this.2.2
  · rw [List.flatMap_append, P.ids]
    simp only [List.flatMap_cons, List.flatMap_nil, List.append_nil, q2]
    exact glue _ _ _ R.nle
  · rw [List.flatMap_append, P.arcs]
    simp only [List.flatMap_cons, List.flatMap_nil, List.append_nil, q3]
    exact glue _ _ _ R.ale

theorem decompose_spec {f : GraphFragment} (o : FragmentOk f) (hn : f.nodeCount < u32)
    (hm : f.arcCount < u32) (h0 : 0 < f.nodeCount) :
    ∃ parts, decompose f = some parts ∧
      (∀ p ∈ parts, FragmentOk p ∧ ConnectedFragment p ∧ 0 < p.nodeCount) ∧
      (parts.flatMap (·.globalNodeId)).Perm f.globalNodeId ∧
      (parts.flatMap globalArcs).Perm (globalArcs f) := by
  obtain ⟨g, comp, e0, N⟩ := renumber_spec o hn
  have hnn := N.nodes
  have hna := N.arcs
  have hcl := N.len
  have hac : g.arcCount = g.tail.length := rfl
  have hgc : g.nodeCount = g.globalNodeId.length := rfl
  have hrange : ∀ {nb ne ab ae cur : Nat}, nb ≤ ne → ne ≤ g.nodeCount → ab = cLt g.tail nb →
      ae = cLt g.tail ne → (∀ x, x < g.nodeCount → (rd comp x = some cur ↔ nb ≤ x ∧ x < ne)) →
      PartRange g nb ne ab ae := by
    intro nb ne ab ae cur h1 h2 h3 h4 h5
    refine ⟨h1, h2, by rw [h3, h4]; exact cLt_mono _ h1, by rw [h4]; exact cLt_le_length _ _, ?_, ?_⟩
    · intro a x y hA
      have s1 := sorted_cLt (k := nb) N.ok.sorted hA.1
      have s2 := sorted_cLt (k := ne) N.ok.sorted hA.1
      omega
    · intro a x y hA
      obtain ⟨l1, l2⟩ := fragArc_lt N.ok hA
      rw [← h5 x l1, ← h5 y l2, N.same a x y hA]
  obtain ⟨s, e1, q1, q2, q3, q4, q5, P⟩ := forRange_inv (lo := 1) (hi := f.nodeCount)
    (s := (⟨0, 0, 0, 0, []⟩ : ScanState)) (f := scanNode g comp)
    (fun ne s => s.nb < ne ∧ s.ab = cLt g.tail s.nb ∧ s.ae = s.ab ∧
      (∀ x, s.nb ≤ x → x < ne → rd comp x = some s.cur) ∧
      (∀ x c, x < s.nb → rd comp x = some c → c < s.cur) ∧ PartsInv g s.nb s.ab s.parts) h0
    ⟨by simp, by rw [cLt_zero], rfl, by
      intro x _ hx
      have : x = 0 := by omega
      subst this
      exact N.zero h0, by intro x c hx; exact absurd hx (Nat.not_lt_zero x), ⟨by simp, by simp, by simp⟩⟩
    (by
      rintro ne s h1 h2 ⟨q1, q2, q3, q4, q5, P⟩
      obtain ⟨c, hc⟩ := rd_isSome (v := comp) (i := ne) (by omega)
      unfold scanNode
      simp only [hc, Option.bind_eq_bind, Option.bind_some]
      by_cases hcc : c = s.cur
      · rw [if_neg (by simpa using hcc)]
        refine ⟨s, rfl, by omega, q2, q3, ?_, q5, P⟩
        intro x hx1 hx2
        by_cases hxe : x = ne
        · subst hxe; rw [hc, hcc]
        · exact q4 x hx1 (by omega)
      · rw [if_pos hcc]
        have hgt : s.cur < c := by
          have := N.mono (ne - 1) ne s.cur c (by omega) (q4 (ne - 1) (by omega) (by omega)) hc
          omega
        have hiff : ∀ x, x < g.nodeCount → (rd comp x = some s.cur ↔ s.nb ≤ x ∧ x < ne) := by
          intro x hx
          constructor
          · intro h
            constructor
            · by_contra hlt
              have := q5 x _ (by omega) h
              omega
            · by_contra hlt
              by_cases hxe : x = ne
              · subst hxe; rw [hc] at h; cases h; exact hcc rfl
              · have := N.mono ne x c s.cur (by omega) hc h
                omega
          · rintro ⟨h3, h4⟩; exact q4 x h3 h4
        have R := hrange (cur := s.cur) (Nat.le_of_lt q1) (by omega) q2 rfl hiff
        obtain ⟨p, ep, P'⟩ := partsInv_snoc N hn hm P R q1 q4
        have hsk : skipArcs g comp s.cur (g.arcCount + 1) s.ae = some (cLt g.tail ne) := by
          have := R.ale
          have := R.alt
          apply skipArcs_spec N.ok R.alt _ N.same _ _ _ (by omega) (by omega)
          · intro a x h3 h4 hx
            have hl := N.ok.tail_lt x (List.mem_of_getElem? hx)
            refine (hiff x hl).2 ?_
            have s1 := sorted_cLt (k := s.nb) N.ok.sorted hx
            have s2 := sorted_cLt (k := ne) N.ok.sorted hx
            omega
          · intro x hx
            exact rd_isSome (by omega)
          · intro x hx
            have hl := N.ok.tail_lt x (List.mem_of_getElem? hx)
            rw [ne_eq, hiff x hl]
            have s2 := sorted_cLt (k := ne) N.ok.sorted hx
            omega
        rw [hsk, Option.bind_some, ep, Option.bind_some]
        refine ⟨_, rfl, by simp only; omega, rfl, rfl, ?_, ?_, P'⟩
        · intro x h3 h4
          have : x = ne := by simp only at h3; omega
          subst this
          exact hc
        · intro x c' hx hc'
          simp only at hx ⊢
          have := N.mono x ne c' c hx hc' hc
          by_cases hx' : x < s.nb
          · have := q5 x c' hx' hc'
            omega
          · have h6 := q4 x (by omega) hx
            rw [hc'] at h6; cases h6
            exact hgt)
  have hall : cLt g.tail f.nodeCount = g.arcCount := by
    apply cLt_all
    intro x hx
    have := N.ok.tail_lt x hx
    omega
  have R := hrange (cur := s.cur) (nb := s.nb) (ne := f.nodeCount) (ab := s.ab) (ae := g.arcCount)
    (Nat.le_of_lt q1) (by omega) q2 hall.symm (by
    intro x hx
    constructor
    · intro h
      refine ⟨?_, by omega⟩
      by_contra hlt
      have := q5 x _ (by omega) h
      omega
    · rintro ⟨h3, h4⟩; exact q4 x h3 h4)
  obtain ⟨p, ep, P'⟩ := partsInv_snoc N hn hm P R q1 q4
  refine ⟨s.parts ++ [p], ?_, P'.ok, ?_, ?_⟩
  · unfold decompose
    simp only [e0, e1, Option.bind_eq_bind, Option.bind_some, show max 1 f.nodeCount = f.nodeCount by omega, ep]
  · rw [P'.ids, List.take_of_length_le (by omega)]
    exact N.ids
  · rw [P'.arcs, List.take_of_length_le]
    · exact N.garcs
    · unfold globalArcs localArcs
      simp
      omega

end RK
