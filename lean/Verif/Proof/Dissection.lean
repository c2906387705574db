import Verif.Proof.Parts
import Verif.Proof.CchTri
import Verif.Proof.DissTree
/-! # Proofs about nested dissection (nested_dissection.cpp:740-849) -/
namespace RK
open Spec Nd BitVector

theorem pick_map {α : Type} (P : α → Bool) : ∀ xs : List α, pick true (xs.map P) xs = xs.filter P
  | [] => rfl
  | x :: xs => by
    rw [List.map_cons, pick_cons, pick_map P xs, List.filter_cons]

theorem pick_zip {α β : Type} : ∀ {B : List Bool} {s : List α} {t : List β}, B.length = s.length →
    B.length = t.length → (pick true B s).zip (pick true B t) = pick true B (s.zip t)
  | [], _, _, _, _ => by simp [pick]
  | b :: B, x :: s, y :: t, h1, h2 => by
    have ih := pick_zip (B := B) (s := s) (t := t) (by simpa using h1) (by simpa using h2)
    rw [List.zip_cons_cons, pick_cons, pick_cons, pick_cons]
    cases b
    · simpa using ih
    · simpa using ih
  | b :: B, [], _, h1, _ => by simp at h1
  | b :: B, _, [], _, h2 => by simp at h2

/-- Neither end of the arc is in the separator. -/
def apart (sep : List Bool) (e : Nat × Nat) : Bool := sep[e.1]? == some false && sep[e.2]? == some false

theorem apart_iff {sep : List Bool} {x y : Nat} :
    apart sep (x, y) = true ↔ sep[x]? = some false ∧ sep[y]? = some false := by
  simp [apart]

theorem localArcs_length {f : GraphFragment} (o : FragmentOk f) : (localArcs f).length = f.arcCount := by
  have := o.head_len
  unfold localArcs
  rw [List.length_zip]
  show _ = f.tail.length
  omega

theorem globalArcs_length {f : GraphFragment} (o : FragmentOk f) : (globalArcs f).length = f.arcCount := by
  unfold globalArcs
  rw [List.length_map, localArcs_length o]

theorem removeSeparator_spec {p : GraphFragment} (o : FragmentOk p) (hm : p.arcCount < u32) {sep : List Bool}
    (hs : sep.length = p.nodeCount) (junk : Nat → Word) :
    ∃ q, removeSeparator p sep junk = some q ∧ FragmentOk q ∧ q.globalNodeId = p.globalNodeId ∧
      localArcs q = (localArcs p).filter (apart sep) := by
  have hu : u32 = 4294967296 := rfl
  have hu64 : u64 = 18446744073709551616 := rfl
  have hac : p.arcCount = p.tail.length := rfl
  have hnc : p.nodeCount = p.globalNodeId.length := rfl
  have hh := o.head_len
  have hb := o.back_len
  have hla := localArcs_length o
  generalize hB : (localArcs p).map (apart sep) = B
  have hBl : B.length = p.arcCount := by rw [← hB, List.length_map, hla]
  have hBat : ∀ a x y, FragArc p a x y → rd B a = some (apart sep (x, y)) := by
    intro a x y hA
    rw [← hB]
    exact rd_map (rd_zip hA.1 hA.2)
  have harc : ∀ a, a < p.arcCount → ∃ x y, FragArc p a x y := by
    intro a ha
    obtain ⟨x, hx⟩ := rd_isSome (v := p.tail) (i := a) ha
    obtain ⟨y, hy⟩ := rd_isSome (v := p.head) (i := a) (by omega)
    exact ⟨x, y, hx, hy⟩
  have hbits : remainingArcs p sep = some B := by
    unfold remainingArcs
    have hstep : ∀ a, a < p.arcCount → (do
        let x ← rd p.tail a
        let sx ← rd sep x
        if sx then some false else do
          let y ← rd p.head a
          let sy ← rd sep y
          some (!sy)) = rd B a := by
      intro a ha
      obtain ⟨x, y, hA⟩ := harc a ha
      obtain ⟨l1, l2⟩ := fragArc_lt o hA
      obtain ⟨sx, hsx⟩ := rd_isSome (v := sep) (i := x) (by omega)
      obtain ⟨sy, hsy⟩ := rd_isSome (v := sep) (i := y) (by omega)
      rw [hBat a x y hA]
      have hx : rd p.tail a = some x := hA.1
      have hy : rd p.head a = some y := hA.2
      simp only [hx, hy, hsx, hsy, Option.bind_eq_bind, Option.bind_some]
      unfold rd at hsx hsy
      unfold apart
      simp only [hsx, hsy]
      cases sx <;> cases sy <;> rfl
    obtain ⟨r, e, h1, h2, _⟩ := mapM_spec (f := fun a => do
        let x ← rd p.tail a
        let sx ← rd sep x
        if sx then some false else do
          let y ← rd p.head a
          let sy ← rd sep y
          some (!sy)) (l := List.range p.arcCount) (by
      intro a ha
      rw [List.mem_range] at ha
      obtain ⟨x, y, hA⟩ := harc a ha
      exact ⟨_, (hstep a ha).trans (hBat a x y hA)⟩)
    rw [e]
    congr 1
    rw [List.length_range] at h1
    apply list_ext_rd
    · omega
    · intro i hi
      rw [h2 i i (show rd (List.range p.arcCount) i = some i by
        have : i < p.arcCount := by omega
        simp [rd, this])]
      exact hstep i (by omega)
  obtain ⟨v, ev, hv⟩ := BitVector.rep_make (n := p.arcCount) (by omega) (fun a => B.getD a false) junk
  have hBB : (List.range p.arcCount).map (fun a => B.getD a false) = B := by
    apply list_ext_rd
    · simp; omega
    · intro i hi
      simp only [List.length_map, List.length_range] at hi
      rw [rd_map (show rd (List.range p.arcCount) i = some i by simp [rd, hi])]
      rw [rd_lt (by omega), List.getD_eq_getElem?_getD, List.getElem?_eq_getElem (by omega)]
      rfl
  rw [hBB] at hv
  obtain ⟨mp, em, hmp⟩ := LocalIDMapper.new_spec hv
  have et := inplaceFilter_spec hv true p.tail (by omega)
  have eh := inplaceFilter_spec hv true p.head (by omega)
  have eb := inplaceFilter_spec hv true p.backArc (by omega)
  have lt_ := pick_length (B := B) (xs := p.tail) (by omega)
  have lh_ := pick_length (B := B) (xs := p.head) (by omega)
  have lb_ := pick_length (B := B) (xs := p.backArc) (by omega)
  have hsym : ∀ i c, at' B i = true → rd p.backArc i = some c → at' B c = true := by
    intro i c hi hc
    have hil : i < p.arcCount := by have := rd_some_lt hc; omega
    obtain ⟨x, y, hA⟩ := harc i hil
    obtain ⟨_, hA'⟩ := o.back i c x y hc hA
    have h1 := hBat i x y hA
    have h2 := hBat c y x hA'
    have hi' : apart sep (x, y) = true := by
      rw [at_lt (by omega)] at hi
      rw [rd_lt (by omega)] at h1
      injection h1 with h1
      rw [← h1]; exact hi
    obtain ⟨l2, r2⟩ := rd_eq_some.1 h2
    rw [at_lt l2, r2]
    rw [apart_iff] at hi' ⊢
    exact ⟨hi'.2, hi'.1⟩
  obtain ⟨back, eback, bl, brd, _⟩ := mapM_spec (f := mp.toLocal) (l := pick true B p.backArc) (by
    intro c hc
    obtain ⟨j, hj⟩ := mem_iff_rd.1 hc
    obtain ⟨i, h1, _, h3⟩ := pick_pos (by omega) hj
    exact ⟨_, hmp.toLocal (hsym i c h1 h3)⟩)
  have ao : ArcsOk p.nodeCount (pick true B p.tail) (pick true B p.head) back := by
    refine ⟨by omega, by omega, ?_, ?_, ?_⟩
    · intro x hx
      obtain ⟨j, hj⟩ := mem_iff_rd.1 hx
      obtain ⟨i, _, _, h3⟩ := pick_pos (by omega) hj
      exact o.tail_lt x (mem_iff_rd.2 ⟨i, h3⟩)
    · intro x hx
      obtain ⟨j, hj⟩ := mem_iff_rd.1 hx
      obtain ⟨i, _, _, h3⟩ := pick_pos (by omega) hj
      exact o.head_lt x (mem_iff_rd.2 ⟨i, h3⟩)
    · intro a c x y hc hx hy
      obtain ⟨i, hi, hri, hxi⟩ := pick_pos (by omega) hx
      have hyi : rd p.head i = some y := by
        rw [← pick_rk (by omega) hi, hri]; exact hy
      obtain ⟨d, hd⟩ := rd_isSome (v := p.backArc) (i := i) (by have := rd_some_lt hxi; omega)
      have hpd : rd (pick true B p.backArc) a = some d := by
        rw [← hri, pick_rk (by omega) hi, hd]
      have hBd := hsym i d hi hd
      have hcd := brd a d hpd
      rw [hc, hmp.toLocal hBd] at hcd
      cases hcd
      obtain ⟨q1, q2, q3⟩ := o.back i d x y hd ⟨hxi, hyi⟩
      refine ⟨?_, ?_, ?_⟩
      · have : rd (pick true B p.backArc) (rk (at' B) d) = some i := by
          rw [pick_rk (by omega) hBd]; exact q1
        rw [brd _ _ this, hmp.toLocal hi, hri]
      · rw [pick_rk (by omega) hBd]; exact q2
      · rw [pick_rk (by omega) hBd]; exact q3
  have hsub : ∀ xs : List Nat, B.length = xs.length → (pick true B xs).Sublist xs := by
    intro xs hl
    unfold pick
    have h1 : ((B.zip xs).filter fun e => e.1 == true).Sublist (B.zip xs) := List.filter_sublist
    have h2 := h1.map (·.2)
    have h3 : (B.zip xs).map (·.2) = xs := List.map_snd_zip (by omega)
    rw [h3] at h2
    exact h2
  have hsorted := o.sorted.sublist (hsub p.tail (by omega))
  obtain ⟨fo, efo, _⟩ := Props.C08_invert_vector _ p.nodeCount hsorted ao.tlt
  refine ⟨⟨p.globalNodeId, fo, pick true B p.tail, pick true B p.head, back⟩, ?_,
    fragmentOk_of ao hsorted rfl efo, rfl, ?_⟩
  · unfold removeSeparator inplaceKeep
    simp only [hbits, ev, et, eh, eb, em, eback, efo, Option.bind_eq_bind, Option.bind_some]
  · show (pick true B p.tail).zip (pick true B p.head) = _
    rw [pick_zip (by omega) (by omega), ← hB]
    exact pick_map _ _


theorem sublist_flatMap_mem {α β : Type} (g : α → List β) {x : α} : ∀ {l : List α}, x ∈ l →
    (g x).Sublist (l.flatMap g)
  | y :: l, h => by
    rw [List.flatMap_cons]
    rcases List.mem_cons.1 h with rfl | h
    · exact List.sublist_append_left _ _
    · exact (sublist_flatMap_mem g h).trans (List.sublist_append_right _ _)

theorem connected_has_arc {p : GraphFragment} (hc : ConnectedFragment p) (h2 : 2 ≤ p.globalNodeId.length) {x : Nat}
    (hx : x < p.globalNodeId.length) : ∃ y, Adj p x y := by
  obtain ⟨z, hz, hne⟩ : ∃ z, z < p.globalNodeId.length ∧ z ≠ x := by
    by_cases h : x = 0
    · exact ⟨1, by omega, by omega⟩
    · exact ⟨0, by omega, by omega⟩
  rcases (hc x z hx hz).cases_head with h | ⟨y, hy, _⟩
  · exact absurd h.symm hne
  · exact ⟨y, hy⟩

theorem mem_localArcs {p : GraphFragment} {x y : Nat} : (x, y) ∈ localArcs p ↔ Adj p x y := by
  unfold Adj FragArc localArcs
  rw [List.mem_iff_getElem?]
  simp only [List.getElem?_zip_eq_some]

theorem mem_globalArcs {p : GraphFragment} {e : Option Nat × Option Nat} : e ∈ globalArcs p ↔
    ∃ x y, Adj p x y ∧ e = (p.globalNodeId[x]?, p.globalNodeId[y]?) := by
  unfold globalArcs
  rw [List.mem_map]
  constructor
  · rintro ⟨⟨x, y⟩, h, rfl⟩
    exact ⟨x, y, mem_localArcs.1 h, rfl⟩
  · rintro ⟨x, y, h, rfl⟩
    exact ⟨(x, y), mem_localArcs.2 h, rfl⟩

theorem adj_lt {p : GraphFragment} (o : FragmentOk p) {x y : Nat} (h : Adj p x y) :
    x < p.globalNodeId.length ∧ y < p.globalNodeId.length := by
  obtain ⟨a, ha⟩ := h
  exact fragArc_lt o ha

theorem orders_perm {α : Type} (g : α → List Nat) (t : α → DissTree) : ∀ (l : List α),
    (∀ c ∈ l, (t c).order.Perm (g c)) → (DissTree.orders (l.map t)).Perm (l.flatMap g)
  | [], _ => by simp [DissTree.orders]
  | c :: l, h => by
    rw [List.map_cons, DissTree.orders, List.flatMap_cons]
    exact (h c (by simp)).append (orders_perm g t l fun d hd => h d (by simp [hd]))

theorem dissects_perm {sep : GraphFragment → Option (List Bool)} {f : GraphFragment} {t : DissTree}
    (h : Dissects sep f t) : t.order.Perm f.globalNodeId := by
  induction h with
  | mk f comps last _ h2 _ _ h5 _ ih =>
    rw [DissTree.order]
    refine List.Perm.trans (List.Perm.append_right _ ?_) h2
    apply orders_perm
    intro c hc
    obtain ⟨bits, _, hw, _⟩ := h5 c hc
    have := ih c hc
    rw [hw.1] at this
    exact this

/-- Marked nodes have no arcs left, so they come last. -/
theorem separated_last {sep : GraphFragment → Option (List Bool)} {p q : GraphFragment} {bits : List Bool}
    (hw : WithoutSeparator p bits q) (oq : FragmentOk q) (hn : q.globalNodeId.Nodup) {t : DissTree}
    (hd : Dissects sep q t) (hb : bits.length = p.globalNodeId.length) (x : Nat) (hx : bits[x]? = some true) :
    ∃ id ∈ t.last, p.globalNodeId[x]? = some id := by
  have hxl : x < bits.length := rd_some_lt (v := bits) hx
  obtain ⟨id, hid⟩ := rd_isSome (v := p.globalNodeId) (i := x) (by omega)
  unfold rd at hid
  refine ⟨id, ?_, hid⟩
  cases hd with
  | mk _ comps last h1 h2 h3 _ _ _ =>
    show id ∈ last
    have hm : id ∈ comps.flatMap (·.1.globalNodeId) ++ last := by
      rw [h2.mem_iff, hw.1]
      exact List.mem_of_getElem? hid
    rcases List.mem_append.1 hm with hm | hm
    · exfalso
      obtain ⟨c, hc, hcm⟩ := List.mem_flatMap.1 hm
      obtain ⟨o, hcon, hl⟩ := h1 c hc
      obtain ⟨z, hz⟩ := List.getElem?_of_mem hcm
      have hzl : z < c.1.globalNodeId.length := rd_some_lt (v := c.1.globalNodeId) hz
      obtain ⟨y, hy⟩ := connected_has_arc hcon hl hzl
      have := h3 c hc _ (mem_globalArcs.2 ⟨z, y, hy, rfl⟩)
      obtain ⟨u, w, huw, e⟩ := mem_globalArcs.1 this
      simp only [Prod.mk.injEq] at e
      have hux : u = x := by
        have hul := (adj_lt oq huw).1
        have hxl' : x < q.globalNodeId.length := by rw [hw.1]; omega
        have : q.globalNodeId[u]? = q.globalNodeId[x]? := by rw [← e.1, hz, hw.1, hid]
        exact (List.Nodup.getElem_inj_iff hn (hi := hul) (hj := hxl')).1 (by
          rw [List.getElem?_eq_getElem hul, List.getElem?_eq_getElem hxl'] at this
          injection this)
      subst hux
      have := mem_localArcs.2 huw
      rw [hw.2, List.mem_filter] at this
      simp [hx] at this
    · exact hm

theorem treeState_single {n : Nat} {Rs : List DissTree} {last : List Nat} {s : DecompState}
    (h : TreeState n Rs last s) (x : Nat) (hlt : s.orderBegin < s.orderEnd) :
    ∃ order, wr s.order (s.orderEnd - 1) x = some order ∧
      TreeState n Rs (x :: last) { s with orderEnd := s.orderEnd - 1, order := order } := by
  have h1 := h.oend
  have h2 := h.olen
  refine ⟨_, wr_lt (by omega), h.tree, h.pred, h.obegin, ?_, ?_, ?_, ?_⟩
  · simp only [List.length_cons]; omega
  · simp [h2]
  · simp only
    rw [List.take_set_of_le (by omega)]
    exact h.front
  · simp only
    rw [← h.back]
    obtain ⟨k, hk⟩ : ∃ k, s.orderEnd = k + 1 := ⟨s.orderEnd - 1, by omega⟩
    rw [hk, Nat.add_sub_cancel, List.drop_eq_getElem_cons (by simp; omega), List.getElem_set_self,
      List.drop_set_of_lt (by omega)]

theorem separatorDecomposition_spec {sep : GraphFragment → Option (List Bool)} {F : GraphFragment}
    (hsep : SeparatorOk sep F) (junk : Nat → Word) : ∀ (depth : Nat) (f : GraphFragment), FragmentOk f →
    0 < f.nodeCount → f.nodeCount < u32 → f.arcCount < u32 → f.globalNodeId.Nodup → Subfragment f F →
    f.arcCount < depth →
    ∃ t, separatorDecomposition sep junk depth f = some ⟨encT t 0 0 0, t.order⟩ ∧ Dissects sep f t
  | 0, f, _, _, _, _, _, _, h => by omega
  | depth + 1, f, o, h0, hn, hm, hnd, hsub, hdep => by
    have hnc : f.nodeCount = f.globalNodeId.length := rfl
    unfold separatorDecomposition
    by_cases h1 : f.nodeCount = 1
    · rw [if_pos h1]
      refine ⟨.node [] f.globalNodeId, ?_, ?_⟩
      · simp only [encT, encL, DissTree.order, DissTree.orders, List.isEmpty_nil, if_true, List.length_nil,
          List.nil_append, Nat.add_zero, Nat.zero_add]
        rw [← hnc, h1]
      · refine Dissects.mk (sep := sep) f [] f.globalNodeId (by simp) (by simp) (by simp) ?_ (by simp) (by simp)
        intro e he hne
        exfalso
        obtain ⟨x, y, hxy, rfl⟩ := mem_globalArcs.1 he
        obtain ⟨l1, l2⟩ := adj_lt o hxy
        apply hne
        rw [show x = 0 by omega, show y = 0 by omega]
    · rw [if_neg h1]
      obtain ⟨parts, eparts, pok, pids, parcs⟩ := decompose_spec o hn hm h0
      simp only [eparts, Option.bind_eq_bind, Option.bind_some]
      have hlen : (parts.flatMap (·.globalNodeId)).length = f.nodeCount := pids.length_eq
      have hpart : ∀ p ∈ parts, p.globalNodeId.Nodup ∧ p.nodeCount < u32 ∧ p.arcCount ≤ f.arcCount ∧
          (∀ x ∈ p.globalNodeId, x ∈ f.globalNodeId) ∧ ∀ e ∈ globalArcs p, e ∈ globalArcs f := by
        intro p hp
        have s1 : (p.globalNodeId).Sublist (parts.flatMap (·.globalNodeId)) :=
          sublist_flatMap_mem (fun p : GraphFragment => p.globalNodeId) hp
        have s2 : (globalArcs p).Sublist (parts.flatMap globalArcs) := sublist_flatMap_mem globalArcs hp
        refine ⟨(pids.nodup_iff.2 hnd).sublist s1, ?_, ?_, ?_, ?_⟩
        · have := s1.length_le
          have : p.nodeCount = p.globalNodeId.length := rfl
          omega
        · have := s2.length_le
          rw [parcs.length_eq, globalArcs_length o, globalArcs_length (pok p hp).1] at this
          exact this
        · intro x hx
          exact pids.mem_iff.1 (s1.subset hx)
        · intro e he
          exact parcs.mem_iff.1 (s2.subset he)
      obtain ⟨s, es, comps, last, T, q1, q2, q3, q4, q5, q6⟩ := forEach_inv
        (f := decompPart sep junk (separatorDecomposition sep junk depth))
        (fun done (s : DecompState) => ∃ (comps : List (GraphFragment × GraphFragment × DissTree)) (last : List Nat),
          TreeState f.nodeCount (comps.map (·.2.2)) last s ∧
          (∀ c ∈ comps, FragmentOk c.1 ∧ ConnectedFragment c.1 ∧ 2 ≤ c.1.globalNodeId.length) ∧
          (comps.flatMap (·.1.globalNodeId) ++ last).Perm (done.flatMap (·.globalNodeId)) ∧
          (∀ c ∈ comps, c.1 ∈ done) ∧ (∀ p ∈ done, 2 ≤ p.globalNodeId.length → ∃ c ∈ comps, c.1 = p) ∧
          (∀ c ∈ comps, ∃ bits, sep c.1 = some bits ∧ WithoutSeparator c.1 bits c.2.1 ∧
            ∀ x : Nat, bits[x]? = some true → ∃ id ∈ c.2.2.last, c.1.globalNodeId[x]? = some id) ∧
          ∀ c ∈ comps, Dissects sep c.2.1 c.2.2) parts []
        ⟨0, 0, f.nodeCount, [⟨0, 0, 0, f.nodeCount⟩], List.replicate f.nodeCount 0⟩
        ⟨[], [], ⟨by simp [encL], by simp, by simp [DissTree.orders], by simp, by simp, by simp [DissTree.orders],
          by simp⟩, by simp, by simp, by simp, by simp, by simp, by simp⟩
        (by
          rintro pre p post s hsplit _ ⟨comps, last, T, q1, q2, q3, q4, q5, q6⟩
          rw [List.nil_append] at hsplit
          have hp : p ∈ parts := by rw [hsplit]; simp
          obtain ⟨po, pc, p0⟩ := pok p hp
          obtain ⟨pnd, pn, pm, psub⟩ := hpart p hp
          have hpn : p.nodeCount = p.globalNodeId.length := rfl
          have hfit : (pre.flatMap (·.globalNodeId)).length + p.nodeCount ≤ f.nodeCount := by
            rw [hsplit, List.flatMap_append, List.flatMap_cons, List.length_append, List.length_append] at hlen
            omega
          have hperm : (DissTree.orders (comps.map (·.2.2))).Perm (comps.flatMap (·.1.globalNodeId)) := by
            apply orders_perm
            intro c hc
            obtain ⟨bits, _, hw, _⟩ := q5 c hc
            have := dissects_perm (q6 c hc)
            rw [hw.1] at this
            exact this
          have hob := T.obegin
          rw [hperm.length_eq] at hob
          have hoe := T.oend
          have hpl := q2.length_eq
          rw [List.length_append] at hpl
          unfold decompPart
          have c0 : (p.nodeCount != 0) = true := by simpa using Nat.ne_of_gt p0
          simp only [c0, check_true, Option.bind_eq_bind, Option.bind_some]
          by_cases hp1 : p.nodeCount = 1
          · rw [if_pos hp1]
            obtain ⟨x, hx⟩ : ∃ x, p.globalNodeId = [x] := List.length_eq_one_iff.1 hp1
            have c1 : (s.orderEnd != 0) = true := by
              rw [bne_iff_ne]; omega
            obtain ⟨order, eo, T'⟩ := treeState_single T x (by omega)
            have hrd : rd p.globalNodeId 0 = some x := by rw [hx]; rfl
            simp only [hrd, c1, check_true, Option.bind_some, eo]
            refine ⟨_, rfl, comps, x :: last, T', q1, ?_, ?_, ?_, q5, q6⟩
            · rw [List.flatMap_append, List.flatMap_cons, List.flatMap_nil, List.append_nil, hx]
              have : (comps.flatMap (·.1.globalNodeId) ++ x :: last).Perm
                  (comps.flatMap (·.1.globalNodeId) ++ last ++ [x]) := by
                rw [List.append_assoc]
                exact List.Perm.append_left _ (List.perm_append_singleton x last).symm
              exact this.trans (q2.append_right _)
            · intro c hc
              exact List.mem_append_left _ (q3 c hc)
            · intro r hr hr2
              rcases List.mem_append.1 hr with hr | hr
              · exact q4 r hr hr2
              · rw [List.mem_singleton] at hr
                subst hr
                omega
          · rw [if_neg hp1]
            obtain ⟨bits, eb, hbl, hbt⟩ := hsep p po ⟨by omega, by show p.arcCount < u32; omega⟩ pnd pc (by omega)
              ⟨fun x hx => hsub.1 x (psub.1 x hx), fun e he => hsub.2 e (psub.2 e he)⟩
            obtain ⟨q, eq, qo, qid, qarcs⟩ := removeSeparator_spec po (by omega) hbl junk
            have hw : WithoutSeparator p bits q := ⟨qid, qarcs⟩
            have hqarc : q.arcCount < p.arcCount := by
              rw [← localArcs_length qo, ← localArcs_length po, qarcs, List.length_filter_lt_length_iff_exists]
              obtain ⟨x, hx⟩ := List.getElem?_of_mem hbt
              obtain ⟨y, hy⟩ := connected_has_arc pc (by omega) (x := x)
                (by have := rd_some_lt (v := bits) hx; omega)
              exact ⟨(x, y), mem_localArcs.2 hy, by simp [apart, hx]⟩
            have hqn : q.nodeCount = p.nodeCount := by
              show q.globalNodeId.length = _
              rw [qid]; rfl
            have hqsub : ∀ e ∈ globalArcs q, e ∈ globalArcs p := by
              intro e he
              obtain ⟨x, y, hxy, rfl⟩ := mem_globalArcs.1 he
              rw [qid]
              refine mem_globalArcs.2 ⟨x, y, ?_, rfl⟩
              have := mem_localArcs.2 hxy
              rw [qarcs, List.mem_filter] at this
              exact mem_localArcs.1 this.1
            obtain ⟨t, et, hd⟩ := separatorDecomposition_spec hsep junk depth q qo (by omega) (by omega) (by omega)
              (by rw [qid]; exact pnd)
              ⟨fun x hx => hsub.1 x (psub.1 x (qid ▸ hx)), fun e he => hsub.2 e (psub.2 e (hqsub e he))⟩ (by omega)
            have htl : t.order.length = p.nodeCount := by
              rw [(dissects_perm hd).length_eq, qid]; rfl
            obtain ⟨s', es', T'⟩ := addPart_spec T (R := t) rfl (by omega)
            simp only [eb, eq, et, es', Option.bind_some]
            refine ⟨s', rfl, comps ++ [(p, q, t)], last, by rw [List.map_append]; exact T', ?_, ?_, ?_, ?_, ?_, ?_⟩
            · intro c hc
              rcases List.mem_append.1 hc with hc | hc
              · exact q1 c hc
              · rw [List.mem_singleton] at hc
                subst hc
                exact ⟨po, pc, by show 2 ≤ p.globalNodeId.length; omega⟩
            · rw [List.flatMap_append, List.flatMap_append]
              simp only [List.flatMap_cons, List.flatMap_nil, List.append_nil]
              rw [List.append_assoc]
              refine (List.Perm.append_left _ List.perm_append_comm).trans ?_
              rw [← List.append_assoc]
              exact q2.append_right _
            · intro c hc
              rcases List.mem_append.1 hc with hc | hc
              · exact List.mem_append_left _ (q3 c hc)
              · rw [List.mem_singleton] at hc
                subst hc
                simp
            · intro r hr hr2
              rcases List.mem_append.1 hr with hr | hr
              · obtain ⟨c, hc, hce⟩ := q4 r hr hr2
                exact ⟨c, List.mem_append_left _ hc, hce⟩
              · rw [List.mem_singleton] at hr
                subst hr
                exact ⟨(r, q, t), by simp, rfl⟩
            · intro c hc
              rcases List.mem_append.1 hc with hc | hc
              · exact q5 c hc
              · rw [List.mem_singleton] at hc
                subst hc
                exact ⟨bits, eb, hw, separated_last hw qo (by rw [qid]; exact pnd) hd hbl⟩
            · intro c hc
              rcases List.mem_append.1 hc with hc | hc
              · exact q6 c hc
              · rw [List.mem_singleton] at hc
                subst hc
                exact hd)
      rw [List.nil_append] at q2 q3 q4
      have hperm : (DissTree.orders (comps.map (·.2.2))).Perm (comps.flatMap (·.1.globalNodeId)) := by
        apply orders_perm
        intro c hc
        obtain ⟨bits, _, hw, _⟩ := q5 c hc
        have := dissects_perm (q6 c hc)
        rw [hw.1] at this
        exact this
      have hob := T.obegin
      have hoe := T.oend
      have hol := T.olen
      have hpl := q2.length_eq
      rw [List.length_append, ← hperm.length_eq, hlen] at hpl
      have hbe : s.orderBegin = s.orderEnd := by omega
      refine ⟨.node (comps.map (·.2.2)) last, ?_, ?_⟩
      · simp only [es, Option.bind_some]
        have hrd : rd s.tree 0 = some ⟨if (comps.map (·.2.2)).isEmpty then 0 else 1, 0, 0, f.nodeCount⟩ := by
          rw [T.tree]; rfl
        simp only [hrd, Option.bind_some]
        rw [wr_lt (by rw [T.tree]; simp)]
        simp only [Option.bind_some]
        congr 2
        · rw [T.tree, List.set_cons_zero, encT]
          congr 1
          simp only [DecompNode.mk.injEq]
          exact ⟨trivial, trivial, by omega, by omega⟩
        · rw [DissTree.order, ← T.front, ← T.back, hbe, List.take_append_drop]
      · refine Dissects.mk (sep := sep) f comps last q1 (q2.trans pids) ?_ ?_ q5 q6
        · intro c hc
          exact (hpart c.1 (q3 c hc)).2.2.2.2
        · intro e he hne
          obtain ⟨p, hp, hpe⟩ := List.mem_flatMap.1 (parcs.mem_iff.2 he)
          by_cases h2 : 2 ≤ p.globalNodeId.length
          · obtain ⟨c, hc, rfl⟩ := q4 p hp h2
            exact ⟨c, hc, hpe⟩
          · exfalso
            obtain ⟨x, y, hxy, rfl⟩ := mem_globalArcs.1 hpe
            obtain ⟨l1, l2⟩ := adj_lt (pok p hp).1 hxy
            apply hne
            rw [show x = 0 by omega, show y = 0 by omega]

end RK
