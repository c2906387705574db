import Verif.Spec.Dissection
/-! # The vector of tree entries of a nested dissection (nested_dissection.cpp:820-838) -/
namespace RK
open Spec Nd

mutual
/-- The entries of a tree that starts at index `k` and position `b`, with right sibling `rs`. -/
def encT : DissTree → Nat → Nat → Nat → List DecompNode
  | .node ps last, k, b, rs => ⟨if ps.isEmpty then 0 else k + 1, rs, b + (DissTree.orders ps).length,
      b + (DissTree.orders ps).length + last.length⟩ :: encL ps (k + 1) b 0
/-- The entries of consecutive trees; `rs` is the right sibling of the last one. -/
def encL : List DissTree → Nat → Nat → Nat → List DecompNode
  | [], _, _, _ => []
  | t :: ts, k, b, rs => encT t k b (if ts.isEmpty then rs else k + t.size) ++
      encL ts (k + t.size) (b + t.order.length) rs
end

mutual
theorem encT_length : ∀ (t : DissTree) (k b rs : Nat), (encT t k b rs).length = t.size
  | .node ps last, k, b, rs => by
    unfold encT DissTree.size
    rw [List.length_cons, encL_length]
theorem encL_length : ∀ (ts : List DissTree) (k b rs : Nat), (encL ts k b rs).length = DissTree.sizes ts
  | [], _, _, _ => by unfold encL DissTree.sizes; rfl
  | t :: ts, k, b, rs => by
    unfold encL DissTree.sizes
    rw [List.length_append, encT_length, encL_length]
end

theorem dissTree_size_pos (t : DissTree) : 0 < t.size := by
  cases t; unfold DissTree.size; omega

/-- A sibling index after the shift. -/
def shiftIdx (k' rs : Nat) : Nat := if rs ≠ 0 then rs + k' else rs

mutual
theorem encT_shift (k' o : Nat) : ∀ (t : DissTree) (k b rs : Nat),
    (encT t k b rs).map (shiftNode k' o) = encT t (k + k') (b + o) (shiftIdx k' rs)
  | .node ps last, k, b, rs => by
    unfold encT
    rw [List.map_cons, encL_shift k' o ps]
    unfold shiftNode
    congr 1
    · simp only [DecompNode.mk.injEq]
      refine ⟨?_, rfl, by omega, by omega⟩
      cases ps with
      | nil => rfl
      | cons _ _ => simp; omega
    · congr 1; omega
theorem encL_shift (k' o : Nat) : ∀ (ts : List DissTree) (k b rs : Nat),
    (encL ts k b rs).map (shiftNode k' o) = encL ts (k + k') (b + o) (shiftIdx k' rs)
  | [], _, _, _ => by unfold encL; rfl
  | t :: ts, k, b, rs => by
    unfold encL
    rw [List.map_append, encT_shift k' o t, encL_shift k' o ts]
    have := dissTree_size_pos t
    congr 1
    · congr 1
      cases ts with
      | nil => rfl
      | cons _ _ =>
        show shiftIdx k' (k + t.size) = _
        unfold shiftIdx
        rw [if_pos (by omega)]
        simp only [List.isEmpty_cons, Bool.false_eq_true, if_false]
        omega
    · congr 1 <;> omega
end

theorem encL_snoc (t : DissTree) : ∀ (ts : List DissTree) (k b rs : Nat), encL (ts ++ [t]) k b rs =
    encL ts k b (k + DissTree.sizes ts) ++ encT t (k + DissTree.sizes ts) (b + (DissTree.orders ts).length) rs
  | [], k, b, rs => by
    simp [encL, DissTree.sizes, DissTree.orders]
  | x :: ts, k, b, rs => by
    rw [List.cons_append, encL, encL_snoc t ts, encL, DissTree.sizes, DissTree.orders, List.append_assoc,
      List.length_append]
    have e1 : (ts ++ [t]).isEmpty = false := by cases ts <;> rfl
    rw [e1]
    congr 1
    · congr 1
      cases ts with
      | nil => simp [DissTree.sizes]
      | cons _ _ => rfl
    · congr 1
      · congr 1; omega
      · congr 1 <;> omega

theorem encT_sibling (t : DissTree) (k b rs rs' : Nat) : ∃ x rest, encT t k b rs = x :: rest ∧
    encT t k b rs' = { x with rightSibling := rs' } :: rest := by
  cases t
  unfold encT
  exact ⟨_, _, rfl, rfl⟩

theorem orders_append : ∀ ts us : List DissTree,
    DissTree.orders (ts ++ us) = DissTree.orders ts ++ DissTree.orders us
  | [], us => by simp [DissTree.orders]
  | t :: ts, us => by
    rw [List.cons_append, DissTree.orders, DissTree.orders, orders_append ts us, List.append_assoc]

theorem sizes_append : ∀ ts us : List DissTree,
    DissTree.sizes (ts ++ us) = DissTree.sizes ts + DissTree.sizes us
  | [], us => by simp [DissTree.sizes]
  | t :: ts, us => by
    rw [List.cons_append, DissTree.sizes, DissTree.sizes, sizes_append ts us, Nat.add_assoc]

theorem order_length (ps : List DissTree) (last : List Nat) :
    (DissTree.node ps last).order.length = (DissTree.orders ps).length + last.length := by
  rw [DissTree.order, List.length_append]

mutual
theorem encT_treeIs {tree : List DecompNode} : ∀ (t : DissTree) (k b rs : Nat) (pre post : List DecompNode),
    tree = pre ++ encT t k b rs ++ post → pre.length = k → TreeIs tree k b t
  | .node ps last, k, b, rs, pre, post, h, hk => by
    rw [encT] at h
    unfold TreeIs
    have h1 := encL_childrenAre (tree := tree) ps (k + 1) b (by omega)
      (pre ++ [⟨if ps.isEmpty then 0 else k + 1, rs, b + (DissTree.orders ps).length,
        b + (DissTree.orders ps).length + last.length⟩]) post
      (by rw [h]; simp only [List.append_assoc, List.cons_append, List.nil_append]) (by simp [hk])
    refine ⟨⟨if ps.isEmpty then 0 else k + 1, rs, b + (DissTree.orders ps).length,
        b + (DissTree.orders ps).length + last.length⟩, ?_, h1, rfl⟩
    rw [h, List.append_assoc, List.getElem?_append_right (by omega), hk, Nat.sub_self]
    rfl
theorem encL_childrenAre {tree : List DecompNode} : ∀ (ts : List DissTree) (k b : Nat), k ≠ 0 →
    ∀ (pre post : List DecompNode), tree = pre ++ encL ts k b 0 ++ post → pre.length = k →
    ChildrenAre tree (if ts.isEmpty then 0 else k) b (b + (DissTree.orders ts).length) ts
  | [], k, b, _, pre, post, h, hk => by
    unfold ChildrenAre
    simp [DissTree.orders]
  | t :: ts, k, b, h0, pre, post, h, hk => by
    rw [encL] at h
    unfold ChildrenAre
    have hp := dissTree_size_pos t
    have h1 : tree = pre ++ encT t k b (if ts.isEmpty then 0 else k + t.size) ++
        (encL ts (k + t.size) (b + t.order.length) 0 ++ post) := by
      rw [h]; simp only [List.append_assoc]
    have h2 := encL_childrenAre (tree := tree) ts (k + t.size) (b + t.order.length) (by omega)
      (pre ++ encT t k b (if ts.isEmpty then 0 else k + t.size)) post
      (by rw [h]; simp only [List.append_assoc]) (by rw [List.length_append, encT_length, hk])
    refine ⟨h0, encT_treeIs t k b _ pre _ h1 hk, ?_⟩
    cases t with
    | node ps last =>
      rw [encT] at h1
      refine ⟨_, by rw [List.isEmpty_cons, if_neg (by simp), h1, List.append_assoc,
        List.getElem?_append_right (by omega), hk, Nat.sub_self]; rfl, ?_⟩
      simp only
      rw [DissTree.orders, List.length_append, order_length] at *
      have e1 : b + (DissTree.orders ps).length + last.length = b + ((DissTree.orders ps).length + last.length) := by
        omega
      have e2 : b + ((DissTree.orders ps).length + last.length + (DissTree.orders ts).length) =
          b + ((DissTree.orders ps).length + last.length) + (DissTree.orders ts).length := by omega
      rw [e1, e2]
      exact h2
end

/-! ### std::copy into the order -/

theorem copyInto_spec {src order : List Nat} {b : Nat} (h : b + src.length ≤ order.length) :
    (forRange 0 src.length order fun o i => do
      let x ← rd src i
      wr o (b + i) x) = some (order.take b ++ src ++ order.drop (b + src.length)) := by
  obtain ⟨r, e, hr⟩ := forRange_inv (lo := 0) (hi := src.length) (s := order)
    (f := fun o i => do
      let x ← rd src i
      wr o (b + i) x)
    (fun i o => o = order.take b ++ src.take i ++ order.drop (b + i)) (Nat.zero_le _)
    (by simp) (by
      rintro i o _ hi rfl
      obtain ⟨x, hx⟩ := rd_isSome hi
      simp only [hx, Option.bind_eq_bind, Option.bind_some]
      have l1 : (order.take b ++ src.take i).length = b + i := by
        simp; omega
      rw [wr_lt (by simp; omega)]
      refine ⟨_, rfl, ?_⟩
      obtain ⟨_, hxe⟩ := rd_eq_some.1 hx
      rw [List.set_append_right _ _ (by omega), l1, Nat.sub_self]
      rw [show order.drop (b + i) = order[b + i]'(by omega) :: order.drop (b + i + 1) from
        List.drop_eq_getElem_cons (by omega), List.set_cons_zero]
      rw [show src.take (i + 1) = src.take i ++ [x] by rw [← hxe]; exact (List.take_append_getElem hi).symm]
      simp only [List.append_assoc, List.cons_append, List.nil_append, Nat.add_assoc])
  rw [e, hr, List.take_length]

/-- The state of the loop over the components after groups `Rs`. -/
structure TreeState (n : Nat) (Rs : List DissTree) (last : List Nat) (s : DecompState) : Prop where
  tree : s.tree = ⟨if Rs.isEmpty then 0 else 1, 0, 0, n⟩ :: encL Rs 1 0 0
  pred : (Rs = [] ∧ s.pred = 0) ∨ ∃ Rs' R, Rs = Rs' ++ [R] ∧ s.pred = 1 + DissTree.sizes Rs'
  obegin : s.orderBegin = (DissTree.orders Rs).length
  oend : s.orderEnd + last.length = n
  olen : s.order.length = n
  front : s.order.take s.orderBegin = DissTree.orders Rs
  back : s.order.drop s.orderEnd = last

theorem addPart_spec {n : Nat} {Rs : List DissTree} {last : List Nat} {s : DecompState} (h : TreeState n Rs last s)
    {R : DissTree} {d : Decomp} (hd : d = ⟨encT R 0 0 0, R.order⟩)
    (hfit : s.orderBegin + R.order.length ≤ s.orderEnd) :
    ∃ s', addPart s d = some s' ∧ TreeState n (Rs ++ [R]) last s' := by
  subst hd
  have ho := h.oend
  have hl := h.olen
  have hb := h.obegin
  have hcopy := copyInto_spec (src := R.order) (order := s.order) (b := s.orderBegin) (by omega)
  simp only [Option.bind_eq_bind] at hcopy
  have htl : s.tree.length = 1 + DissTree.sizes Rs := by
    rw [h.tree, List.length_cons, encL_length, Nat.add_comm]
  have hshift : (encT R 0 0 0).map (shiftNode s.tree.length s.orderBegin) =
      encT R (1 + DissTree.sizes Rs) (DissTree.orders Rs).length 0 := by
    rw [encT_shift, htl, hb]
    simp [shiftIdx]
  obtain ⟨node, hnode, tr, htr, hfin⟩ : ∃ node, rd s.tree s.pred = some node ∧ ∃ tr, wr s.tree s.pred
      (if s.pred = 0 then { node with leftChild := s.tree.length } else { node with rightSibling := s.tree.length }) =
        some tr ∧ tr ++ encT R (1 + DissTree.sizes Rs) (DissTree.orders Rs).length 0 =
          ⟨1, 0, 0, n⟩ :: encL (Rs ++ [R]) 1 0 0 := by
    rcases h.pred with ⟨rfl, hp⟩ | ⟨Rs', X, rfl, hp⟩
    · refine ⟨⟨0, 0, 0, n⟩, by rw [hp, h.tree]; rfl, ?_⟩
      refine ⟨_, by rw [wr_lt (by rw [hp, htl]; omega)], ?_⟩
      rw [hp, if_pos rfl, htl, h.tree]
      simp [encL, DissTree.sizes, DissTree.orders]
    · obtain ⟨x, rest, e1, e2⟩ := encT_sibling X (1 + DissTree.sizes Rs') (0 + (DissTree.orders Rs').length) 0
        s.tree.length
      have ht := h.tree
      rw [encL_snoc, e1] at ht
      have hempty : (Rs' ++ [X]).isEmpty = false := by cases Rs' <;> rfl
      rw [hempty] at ht
      have ht' : s.tree = (⟨1, 0, 0, n⟩ :: encL Rs' 1 0 (1 + DissTree.sizes Rs')) ++ x :: rest := by
        rw [ht]; rfl
      have hpl : ((⟨1, 0, 0, n⟩ : DecompNode) :: encL Rs' 1 0 (1 + DissTree.sizes Rs')).length = s.pred := by
        rw [List.length_cons, encL_length, hp, Nat.add_comm]
      refine ⟨x, ?_, ?_⟩
      · unfold rd
        rw [ht', List.getElem?_append_right (by omega), hpl, Nat.sub_self]
        rfl
      · refine ⟨_, by rw [wr_lt (by rw [ht', List.length_append, hpl]; simp)], ?_⟩
        rw [if_neg (by omega), encL_snoc, encL_snoc, show 1 + DissTree.sizes (Rs' ++ [X]) = s.tree.length from htl.symm,
          e2, Nat.zero_add]
        generalize hv : s.tree.length = v
        rw [ht', List.set_append_right _ _ (by omega), hpl, Nat.sub_self, List.set_cons_zero]
        simp only [List.cons_append]
  refine ⟨⟨s.tree.length, s.orderBegin + R.order.length, s.orderEnd,
    tr ++ encT R (1 + DissTree.sizes Rs) (DissTree.orders Rs).length 0,
    s.order.take s.orderBegin ++ R.order ++ s.order.drop (s.orderBegin + R.order.length)⟩, ?_, ?_⟩
  · unfold addPart
    simp only [hnode, htr, hcopy, hshift, Option.bind_eq_bind, Option.bind_some]
  · have hne : (Rs ++ [R]).isEmpty = false := by cases Rs <;> rfl
    have hord : (DissTree.orders (Rs ++ [R])) = DissTree.orders Rs ++ R.order := by
      rw [orders_append]; simp [DissTree.orders]
    refine ⟨?_, Or.inr ⟨Rs, R, rfl, htl⟩, ?_, ho, ?_, ?_, ?_⟩
    · simp only
      rw [hfin, hne]
      rfl
    · simp only
      rw [hord, List.length_append, hb]
    · simp; omega
    · simp only
      rw [hord, h.front, hb, ← List.length_append, List.take_left']
      rfl
    · simp only
      rw [List.drop_append, List.drop_eq_nil_of_le (by simp; omega), List.nil_append, List.drop_drop]
      rw [← h.back]
      congr 1
      simp
      omega

end RK
