import Verif.Proof.Fragment
import Mathlib.Data.List.Nodup
import Mathlib.Data.List.Perm.Subperm
/-! Helper lemmas: the search for connected components. -/
namespace RK
open Spec Nd

theorem fragArc_lt {f : GraphFragment} (o : FragmentOk f) {a x y : Nat} (h : FragArc f a x y) :
    x < f.nodeCount ∧ y < f.nodeCount :=
  ⟨o.tail_lt x (List.mem_of_getElem? h.1), o.head_lt y (List.mem_of_getElem? h.2)⟩

theorem fragArc_back {f : GraphFragment} (o : FragmentOk f) {a x y : Nat} (h : FragArc f a x y) :
    ∃ b, rd f.backArc a = some b ∧ rd f.backArc b = some a ∧ FragArc f b y x := by
  obtain ⟨b, hb⟩ := rd_isSome (v := f.backArc) (i := a) (by
    have := o.back_len
    have := rd_some_lt (v := f.tail) h.1
    omega)
  obtain ⟨h1, h2⟩ := o.back a b x y hb h
  exact ⟨b, hb, h1, h2⟩

theorem adj_symm {f : GraphFragment} (o : FragmentOk f) {x y : Nat} (h : Adj f x y) : Adj f y x := by
  obtain ⟨a, ha⟩ := h
  obtain ⟨b, _, _, hb⟩ := fragArc_back o ha
  exact ⟨b, hb⟩

/-- Connected by a path. -/
abbrev Conn (f : GraphFragment) : Nat → Nat → Prop := Relation.ReflTransGen (Adj f)

theorem conn_symm {f : GraphFragment} (o : FragmentOk f) {x y : Nat} (h : Conn f x y) : Conn f y x := by
  induction h with
  | refl => exact .refl
  | tail _ h2 ih => exact .head (adj_symm o h2) ih

/-- The state of the search: `dn` lists the nodes taken from the stack, `todo` the arcs of the last of
them that have not been looked at. -/
structure CompInv (f : GraphFragment) (s : CompState) (dn : List Nat) (todo : Nat → Prop) : Prop where
  cl : s.comp.length = f.nodeCount
  il : s.inv.length = f.nodeCount
  nd : (dn ++ s.stack).Nodup
  lt : ∀ x ∈ dn ++ s.stack, x < f.nodeCount
  asg : ∀ x ∈ dn ++ s.stack, ∃ c, rd s.comp x = some c ∧ c ≤ s.count ∧ c ≠ invalidId
  un : ∀ x, x < f.nodeCount → x ∉ dn ++ s.stack → rd s.comp x = some invalidId
  pos : s.pos = dn.length
  inv : ∀ i x, rd dn i = some x → rd s.inv x = some i
  mono : ∀ i j x y c d, i < j → rd dn i = some x → rd dn j = some y → rd s.comp x = some c →
    rd s.comp y = some d → c ≤ d
  stk : ∀ x ∈ s.stack, rd s.comp x = some s.count
  closed : ∀ x a y, x ∈ dn → FragArc f a x y → ¬ todo a → rd s.comp y = rd s.comp x
  conn : ∀ x y, x ∈ dn ++ s.stack → y ∈ dn ++ s.stack → rd s.comp x = rd s.comp y → Conn f x y
  first : ∀ x, rd dn 0 = some x → rd s.comp x = some 0
  start : dn = [] → s.count = 0
  cnt : s.count ≤ dn.length

theorem nodup_bounded_length {l : List Nat} {n : Nat} (h : l.Nodup) (hl : ∀ x ∈ l, x < n) : l.length ≤ n := by
  have := (h.subperm (l₂ := List.range n) fun x hx => List.mem_range.2 (hl x hx)).length_le
  simpa using this

theorem compArc_spec {f : GraphFragment} (o : FragmentOk f) (hn : f.nodeCount < u32) {s : CompState}
    {dn : List Nat} {todo todo' : Nat → Prop} (I : CompInv f s dn todo) {xy x y : Nat}
    (ha : FragArc f xy x y) (hx : x ∈ dn) (hcx : rd s.comp x = some s.count)
    (htodo : ∀ a, todo a → a = xy ∨ todo' a) (htail : ∀ a, todo a → rd f.tail a = some x) :
    ∃ s', compArc f s xy = some s' ∧ CompInv f s' dn todo' ∧ rd s'.comp x = some s'.count ∧
      s'.count = s.count ∧ ∀ z ∈ dn ++ s.stack, z ∈ dn ++ s'.stack := by
  have hu : u32 = 4294967296 := rfl
  have hi : invalidId = 4294967295 := rfl
  obtain ⟨hxl, hyl⟩ := fragArc_lt o ha
  have hcl := I.cl
  obtain ⟨c, hc⟩ := rd_isSome (v := s.comp) (i := y) (by omega)
  have eh : rd f.head xy = some y := ha.2
  unfold compArc
  simp only [eh, hc, Option.bind_eq_bind, Option.bind_some]
  by_cases hci : c = invalidId
  · subst hci
    rw [if_pos rfl]
    have hy : y ∉ dn ++ s.stack := by
      intro h
      obtain ⟨c, h1, _, h2⟩ := I.asg y h
      rw [hc] at h1; cases h1
      exact h2 rfl
    have hlen : (y :: (dn ++ s.stack)).length ≤ f.nodeCount :=
      nodup_bounded_length (List.nodup_cons.2 ⟨hy, I.nd⟩) (by
        intro z hz
        rcases List.mem_cons.1 hz with rfl | hz
        · exact hyl
        · exact I.lt z hz)
    simp only [List.length_cons, List.length_append] at hlen
    have hcnt := I.cnt
    have hcap : Scc.pushCap f.nodeCount s.stack y = some (y :: s.stack) := if_pos (by omega)
    rw [hcap, Option.bind_some, wr_lt (by omega), Option.bind_some]
    have hset : ∀ z, rd (s.comp.set y s.count) z = if z = y then some s.count else rd s.comp z :=
      fun z => rd_set (by omega)
    have hold : ∀ z ∈ dn ++ s.stack, rd (s.comp.set y s.count) z = rd s.comp z := by
      intro z hz
      rw [hset, if_neg]
      rintro rfl
      exact hy hz
    have hmem : ∀ z, z ∈ dn ++ y :: s.stack ↔ z = y ∨ z ∈ dn ++ s.stack := by
      intro z
      simp only [List.mem_append, List.mem_cons]
      tauto
    have hdn : ∀ z ∈ dn, z ∈ dn ++ s.stack := fun z hz => List.mem_append_left _ hz
    refine ⟨_, rfl, ?_, by simp only; rw [hold x (hdn x hx)]; exact hcx, rfl, fun z hz => (hmem z).2 (Or.inr hz)⟩
    refine ⟨by simpa using I.cl, I.il, ?_, ?_, ?_, ?_, I.pos, I.inv, ?_, ?_, ?_, ?_, ?_, I.start, I.cnt⟩
    · simp only
      exact (List.perm_middle.nodup_iff).2 (List.nodup_cons.2 ⟨hy, I.nd⟩)
    · intro z hz
      rcases (hmem z).1 hz with rfl | hz
      · exact hyl
      · exact I.lt z hz
    · intro z hz
      simp only
      rcases (hmem z).1 hz with rfl | hz
      · exact ⟨s.count, by rw [hset, if_pos rfl], Nat.le_refl _, by omega⟩
      · rw [hold z hz]; exact I.asg z hz
    · intro z hz hnz
      simp only at hnz ⊢
      rw [hmem] at hnz
      rw [hset, if_neg (fun h => hnz (Or.inl h))]
      exact I.un z hz (fun h => hnz (Or.inr h))
    · intro i j u w c d hij h1 h2 h3 h4
      simp only at h3 h4
      rw [hold u (hdn u (List.mem_of_getElem? h1))] at h3
      rw [hold w (hdn w (List.mem_of_getElem? h2))] at h4
      exact I.mono i j u w c d hij h1 h2 h3 h4
    · intro z hz
      simp only at hz ⊢
      rcases List.mem_cons.1 hz with rfl | hz
      · rw [hset, if_pos rfl]
      · rw [hold z (List.mem_append_right _ hz)]; exact I.stk z hz
    · intro u a w hud hau hnt
      simp only
      rw [hold u (hdn u hud)]
      by_cases ht : todo a
      · rcases htodo a ht with rfl | ht
        · have h1 := hau.1
          rw [ha.1] at h1; cases h1
          have h2 := hau.2
          rw [ha.2] at h2; cases h2
          rw [hset, if_pos rfl, hcx]
        · exact absurd ht hnt
      · have h1 := I.closed u a w hud hau ht
        rw [hset, if_neg, h1]
        rintro rfl
        obtain ⟨c, h2, _, h3⟩ := I.asg u (hdn u hud)
        rw [hc, h2] at h1
        cases h1
        exact h3 rfl
    · have hxy : ∀ z ∈ dn ++ s.stack, rd s.comp z = some s.count → Conn f z y := fun z hz h =>
        .tail (I.conn z x hz (hdn x hx) (h.trans hcx.symm)) ⟨xy, ha⟩
      have hyc : rd (s.comp.set y s.count) y = some s.count := by rw [hset, if_pos rfl]
      intro u w hu0 hw0 huw
      simp only at hu0 hw0 huw
      rcases (hmem u).1 hu0 with rfl | hu1
      · rcases (hmem w).1 hw0 with rfl | hw1
        · exact .refl
        · rw [hyc, hold w hw1] at huw
          exact conn_symm o (hxy w hw1 huw.symm)
      · rcases (hmem w).1 hw0 with rfl | hw1
        · rw [hyc, hold u hu1] at huw
          exact hxy u hu1 huw
        · rw [hold u hu1, hold w hw1] at huw
          exact I.conn u w hu1 hw1 huw
    · intro z hz
      simp only
      rw [hold z (hdn z (List.mem_of_getElem? hz))]
      exact I.first z hz
  · rw [if_neg hci]
    refine ⟨s, rfl, ?_, hcx, rfl, fun z hz => hz⟩
    have hy : y ∈ dn ++ s.stack := by
      by_contra h
      have := I.un y hyl h
      rw [hc] at this; cases this
      exact hci rfl
    have hyc : rd s.comp y = some s.count := by
      rcases List.mem_append.1 hy with hyd | hys
      · obtain ⟨b, _, _, hb⟩ := fragArc_back o ha
        by_cases ht : todo b
        · have := htail b ht
          have h2 : rd f.tail b = some y := hb.1
          rw [h2] at this; cases this
          exact hcx
        · rw [← I.closed y b x hyd hb ht]; exact hcx
      · exact I.stk y hys
    refine { I with closed := ?_ }
    intro u a w hud hau hnt
    by_cases ht : todo a
    · rcases htodo a ht with rfl | ht
      · have h1 := hau.1
        rw [ha.1] at h1; cases h1
        have h2 := hau.2
        rw [ha.2] at h2; cases h2
        rw [hyc, hcx]
      · exact absurd ht hnt
    · exact I.closed u a w hud hau ht

/-- Nothing left to look at. -/
abbrev NoTodo : Nat → Prop := fun _ => False

theorem compPop_spec {f : GraphFragment} (o : FragmentOk f) (hn : f.nodeCount < u32) {s : CompState}
    {dn rest : List Nat} {x : Nat} (I : CompInv f s dn NoTodo) (hs : s.stack = x :: rest) :
    ∃ s', compPop f x rest s = some s' ∧ CompInv f s' (dn ++ [x]) NoTodo ∧ s'.count = s.count ∧
      ∀ z ∈ dn ++ s.stack, z ∈ (dn ++ [x]) ++ s'.stack := by
  have hxs : x ∈ dn ++ s.stack := by rw [hs]; simp
  have hxl := I.lt x hxs
  have hil := I.il
  obtain ⟨b, e, hb, he, hble, hbe⟩ := o.first_out x hxl
  have hcx : rd s.comp x = some s.count := I.stk x (by rw [hs]; simp)
  have hnd := I.nd
  rw [hs] at hnd
  have hxd : x ∉ dn := by
    intro h
    have := List.disjoint_of_nodup_append hnd
    exact this h (by simp)
  have hmem : ∀ z, z ∈ (dn ++ [x]) ++ rest ↔ z ∈ dn ++ s.stack := by
    intro z; rw [hs]; simp
  have I1 : CompInv f { s with stack := rest, inv := s.inv.set x s.pos, pos := s.pos + 1 } (dn ++ [x])
      (fun a => b ≤ a ∧ a < e) := by
    refine ⟨I.cl, by simpa using I.il, ?_, ?_, ?_, ?_, ?_, ?_, ?_, ?_, ?_, ?_, ?_, ?_, ?_⟩
    · simpa using hnd
    · intro z hz; exact I.lt z ((hmem z).1 hz)
    · intro z hz; exact I.asg z ((hmem z).1 hz)
    · intro z hz hnz; exact I.un z hz (fun h => hnz ((hmem z).2 h))
    · simp [I.pos]
    · intro i z hz
      simp only
      rw [rd_set (by omega)]
      by_cases hi : i < dn.length
      · have h1 : rd dn i = some z := by
          unfold rd at hz ⊢
          rw [List.getElem?_append_left hi] at hz; exact hz
        rw [if_neg]
        · exact I.inv i z h1
        · rintro rfl
          exact hxd (List.mem_of_getElem? h1)
      · have hil := rd_some_lt hz
        simp at hil
        have : i = dn.length := by omega
        subst this
        unfold rd at hz
        simp at hz
        rw [if_pos hz.symm, I.pos]
    · intro i j u w c d hij h1 h2 h3 h4
      have hjl := rd_some_lt h2
      simp at hjl
      have h1' : rd dn i = some u := by
        unfold rd at h1 ⊢
        rw [List.getElem?_append_left (by omega)] at h1; exact h1
      by_cases hj : j < dn.length
      · have h2' : rd dn j = some w := by
          unfold rd at h2 ⊢
          rw [List.getElem?_append_left hj] at h2; exact h2
        exact I.mono i j u w c d hij h1' h2' h3 h4
      · have : j = dn.length := by omega
        subst this
        unfold rd at h2
        simp at h2
        subst h2
        simp only at h3 h4
        rw [hcx] at h4; cases h4
        obtain ⟨c', h5, h6, _⟩ := I.asg u (List.mem_append_left _ (List.mem_of_getElem? h1'))
        rw [h3] at h5; cases h5
        exact h6
    · intro z hz
      exact I.stk z (by rw [hs]; exact List.mem_cons_of_mem _ hz)
    · intro u a w hu ha hnt
      rcases List.mem_append.1 hu with hu | hu
      · exact I.closed u a w hu ha (fun h => h)
      · rw [List.mem_singleton] at hu
        subst hu
        exact absurd ((hbe a).1 ha.1) hnt
    · intro u w hu hw huw
      exact I.conn u w ((hmem u).1 hu) ((hmem w).1 hw) huw
    · intro z hz
      by_cases hd : dn = []
      · subst hd
        unfold rd at hz
        simp at hz
        subst hz
        have := I.start rfl
        simp only
        rw [hcx, this]
      · have hl : 0 < dn.length := List.length_pos_iff.2 hd
        unfold rd at hz
        rw [List.getElem?_append_left hl] at hz
        exact I.first z hz
    · intro h; simp at h
    · have := I.cnt; simp; omega
  obtain ⟨s', es, I', hc', hcnt', hm'⟩ := forRange_inv (lo := b) (hi := e) (f := compArc f)
    (s := { s with stack := rest, inv := s.inv.set x s.pos, pos := s.pos + 1 })
    (fun k s' => CompInv f s' (dn ++ [x]) (fun a => k ≤ a ∧ a < e) ∧ rd s'.comp x = some s'.count ∧
      s'.count = s.count ∧ ∀ z ∈ dn ++ s.stack, z ∈ (dn ++ [x]) ++ s'.stack)
    hble
    ⟨I1, hcx, rfl, fun z hz => (hmem z).2 hz⟩
    (by
      rintro k s1 hk1 hk2 ⟨I1, hcx1, hc1, hm1⟩
      have hk : rd f.tail k = some x := (hbe k).2 ⟨hk1, hk2⟩
      obtain ⟨y, hy⟩ := rd_isSome (v := f.head) (i := k) (by
        have := o.head_len
        have := rd_some_lt hk
        omega)
      obtain ⟨s2, e2, I2, hcx2, hc2, hm2⟩ := compArc_spec o hn (todo' := fun a => k + 1 ≤ a ∧ a < e) I1
        (xy := k) (x := x) (y := y) ⟨hk, hy⟩ (by simp) hcx1 (by intro a ha; omega)
        (by intro a ha; exact (hbe a).2 ⟨by omega, ha.2⟩)
      exact ⟨s2, e2, I2, hcx2, by omega, fun z hz => hm2 z (hm1 z hz)⟩)
  refine ⟨s', ?_, ?_, hcnt', hm'⟩
  · unfold compPop
    have hb' : rd f.firstOut x = some b := hb
    have he' : rd f.firstOut (x + 1) = some e := he
    simp only [wr_lt (show x < s.inv.length by omega), hb', he', Option.bind_eq_bind, Option.bind_some]
    exact es
  · exact { I' with closed := fun u a w h1 h2 _ => I'.closed u a w h1 h2 (by omega) }

theorem compLoop_spec {f : GraphFragment} (o : FragmentOk f) (hn : f.nodeCount < u32) :
    ∀ (fuel : Nat) {s : CompState} {dn : List Nat}, CompInv f s dn NoTodo → f.nodeCount < fuel + dn.length →
      ∃ s' dn', compLoop f fuel s = some s' ∧ CompInv f s' dn' NoTodo ∧ s'.stack = [] ∧
        s'.count = s.count ∧ dn.length ≤ dn'.length ∧ ∀ z ∈ dn ++ s.stack, z ∈ dn'
  | 0, s, dn, I, hf => by
    have := nodup_bounded_length I.nd I.lt
    simp at this
    omega
  | fuel + 1, s, dn, I, hf => by
    unfold compLoop
    cases hs : s.stack with
    | nil => exact ⟨s, dn, rfl, I, hs, rfl, Nat.le_refl _, by simp⟩
    | cons x rest =>
      obtain ⟨s1, e1, I1, hc1, hm1⟩ := compPop_spec o hn I hs
      obtain ⟨s', dn', e', I', q1, q2, q3, q4⟩ := compLoop_spec o hn fuel I1 (by simp; omega)
      refine ⟨s', dn', by simp [e1, e'], I', q1, by omega, by simp at q3; omega, ?_⟩
      intro z hz
      rw [← hs] at hz
      exact q4 z (hm1 z hz)

/-- Between two roots. -/
structure Between (f : GraphFragment) (s : CompState) (dn : List Nat) : Prop where
  inv : CompInv f s dn NoTodo
  empty : s.stack = []
  below : ∀ x ∈ dn, ∀ c, rd s.comp x = some c → c < s.count

theorem compRoot_spec {f : GraphFragment} (o : FragmentOk f) (hn : f.nodeCount < u32) {s : CompState}
    {dn : List Nat} (B : Between f s dn) {r : Nat} (hr : r < f.nodeCount) :
    ∃ s' dn', compRoot f s r = some s' ∧ Between f s' dn' ∧ r ∈ dn' ∧ ∀ z ∈ dn, z ∈ dn' := by
  have hu : u32 = 4294967296 := rfl
  have hi : invalidId = 4294967295 := rfl
  have I := B.inv
  have hcl := I.cl
  have hE := B.empty
  obtain ⟨c, hc⟩ := rd_isSome (v := s.comp) (i := r) (by omega)
  unfold compRoot
  simp only [hc, Option.bind_eq_bind, Option.bind_some]
  by_cases hci : c = invalidId
  · subst hci
    rw [if_pos rfl, wr_lt (by omega), Option.bind_some]
    have hcap : Scc.pushCap f.nodeCount [] r = some [r] := if_pos (by simp; omega)
    rw [hcap, Option.bind_some]
    have hrd : r ∉ dn := by
      intro h
      obtain ⟨c, h1, _, h2⟩ := I.asg r (List.mem_append_left _ h)
      rw [hc] at h1; cases h1
      exact h2 rfl
    have hdnlt : ∀ z ∈ dn, z < f.nodeCount := fun z hz => I.lt z (List.mem_append_left _ hz)
    have hdnd : dn.Nodup := by have := I.nd; rw [hE] at this; simpa using this
    have hlen : (r :: dn).length ≤ f.nodeCount :=
      nodup_bounded_length (List.nodup_cons.2 ⟨hrd, hdnd⟩) (by
        intro z hz
        rcases List.mem_cons.1 hz with rfl | hz
        · exact hr
        · exact hdnlt z hz)
    simp only [List.length_cons] at hlen
    have hcnt := I.cnt
    have hset : ∀ z, rd (s.comp.set r s.count) z = if z = r then some s.count else rd s.comp z :=
      fun z => rd_set (by omega)
    have hold : ∀ z ∈ dn, rd (s.comp.set r s.count) z = rd s.comp z := by
      intro z hz
      rw [hset, if_neg]
      rintro rfl
      exact hrd hz
    have hmem : ∀ z, z ∈ dn ++ [r] ↔ z = r ∨ z ∈ dn := by
      intro z
      simp only [List.mem_append, List.mem_singleton]
      tauto
    have hin : ∀ z ∈ dn, z ∈ dn ++ s.stack := fun z hz => List.mem_append_left _ hz
    have I1 : CompInv f { s with comp := s.comp.set r s.count, stack := [r] } dn NoTodo := by
      refine ⟨by simpa using I.cl, I.il, ?_, ?_, ?_, ?_, I.pos, I.inv, ?_, ?_, ?_, ?_, ?_, I.start, I.cnt⟩
      · simp only
        rw [List.nodup_append]
        exact ⟨hdnd, by simp, by intro a ha b hb; simp at hb; rintro rfl; subst hb; exact hrd ha⟩
      · intro z hz
        rcases (hmem z).1 hz with rfl | hz
        · exact hr
        · exact hdnlt z hz
      · intro z hz
        simp only
        rcases (hmem z).1 hz with rfl | hz
        · exact ⟨s.count, by rw [hset, if_pos rfl], Nat.le_refl _, by omega⟩
        · rw [hold z hz]; exact I.asg z (hin z hz)
      · intro z hz hnz
        simp only at hnz ⊢
        rw [hmem] at hnz
        rw [hset, if_neg (fun h => hnz (Or.inl h))]
        exact I.un z hz (by rw [hE]; simpa using fun h => hnz (Or.inr h))
      · intro i j u w c d hij h1 h2 h3 h4
        simp only at h3 h4
        rw [hold u (List.mem_of_getElem? h1)] at h3
        rw [hold w (List.mem_of_getElem? h2)] at h4
        exact I.mono i j u w c d hij h1 h2 h3 h4
      · intro z hz
        simp only [List.mem_singleton] at hz ⊢
        subst hz
        rw [hset, if_pos rfl]
      · intro u a w hud hau hnt
        simp only
        have h1 := I.closed u a w hud hau hnt
        rw [hold u hud, hset, if_neg, h1]
        rintro rfl
        obtain ⟨c, h2, _, h3⟩ := I.asg u (hin u hud)
        rw [hc, h2] at h1
        cases h1
        exact h3 rfl
      · have hyc : rd (s.comp.set r s.count) r = some s.count := by rw [hset, if_pos rfl]
        intro u w hu0 hw0 huw
        simp only at hu0 hw0 huw
        rcases (hmem u).1 hu0 with rfl | hu1
        · rcases (hmem w).1 hw0 with rfl | hw1
          · exact .refl
          · rw [hyc, hold w hw1] at huw
            have := B.below w hw1 _ huw.symm
            omega
        · rcases (hmem w).1 hw0 with rfl | hw1
          · rw [hyc, hold u hu1] at huw
            have := B.below u hu1 _ huw
            omega
          · rw [hold u hu1, hold w hw1] at huw
            exact I.conn u w (hin u hu1) (hin w hw1) huw
      · intro z hz
        simp only
        rw [hold z (List.mem_of_getElem? hz)]
        exact I.first z hz
    obtain ⟨s', dn', e', I', q1, q2, q3, q4⟩ := compLoop_spec o hn (f.nodeCount + 1) I1 (by omega)
    have hrm : r ∈ dn' := q4 r (by simp)
    have hsub : ∀ z ∈ dn, z ∈ dn' := fun z hz => q4 z (List.mem_append_left _ hz)
    rw [e', Option.bind_some]
    have hdnd' : dn'.Nodup := by have := I'.nd; rw [q1] at this; simpa using this
    have hlt' : dn.length < dn'.length := by
      have := ((List.nodup_cons.2 ⟨hrd, hdnd⟩).subperm (l₂ := dn') (by
        intro z hz
        rcases List.mem_cons.1 hz with rfl | hz
        · exact hrm
        · exact hsub z hz)).length_le
      simp at this
      omega
    refine ⟨_, dn', rfl, ⟨?_, q1, ?_⟩, hrm, hsub⟩
    · refine { I' with asg := ?_, stk := ?_, start := ?_, cnt := ?_ }
      · intro z hz
        obtain ⟨c, h1, h2, h3⟩ := I'.asg z hz
        exact ⟨c, h1, by simp only; omega, h3⟩
      · intro z hz
        simp only [q1] at hz
        simp at hz
      · intro h
        subst h
        simp at hrm
      · have := I'.cnt
        simp only at q2 ⊢
        omega
    · intro z hz c hc
      obtain ⟨c', h1, h2, _⟩ := I'.asg z (List.mem_append_left _ hz)
      simp only at hc ⊢
      rw [hc] at h1; cases h1
      omega
  · rw [if_neg hci]
    refine ⟨s, dn, rfl, B, ?_, fun z hz => hz⟩
    by_contra h
    have := I.un r hr (by rw [hE]; simpa using h)
    rw [hc] at this; cases this
    exact hci rfl

theorem searchComponents_spec {f : GraphFragment} (o : FragmentOk f) (hn : f.nodeCount < u32) :
    ∃ s dn, searchComponents f = some s ∧ CompInv f s dn NoTodo ∧ s.stack = [] ∧
      dn.Perm (List.range f.nodeCount) := by
  obtain ⟨s, e, dn, B, h⟩ := forRange_inv (lo := 0) (hi := f.nodeCount) (f := compRoot f)
    (s := ⟨List.replicate f.nodeCount invalidId, 0, List.replicate f.nodeCount 0, [], 0⟩)
    (fun r s => ∃ dn, Between f s dn ∧ ∀ x, x < r → x ∈ dn) (Nat.zero_le _)
    ⟨[], ⟨⟨by simp, by simp, by simp, by simp, by simp, by
        intro x hx _
        exact rd_replicate hx, rfl, by intro i x h; simp [rd] at h,
        by intro i j x y c d _ h; simp [rd] at h, by simp, by simp, by simp,
        by intro x h; simp [rd] at h, by simp, by simp⟩, rfl, by simp⟩, by intro x hx; omega⟩
    (by
      rintro r s _ hr ⟨dn, B, h⟩
      obtain ⟨s', dn', e', B', h1, h2⟩ := compRoot_spec o hn B hr
      refine ⟨s', e', dn', B', ?_⟩
      intro x hx
      by_cases hxr : x = r
      · subst hxr; exact h1
      · exact h2 x (h x (by omega)))
  refine ⟨s, dn, e, B.inv, B.empty, ?_⟩
  have hnd : dn.Nodup := by have := B.inv.nd; rw [B.empty] at this; simpa using this
  apply (List.perm_ext_iff_of_nodup hnd List.nodup_range).2
  intro x
  rw [List.mem_range]
  exact ⟨fun hx => B.inv.lt x (List.mem_append_left _ hx), fun hx => h x hx⟩


/-! ### Renumbering -/

theorem rd_append_inv {α : Type} {v w : List α} {i : Nat} (h : i < v.length) : rd (v ++ w) i = rd v i := by
  unfold rd; rw [List.getElem?_append_left h]

theorem inplaceApply_eq {p v : List Nat} (hp : IsPerm p) (hv : ∀ x ∈ v, x < p.length) :
    inplaceApplyPermutationToElementsOf p v = applyPermutationToElementsOf p v := by
  have hall : (v.all fun x => decide (x < p.length)) = true := by simpa using hv
  unfold applyPermutationToElementsOf
  rw [checkPerm_of hp, hall]
  rfl

/-- What is known about the renumbered fragment `g` and the components of its nodes. -/
structure Renumbered (f g : GraphFragment) (comp : List Nat) : Prop where
  ok : FragmentOk g
  nodes : g.nodeCount = f.nodeCount
  arcs : g.arcCount = f.arcCount
  len : comp.length = f.nodeCount
  mono : ∀ i j c d, i < j → rd comp i = some c → rd comp j = some d → c ≤ d
  zero : 0 < f.nodeCount → rd comp 0 = some 0
  same : ∀ a x y, FragArc g a x y → rd comp x = rd comp y
  conn : ∀ x y c, rd comp x = some c → rd comp y = some c → Conn g x y
  ids : g.globalNodeId.Perm f.globalNodeId
  garcs : (globalArcs g).Perm (globalArcs f)

theorem renumber_spec {f : GraphFragment} (o : FragmentOk f) (hn : f.nodeCount < u32) :
    ∃ g comp, renumber f = some (g, comp) ∧ Renumbered f g comp := by
  obtain ⟨s, dn, e0, I, hE, hp⟩ := searchComponents_spec o hn
  have hnc : f.nodeCount = f.globalNodeId.length := rfl
  have hdl : dn.length = f.nodeCount := by simpa using hp.length_eq
  have hmem : ∀ x, x ∈ dn ↔ x < f.nodeCount := by intro x; rw [hp.mem_iff, List.mem_range]
  have hidx : ∀ x, x < f.nodeCount → ∃ i, rd dn i = some x := by
    intro x hx
    obtain ⟨i, hi, e⟩ := List.getElem_of_mem ((hmem x).2 hx)
    exact ⟨i, rd_eq_some.2 ⟨hi, e⟩⟩
  have hil := I.il
  have hinv : IsPerm s.inv := by
    apply isPerm_of_rd
    · intro x i hx
      obtain ⟨j, hj⟩ := hidx x (by have := rd_some_lt hx; omega)
      have := I.inv j x hj
      rw [hx] at this; cases this
      have := rd_some_lt hj
      omega
    · intro x y i hx hy
      obtain ⟨j, hj⟩ := hidx x (by have := rd_some_lt hx; omega)
      obtain ⟨k, hk⟩ := hidx y (by have := rd_some_lt hy; omega)
      have h1 := I.inv j x hj
      have h2 := I.inv k y hk
      rw [hx] at h1; rw [hy] at h2
      cases h1; cases h2
      rw [hj] at hk; cases hk; rfl
  have htl : ∀ x ∈ f.tail, x < s.inv.length := fun x hx => by rw [hil]; exact o.tail_lt x hx
  have hhl : ∀ x ∈ f.head, x < s.inv.length := fun x hx => by rw [hil]; exact o.head_lt x hx
  obtain ⟨t1, e1, l1, r1⟩ := applyPermutationToElementsOf_spec hinv htl
  obtain ⟨h1, e2, l2, r2⟩ := applyPermutationToElementsOf_spec hinv hhl
  rw [← inplaceApply_eq hinv htl] at e1
  rw [← inplaceApply_eq hinv hhl] at e2
  obtain ⟨ids, e3, l3, r3⟩ := applyInversePermutation_spec (v := f.globalNodeId) hinv hil
  have hcl := I.cl
  obtain ⟨comp, e4, l4, r4⟩ := applyInversePermutation_spec (v := s.comp) hinv (by omega)
  have hhd := o.head_len
  have hbk := o.back_len
  have o1 : ArcsOk f.nodeCount t1 h1 f.backArc := by
    have get : ∀ a x y, rd t1 a = some x → rd h1 a = some y → ∃ u w, FragArc f a u w ∧
        rd s.inv u = some x ∧ rd s.inv w = some y := by
      intro a x y hx hy
      obtain ⟨u, hu⟩ := rd_isSome (v := f.tail) (i := a) (by have := rd_some_lt hx; omega)
      obtain ⟨w, hw⟩ := rd_isSome (v := f.head) (i := a) (by have := rd_some_lt hy; omega)
      exact ⟨u, w, ⟨hu, hw⟩, (r1 a u hu).symm.trans hx, (r2 a w hw).symm.trans hy⟩
    refine ⟨by omega, by omega, ?_, ?_, ?_⟩
    · intro x hx
      obtain ⟨a, ha, e⟩ := List.getElem_of_mem hx
      obtain ⟨y, hy⟩ := rd_isSome (v := h1) (i := a) (by omega)
      obtain ⟨u, w, _, q1, q2⟩ := get a x y (rd_eq_some.2 ⟨ha, e⟩) hy
      have := hinv.lt x (List.mem_of_getElem? q1)
      omega
    · intro y hy
      obtain ⟨a, ha, e⟩ := List.getElem_of_mem hy
      obtain ⟨x, hx⟩ := rd_isSome (v := t1) (i := a) (by omega)
      obtain ⟨u, w, _, q1, q2⟩ := get a x y hx (rd_eq_some.2 ⟨ha, e⟩)
      have := hinv.lt y (List.mem_of_getElem? q2)
      omega
    · intro a c x y hc hx hy
      obtain ⟨u, w, hA, q1, q2⟩ := get a x y hx hy
      obtain ⟨b1, b2⟩ := o.back a c u w hc hA
      exact ⟨b1, (r1 c w b2.1).trans q2, (r2 c u b2.2).trans q1⟩
  obtain ⟨t', h', b', fo, q, e5, hq, hql, o2, hs, e6, l5, r5, p1, _⟩ := sortArcs_spec o1
  have hok : FragmentOk ⟨ids, fo, t', h', b'⟩ := fragmentOk_of o2 hs (by omega) e6
  have hcomp : ∀ x i, rd s.inv x = some i → rd comp i = rd s.comp x := fun x i h => r4 x i h
  have hback : ∀ i, i < f.nodeCount → ∃ x, rd dn i = some x ∧ rd s.inv x = some i ∧ x < f.nodeCount := by
    intro i hi
    obtain ⟨x, hx⟩ := rd_isSome (v := dn) (i := i) (by omega)
    exact ⟨x, hx, I.inv i x hx, (hmem x).1 (List.mem_of_getElem? hx)⟩
  have hl4 : comp.length = f.nodeCount := by omega
  -- arcs of the new fragment come from arcs of the old one
  have hold : ∀ k x y, FragArc ⟨ids, fo, t', h', b'⟩ k x y → ∃ a u w, FragArc f a u w ∧
      rd s.inv u = some x ∧ rd s.inv w = some y := by
    intro k x y hk
    have hkl := rd_some_lt (v := t') hk.1
    obtain ⟨a, ha, hak⟩ := hq.surj (x := k) (by omega)
    obtain ⟨q1, q2⟩ := r5 a k hak
    obtain ⟨u, hu⟩ := rd_isSome (v := f.tail) (i := a) (by omega)
    obtain ⟨w, hw⟩ := rd_isSome (v := f.head) (i := a) (by omega)
    refine ⟨a, u, w, ⟨hu, hw⟩, ?_, ?_⟩
    · rw [← r1 a u hu, ← q1]; exact hk.1
    · rw [← r2 a w hw, ← q2]; exact hk.2
  have hnew : ∀ a u w x y, FragArc f a u w → rd s.inv u = some x → rd s.inv w = some y →
      Adj ⟨ids, fo, t', h', b'⟩ x y := by
    intro a u w x y hA hx hy
    have hal := rd_some_lt (v := f.tail) hA.1
    obtain ⟨k, hk, _⟩ := hq.rd (i := a) (by omega)
    obtain ⟨q1, q2⟩ := r5 a k hk
    exact ⟨k, (q1.trans ((r1 a u hA.1).trans hx)), (q2.trans ((r2 a w hA.2).trans hy))⟩
  have hconn : ∀ u w, Conn f u w → ∀ x y, rd s.inv u = some x → rd s.inv w = some y →
      Conn ⟨ids, fo, t', h', b'⟩ x y := by
    intro u w huw
    induction huw with
    | refl =>
      intro x y hx hy
      rw [hx] at hy; cases hy
      exact .refl
    | @tail v w _ hvw ih =>
      intro x y hx hy
      obtain ⟨a, ha⟩ := hvw
      have := (fragArc_lt o ha).1
      obtain ⟨z, hz⟩ := rd_isSome (v := s.inv) (i := v) (by omega)
      exact .tail (ih x z hx hz) (hnew a v w z y ha hz hy)
  refine ⟨⟨ids, fo, t', h', b'⟩, comp, ?_, hok, ?_, ?_, hl4, ?_, ?_, ?_, ?_, ?_, ?_⟩
  · unfold renumber
    simp only [e0, e1, e2, e3, e4, e5, Option.bind_eq_bind, Option.bind_some]
  · show ids.length = _
    omega
  · show t'.length = f.tail.length
    omega
  · intro i j c d hij hc hd
    obtain ⟨x, x1, x2, x3⟩ := hback i (by have := rd_some_lt hc; omega)
    obtain ⟨y, y1, y2, y3⟩ := hback j (by have := rd_some_lt hd; omega)
    rw [hcomp x i x2] at hc
    rw [hcomp y j y2] at hd
    exact I.mono i j x y c d hij x1 y1 hc hd
  · intro h0
    obtain ⟨x, x1, x2, x3⟩ := hback 0 h0
    rw [hcomp x 0 x2]
    exact I.first x x1
  · intro k x y hk
    obtain ⟨a, u, w, hA, q1, q2⟩ := hold k x y hk
    rw [hcomp u x q1, hcomp w y q2]
    exact (I.closed u a w ((hmem u).2 (fragArc_lt o hA).1) hA (fun h => h)).symm
  · intro x y c hx hy
    obtain ⟨u, u1, u2, u3⟩ := hback x (by have := rd_some_lt hx; omega)
    obtain ⟨w, w1, w2, w3⟩ := hback y (by have := rd_some_lt hy; omega)
    rw [hcomp u x u2] at hx
    rw [hcomp w y w2] at hy
    exact hconn u w (I.conn u w (List.mem_append_left _ ((hmem u).2 u3))
      (List.mem_append_left _ ((hmem w).2 w3)) (hx.trans hy.symm)) x y u2 w2
  · exact perm_of_rd hinv hil l3 r3
  · have hz : (t1.zip h1).map (fun p => (ids[p.1]?, ids[p.2]?)) = globalArcs f := by
      unfold globalArcs localArcs
      apply list_ext_rd (by simp; omega)
      intro a ha
      simp at ha
      obtain ⟨u, hu⟩ := rd_isSome (v := f.tail) (i := a) (by omega)
      obtain ⟨w, hw⟩ := rd_isSome (v := f.head) (i := a) (by omega)
      obtain ⟨k1, k2⟩ := fragArc_lt o (show FragArc f a u w from ⟨hu, hw⟩)
      obtain ⟨x, hx⟩ := rd_isSome (v := s.inv) (i := u) (by omega)
      obtain ⟨y, hy⟩ := rd_isSome (v := s.inv) (i := w) (by omega)
      rw [rd_map (rd_zip ((r1 a u hu).trans hx) ((r2 a w hw).trans hy)), rd_map (rd_zip hu hw)]
      have g1 := r3 u x hx
      have g2 := r3 w y hy
      unfold rd at g1 g2
      simp only [g1, g2]
    rw [← hz]
    exact p1.map _

end RK
