import Verif.Spec.Fragment
import Verif.Props.GraphUtil
import Verif.Props.Permutation
import Verif.Props.InverseVector
/-! Helper lemmas: making and sorting graph fragments. -/
namespace RK
open Spec

theorem ndSub32_of_le {a b : Nat} (ha : a < u32) (h : b ≤ a) : Nd.sub32 a b = a - b := by
  have hu : u32 = 4294967296 := rfl
  unfold Nd.sub32
  rw [Nat.mod_eq_of_lt (show b < u32 by omega), show a + (u32 - b) = a - b + u32 by omega,
    Nat.add_mod_right, Nat.mod_eq_of_lt (by omega)]

theorem perm_of_rd {α : Type} {v w : List α} {p : List Nat} (hp : IsPerm p) (h1 : p.length = v.length)
    (h2 : w.length = v.length) (h : ∀ i k, rd p i = some k → rd w k = rd v i) : w.Perm v := by
  have e1 : v.map some = p.map (fun a => rd w a) := by
    apply list_ext_rd (by simp; omega)
    intro i hi
    simp at hi
    obtain ⟨a, ha, _⟩ := hp.rd (i := i) (by omega)
    obtain ⟨x, hx⟩ := rd_isSome (v := v) hi
    rw [rd_map ha, rd_map hx, h i a ha, hx]
  have e2 : w.map some = (List.range w.length).map (fun a => rd w a) := by
    apply list_ext_rd (by simp)
    intro i hi
    simp at hi
    rw [rd_map (rd_lt hi), rd_map (v := List.range w.length) (x := i) (List.getElem?_range hi), rd_lt hi]
  have h3 : (w.map some).Perm (v.map some) := by
    rw [e1, e2]
    apply List.Perm.map
    have := isPerm_iff_perm.1 hp
    rw [h2, ← h1]
    exact this.symm
  have := h3.filterMap (fun x => x)
  simpa using this

/-- The arc arrays of a fragment with `n` nodes, in any order. -/
structure ArcsOk (n : Nat) (t h b : List Nat) : Prop where
  hl : h.length = t.length
  bl : b.length = t.length
  tlt : ∀ x ∈ t, x < n
  hlt : ∀ x ∈ h, x < n
  back : ∀ a c x y, rd b a = some c → rd t a = some x → rd h a = some y →
    rd b c = some a ∧ rd t c = some y ∧ rd h c = some x

theorem ArcsOk.back_lt {n : Nat} {t h b : List Nat} (o : ArcsOk n t h b) : ∀ x ∈ b, x < t.length := by
  intro c hc
  obtain ⟨a, ha, e⟩ := List.getElem_of_mem hc
  have e' : rd b a = some c := rd_eq_some.2 ⟨ha, e⟩
  have := o.hl
  have := o.bl
  obtain ⟨x, hx⟩ := rd_isSome (v := t) (i := a) (by omega)
  obtain ⟨y, hy⟩ := rd_isSome (v := h) (i := a) (by omega)
  exact rd_some_lt (o.back a c x y e' hx hy).2.1

theorem fragmentOk_of {n : Nat} {ids fo t h b : List Nat} (o : ArcsOk n t h b) (hs : t.Pairwise (· ≤ ·))
    (hid : ids.length = n) (hfo : invertVector t n = some fo) : FragmentOk ⟨ids, fo, t, h, b⟩ := by
  subst hid
  obtain ⟨fo', e, h1, _, _, hp, h2⟩ := Props.C08_invert_vector t _ hs o.tlt
  rw [hfo] at e; cases e
  have h2' : ∀ x, x < ids.length → ∃ b e, fo[x]? = some b ∧ fo[x + 1]? = some e ∧ b ≤ e ∧
      ∀ a : Nat, t[a]? = some x ↔ b ≤ a ∧ a < e := by
    intro x hx
    obtain ⟨b, e, q1, q2, q3⟩ := h2 x hx
    refine ⟨b, e, q1, q2, ?_, q3⟩
    obtain ⟨l1, r1⟩ := rd_eq_some.1 q1
    obtain ⟨l2, r2⟩ := rd_eq_some.1 q2
    have := (List.pairwise_iff_getElem.1 hp) x (x + 1) l1 l2 (by omega)
    omega
  exact ⟨o.hl, o.bl, o.tlt, o.hlt, hs, h1, h2', fun a b x y hb ha => by
    obtain ⟨q1, q2, q3⟩ := o.back a b x y hb ha.1 ha.2
    exact ⟨q1, q2, q3⟩⟩

theorem fragmentOk_arcs {f : GraphFragment} (o : FragmentOk f) :
    ArcsOk f.nodeCount f.tail f.head f.backArc :=
  ⟨o.head_len, o.back_len, o.tail_lt, o.head_lt, fun a c x y hb ht hh => by
    obtain ⟨q1, q2, q3⟩ := o.back a c x y hb ⟨ht, hh⟩
    exact ⟨q1, q2, q3⟩⟩

theorem rd_zip {α β : Type} {v : List α} {w : List β} {i : Nat} {x : α} {y : β} (h1 : rd v i = some x)
    (h2 : rd w i = some y) : rd (v.zip w) i = some (x, y) := by
  unfold rd at *
  rw [List.getElem?_zip_eq_some]
  exact ⟨h1, h2⟩

/-- What sorting the arcs does: arc `a` gets the number `q[a]`. -/
theorem sortArcs_spec {n : Nat} {t h b : List Nat} (o : ArcsOk n t h b) :
    ∃ t' h' b' fo q, Nd.sortArcs n t h b = some (t', h', b', fo) ∧ IsPerm q ∧ q.length = t.length ∧
      ArcsOk n t' h' b' ∧ t'.Pairwise (· ≤ ·) ∧ invertVector t' n = some fo ∧ t'.length = t.length ∧
      (∀ a k, rd q a = some k → rd t' k = rd t a ∧ rd h' k = rd h a) ∧
      (t'.zip h').Perm (t.zip h) ∧
      (t'.zip h').Pairwise (fun p q => p.1 < q.1 ∨ (p.1 = q.1 ∧ p.2 ≤ q.2)) := by
  have hl := o.hl
  have hbl := o.bl
  obtain ⟨q, t', p, e1, hq, hpq, hlex, htl, ht⟩ :=
    Props.C07_inverse_sort_permutation_and_apply n t h hl.symm o.tlt o.hlt
  have hqp := isPerm_iff_perm.2 hq
  have hql : q.length = t.length := by have := hpq.1; have := hlex.2.1; omega
  obtain ⟨h', e2, hhl, hh⟩ := applyInversePermutation_spec (v := h) hqp (by omega)
  obtain ⟨b1, e3, hb1l, hb1⟩ := applyInversePermutation_spec (v := b) hqp (by omega)
  have hb1lt : ∀ x ∈ b1, x < q.length := by
    intro x hx
    obtain ⟨k, hk, e⟩ := List.getElem_of_mem hx
    have e' : rd b1 k = some x := rd_eq_some.2 ⟨hk, e⟩
    obtain ⟨a, ha, hak⟩ := hqp.surj (x := k) (by omega)
    rw [hb1 a k hak] at e'
    rw [hql]
    exact o.back_lt x (List.mem_of_getElem? e')
  obtain ⟨b', e4, hb'l, hb'⟩ := applyPermutationToElementsOf_spec hqp hb1lt
  have e4' : inplaceApplyPermutationToElementsOf q b1 = some b' := by
    have hall : (b1.all fun x => decide (x < q.length)) = true := by simpa using hb1lt
    have := e4
    unfold applyPermutationToElementsOf at this
    rw [checkPerm_of hqp, hall] at this
    exact this
  have htq : ∀ a k, rd q a = some k → rd t' k = rd t a := by
    intro a k hak
    exact ht k a ((hpq.2 k a).2 hak)
  have hbq : ∀ a k c d, rd q a = some k → rd b a = some c → rd q c = some d → rd b' k = some d := by
    intro a k c d hak hbc hcd
    rw [hb' k c (by rw [hb1 a k hak]; exact hbc), hcd]
  have htl' : h'.length = t'.length := by omega
  have zl : (t'.zip h').length = (t.zip h).length := by simp; omega
  have zq : ∀ a k, rd q a = some k → rd (t'.zip h') k = rd (t.zip h) a := by
    intro a k hak
    have ha := rd_some_lt hak
    obtain ⟨x, hx⟩ := rd_isSome (v := t) (i := a) (by omega)
    obtain ⟨y, hy⟩ := rd_isSome (v := h) (i := a) (by omega)
    rw [rd_zip hx hy, rd_zip ((htq a k hak).trans hx) ((hh a k hak).trans hy)]
  have hperm : (t'.zip h').Perm (t.zip h) := perm_of_rd hqp (by simp; omega) zl zq
  have ho : ArcsOk n t' h' b' := by
    refine ⟨htl', by omega, ?_, ?_, ?_⟩
    · intro x hx
      obtain ⟨k, hk, e⟩ := List.getElem_of_mem hx
      obtain ⟨a, ha, hak⟩ := hqp.surj (x := k) (by omega)
      have := htq a k hak
      rw [rd_lt hk, e] at this
      exact o.tlt x (List.mem_of_getElem? this.symm)
    · intro x hx
      obtain ⟨k, hk, e⟩ := List.getElem_of_mem hx
      obtain ⟨a, ha, hak⟩ := hqp.surj (x := k) (by omega)
      have := hh a k hak
      rw [rd_lt hk, e] at this
      exact o.hlt x (List.mem_of_getElem? this.symm)
    · intro k d x y hb hx hy
      obtain ⟨a, ha, hak⟩ := hqp.surj (x := k) (by have := rd_some_lt hx; omega)
      rw [htq a k hak] at hx
      rw [hh a k hak] at hy
      obtain ⟨c, hc⟩ := rd_isSome (v := b) (i := a) (by omega)
      obtain ⟨q1, q2, q3⟩ := o.back a c x y hc hx hy
      obtain ⟨d', hd', _⟩ := hqp.rd (i := c) (by have := rd_some_lt q2; omega)
      have := hbq a k c d' hak hc hd'
      rw [hb] at this; cases this
      exact ⟨hbq c d a k hd' q1 hak, (htq c d hd').trans q2, (hh c d hd').trans q3⟩
  have hsorted : (t'.zip h').Pairwise (fun p q => p.1 < q.1 ∨ (p.1 = q.1 ∧ p.2 ≤ q.2)) := by
    rw [List.pairwise_iff_getElem]
    intro i j hi hj hij
    have hi' : i < t'.length := by simp at hi; omega
    have hj' : j < t'.length := by simp at hj; omega
    have hpl := hlex.2.1
    have hpp := isPerm_iff_perm.2 hlex.1
    obtain ⟨a, ha, _⟩ := hpp.rd (i := i) (by omega)
    obtain ⟨c, hc, _⟩ := hpp.rd (i := j) (by omega)
    have hqa : rd q a = some i := (hpq.2 i a).1 ha
    have hqc : rd q c = some j := (hpq.2 j c).1 hc
    have a1 := htq a i hqa
    have a2 := hh a i hqa
    have c1 := htq c j hqc
    have c2 := hh c j hqc
    rw [rd_lt (by omega)] at a1 a2 c1 c2
    have := hlex.2.2 i j a c _ _ _ _ hij ha hc a1.symm c1.symm a2.symm c2.symm
    simp only [List.getElem_zip]
    omega
  have hts : t'.Pairwise (· ≤ ·) := by
    rw [List.pairwise_iff_getElem] at hsorted ⊢
    intro i j hi hj hij
    have := hsorted i j (by simp; omega) (by simp; omega) hij
    simp only [List.getElem_zip] at this
    omega
  obtain ⟨fo, e5, _⟩ := Props.C08_invert_vector t' n hts ho.tlt
  refine ⟨t', h', b', fo, q, ?_, hqp, hql, ho, hts, e5, htl,
    fun a k hak => ⟨htq a k hak, hh a k hak⟩, hperm, hsorted⟩
  unfold Nd.sortArcs
  simp only [e1, e2, e3, e4', e5, Option.bind_eq_bind, Option.bind_some]

/-! ### make_graph_fragment -/

/-- The arcs that are no loops. -/
def nonLoops (tail head : List Nat) : List (Nat × Nat) := (tail.zip head).filter fun p => p.1 != p.2

theorem take_zip_succ {α β : Type} {v : List α} {w : List β} {i : Nat} {x : α} {y : β} (h1 : rd v i = some x)
    (h2 : rd w i = some y) : (v.zip w).take (i + 1) = (v.zip w).take i ++ [(x, y)] := by
  have := rd_zip h1 h2
  rw [List.take_add_one, show (v.zip w)[i]? = some (x, y) from this]
  rfl

theorem countNonLoops_spec {tail head : List Nat} (hl : tail.length = head.length) :
    Nd.countNonLoops tail head = some (nonLoops tail head).length := by
  obtain ⟨r, e, h⟩ := forRange_inv (lo := 0) (hi := head.length) (s := 0)
    (f := fun k i => (rd tail i).bind fun x => (rd head i).bind fun y => some (if x ≠ y then k + 1 else k))
    (fun i k => k = (((tail.zip head).take i).filter fun p => p.1 != p.2).length) (Nat.zero_le _) (by simp)
    (by
      rintro i k _ hi rfl
      obtain ⟨x, hx⟩ := rd_isSome (v := tail) (i := i) (by omega)
      obtain ⟨y, hy⟩ := rd_isSome (v := head) (i := i) hi
      refine ⟨_, by rw [hx, hy]; rfl, ?_⟩
      rw [take_zip_succ hx hy, List.filter_append]
      by_cases hxy : x = y <;> simp [hxy])
  unfold Nd.countNonLoops nonLoops
  refine e.trans ?_
  rw [h, List.take_of_length_le (by simp; omega)]

theorem mul32_two {m : Nat} (h : 2 * m < u32) : mul32 2 m = 2 * m := Nat.mod_eq_of_lt h
theorem add32_lt {a b : Nat} (h : a + b < u32) : add32 a b = a + b := Nat.mod_eq_of_lt h

/-- State of the arrays after the arcs `L` have been added. -/
structure Filled (m : Nat) (L : List (Nat × Nat)) (t h b : List Nat) : Prop where
  tl : t.length = 2 * m
  hl : h.length = 2 * m
  bl : b.length = 2 * m
  lo : ∀ j x y, rd L j = some (x, y) → rd t j = some x ∧ rd h j = some y ∧ rd b j = some (j + m) ∧
    rd t (j + m) = some y ∧ rd h (j + m) = some x ∧ rd b (j + m) = some j

theorem fillArcs_spec {tail head : List Nat} (hl : tail.length = head.length)
    (hm : 2 * (nonLoops tail head).length < u32) :
    ∃ t h b, forRange 0 head.length (0, List.replicate (2 * (nonLoops tail head).length) 0,
        List.replicate (2 * (nonLoops tail head).length) 0, List.replicate (2 * (nonLoops tail head).length) 0)
        (Nd.fillArc tail head (nonLoops tail head).length) = some ((nonLoops tail head).length, t, h, b) ∧
      Filled (nonLoops tail head).length (nonLoops tail head) t h b := by
  generalize hM : (nonLoops tail head).length = m at hm ⊢
  obtain ⟨⟨j, t, h, b⟩, e, h1, h2⟩ := forRange_inv (lo := 0) (hi := head.length)
    (s := (0, List.replicate (2 * m) 0, List.replicate (2 * m) 0, List.replicate (2 * m) 0))
    (f := Nd.fillArc tail head m)
    (fun i s => s.1 = (((tail.zip head).take i).filter fun p => p.1 != p.2).length ∧
      Filled m (((tail.zip head).take i).filter fun p => p.1 != p.2) s.2.1 s.2.2.1 s.2.2.2) (Nat.zero_le _)
    ⟨by simp, by simp, by simp, by simp, by intro j x y h; simp [rd] at h⟩
    (by
      rintro i ⟨j, t, h, b⟩ _ hi ⟨hj, hF⟩
      obtain ⟨x, hx⟩ := rd_isSome (v := tail) (i := i) (by omega)
      obtain ⟨y, hy⟩ := rd_isSome (v := head) (i := i) hi
      have htk := take_zip_succ hx hy
      simp only at hj hF
      have hle : (((tail.zip head).take (i + 1)).filter fun p => p.1 != p.2).length ≤ m := by
        rw [← hM]
        exact ((List.take_sublist _ _).filter _).length_le
      rw [htk, List.filter_append] at hle ⊢
      unfold Nd.fillArc
      simp only [hx, hy, Option.bind_eq_bind, Option.bind_some]
      by_cases hxy : x = y
      · rw [if_neg (by simpa using hxy)]
        exact ⟨_, rfl, by simp [hxy, hj], by simpa [hxy] using hF⟩
      · rw [if_pos hxy]
        have hf : List.filter (fun p : Nat × Nat => p.1 != p.2) [(x, y)] = [(x, y)] := by simp [hxy]
        rw [hf] at hle ⊢
        simp only [List.length_append, List.length_singleton] at hle
        have l1 := hF.tl
        have l2 := hF.hl
        have l3 := hF.bl
        have ea : add32 j m = j + m := add32_lt (by omega)
        rw [ea, wr_lt (by omega), Option.bind_some, wr_lt (by simp; omega), Option.bind_some, wr_lt (by omega),
          Option.bind_some, wr_lt (by simp; omega), Option.bind_some, wr_lt (by omega), Option.bind_some,
          wr_lt (by simp; omega), Option.bind_some]
        refine ⟨_, rfl, by simp [hj], ?_⟩
        have hr : ∀ (v : List Nat) (u w k : Nat), v.length = 2 * m →
            rd ((v.set j u).set (j + m) w) k =
              if k = j + m then some w else if k = j then some u else rd v k := by
          intro v u w k hv
          rw [rd_set (by simp; omega), rd_set (by omega)]
        refine ⟨by simpa using l1, by simpa using l2, by simpa using l3, ?_⟩
        intro k u w hk
        simp only
        rw [hr _ _ _ _ l1, hr _ _ _ _ l2, hr _ _ _ _ l3, hr _ _ _ _ l1, hr _ _ _ _ l2, hr _ _ _ _ l3]
        by_cases hkj : k < j
        · have : rd (((tail.zip head).take i).filter fun p => p.1 != p.2) k = some (u, w) := by
            unfold rd at hk ⊢
            rw [List.getElem?_append_left (by omega)] at hk
            exact hk
          obtain ⟨q1, q2, q3, q4, q5, q6⟩ := hF.lo k u w this
          rw [if_neg (by omega), if_neg (by omega), if_neg (by omega), if_neg (by omega), if_neg (by omega),
            if_neg (by omega), if_neg (by omega), if_neg (by omega), if_neg (by omega), if_neg (by omega),
            if_neg (by omega), if_neg (by omega)]
          exact ⟨q1, q2, q3, q4, q5, q6⟩
        · have hkl := rd_some_lt hk
          simp only [List.length_append, List.length_singleton] at hkl
          have hkj : k = j := by omega
          subst hkj
          have : (u, w) = (x, y) := by
            unfold rd at hk
            rw [List.getElem?_append_right (by omega), ← hj, Nat.sub_self] at hk
            simpa [eq_comm] using hk
          cases this
          have hm0 : m ≠ 0 := by omega
          simp [hm0])
  rw [List.take_of_length_le (by simp; omega)] at h1 h2
  refine ⟨t, h, b, ?_, h2⟩
  rw [e]
  simp only at h1
  rw [h1, show (List.filter (fun p : Nat × Nat => p.1 != p.2) (tail.zip head)).length = m from hM]

theorem Filled.zip {m : Nat} {L : List (Nat × Nat)} {t h b : List Nat} (F : Filled m L t h b)
    (hL : L.length = m) : t.zip h = L ++ L.map Prod.swap := by
  have l1 := F.tl
  have l2 := F.hl
  apply list_ext_rd (by simp; omega)
  intro i hi
  have hi : i < 2 * m := by simp at hi; omega
  by_cases him : i < m
  · obtain ⟨⟨x, y⟩, hxy⟩ := rd_isSome (v := L) (i := i) (by omega)
    obtain ⟨q1, q2, _⟩ := F.lo i x y hxy
    rw [rd_zip q1 q2]
    unfold rd at hxy ⊢
    rw [List.getElem?_append_left (by omega), hxy]
  · obtain ⟨⟨x, y⟩, hxy⟩ := rd_isSome (v := L) (i := i - m) (by omega)
    obtain ⟨_, _, _, q4, q5, _⟩ := F.lo (i - m) x y hxy
    rw [show i - m + m = i by omega] at q4 q5
    rw [rd_zip q4 q5]
    unfold rd at hxy ⊢
    rw [List.getElem?_append_right (by omega), hL, List.getElem?_map, hxy]
    rfl

theorem Filled.arcsOk {m n : Nat} {L : List (Nat × Nat)} {t h b : List Nat} (F : Filled m L t h b)
    (hL : L.length = m) (hn : ∀ p ∈ L, p.1 < n ∧ p.2 < n) : ArcsOk n t h b := by
  have l1 := F.tl
  have l2 := F.hl
  have l3 := F.bl
  have hz := F.zip hL
  have hmem : ∀ i x y, rd t i = some x → rd h i = some y → x < n ∧ y < n := by
    intro i x y hx hy
    have := List.mem_of_getElem? (rd_zip hx hy)
    rw [hz, List.mem_append] at this
    rcases this with h | h
    · exact hn _ h
    · obtain ⟨p, hp, e⟩ := List.mem_map.1 h
      have := hn _ hp
      cases p
      simp only [Prod.swap, Prod.mk.injEq] at e
      omega
  refine ⟨by omega, by omega, ?_, ?_, ?_⟩
  · intro x hx
    obtain ⟨i, hi, e⟩ := List.getElem_of_mem hx
    obtain ⟨y, hy⟩ := rd_isSome (v := h) (i := i) (by omega)
    exact (hmem i x y (rd_eq_some.2 ⟨hi, e⟩) hy).1
  · intro y hy
    obtain ⟨i, hi, e⟩ := List.getElem_of_mem hy
    obtain ⟨x, hx⟩ := rd_isSome (v := t) (i := i) (by omega)
    exact (hmem i x y hx (rd_eq_some.2 ⟨hi, e⟩)).2
  · intro a c x y hb hx hy
    have ha := rd_some_lt hx
    by_cases him : a < m
    · obtain ⟨⟨u, w⟩, hxy⟩ := rd_isSome (v := L) (i := a) (by omega)
      obtain ⟨q1, q2, q3, q4, q5, q6⟩ := F.lo a u w hxy
      rw [q1] at hx; rw [q2] at hy; rw [q3] at hb
      cases hx; cases hy; cases hb
      exact ⟨q6, q4, q5⟩
    · obtain ⟨⟨u, w⟩, hxy⟩ := rd_isSome (v := L) (i := a - m) (by omega)
      obtain ⟨q1, q2, q3, q4, q5, q6⟩ := F.lo (a - m) u w hxy
      rw [show a - m + m = a by omega] at q3 q4 q5 q6
      rw [q4] at hx; rw [q5] at hy; rw [q6] at hb
      cases hx; cases hy; cases hb
      exact ⟨q3, q1, q2⟩

theorem makeGraphFragment_spec {n : Nat} {tail head : List Nat} (hl : tail.length = head.length)
    (ht : ∀ x ∈ tail, x < n) (hh : ∀ x ∈ head, x < n) (hm : 2 * (nonLoops tail head).length < u32) :
    ∃ f, Nd.makeGraphFragment n tail head = some f ∧ FragmentOk f ∧ f.globalNodeId = List.range n ∧
      (localArcs f).Perm (nonLoops tail head ++ (nonLoops tail head).map Prod.swap) ∧
      (localArcs f).Pairwise (fun p q => p.1 < q.1 ∨ (p.1 = q.1 ∧ p.2 ≤ q.2)) := by
  obtain ⟨t, h, b, e1, F⟩ := fillArcs_spec hl hm
  have o := F.arcsOk (n := n) rfl (by
    intro p hp
    have := List.mem_filter.1 hp
    have := List.of_mem_zip (show (p.1, p.2) ∈ tail.zip head from this.1)
    exact ⟨ht _ this.1, hh _ this.2⟩)
  obtain ⟨t', h', b', fo, q, e2, _, _, o', hs, e3, _, _, h1, h2⟩ := sortArcs_spec o
  have hid : identityPermutation n = some (List.range n) := identityPermutation_eq n
  refine ⟨⟨List.range n, fo, t', h', b'⟩, ?_, fragmentOk_of o' hs (by simp) e3, rfl, ?_, h2⟩
  · unfold Nd.makeGraphFragment
    simp only [countNonLoops_spec hl, mul32_two hm, e1, e2, hid, Option.bind_eq_bind, Option.bind_some]
  · rw [F.zip rfl] at h1
    exact h1

/-! ### derive_separator_from_cut -/

theorem count_true_add_false (v : List Bool) : v.count true + v.count false = v.length := by
  induction v with
  | nil => rfl
  | cons b v ih => cases b <;> simp <;> omega

theorem deriveSeparator_spec {f : GraphFragment} (o : FragmentOk f) {cut : List Bool}
    (hc : cut.length = f.nodeCount) :
    ∃ sep small, Nd.deriveSeparatorFromCut f cut = some sep ∧ sep.length = f.nodeCount ∧
      cut.count small ≤ cut.count (!small) ∧
      (∀ y, rd sep y = some true ↔ ∃ a x, rd f.tail a = some x ∧ rd f.head a = some y ∧
        rd cut x = some small ∧ rd cut y = some (!small)) := by
  have key : ∀ small : Bool, ∃ sep, forRange 0 f.arcCount (List.replicate f.nodeCount false)
      (Nd.sepArc f cut small) = some sep ∧ sep.length = f.nodeCount ∧
      (∀ y, rd sep y = some true ↔ ∃ a x, rd f.tail a = some x ∧ rd f.head a = some y ∧
        rd cut x = some small ∧ rd cut y = some (!small)) := by
    intro small
    obtain ⟨sep, e, h1, h2⟩ := forRange_inv (lo := 0) (hi := f.arcCount)
      (s := List.replicate f.nodeCount false) (f := Nd.sepArc f cut small)
      (fun k sep => sep.length = f.nodeCount ∧
        (∀ y, rd sep y = some true ↔ ∃ a x, a < k ∧ rd f.tail a = some x ∧ rd f.head a = some y ∧
          rd cut x = some small ∧ rd cut y = some (!small))) (Nat.zero_le _)
      ⟨by simp, by
        intro y
        constructor
        · intro h
          have := rd_some_lt h
          rw [List.length_replicate] at this
          rw [rd_replicate this] at h
          simp at h
        · rintro ⟨a, x, h, _⟩
          omega⟩
      (by
        rintro k sep _ hk ⟨h1, h2⟩
        have hk' : k < f.tail.length := hk
        obtain ⟨x, hx⟩ := rd_isSome (v := f.tail) (i := k) hk'
        obtain ⟨y, hy⟩ := rd_isSome (v := f.head) (i := k) (by have := o.head_len; omega)
        have hxl : x < f.nodeCount := o.tail_lt x (List.mem_of_getElem? hx)
        have hyl : y < f.nodeCount := o.head_lt y (List.mem_of_getElem? hy)
        obtain ⟨cx, hcx⟩ := rd_isSome (v := cut) (i := x) (by omega)
        obtain ⟨cy, hcy⟩ := rd_isSome (v := cut) (i := y) (by omega)
        have step : ∀ z, (∃ a u, a < k + 1 ∧ rd f.tail a = some u ∧ rd f.head a = some z ∧
            rd cut u = some small ∧ rd cut z = some (!small)) ↔
            (rd sep z = some true ∨ (z = y ∧ cx = small ∧ cy = !small)) := by
          intro z
          rw [h2]
          constructor
          · rintro ⟨a, u, ha, q1, q2, q3, q4⟩
            by_cases hak : a = k
            · subst hak
              rw [hx] at q1; rw [hy] at q2
              cases q1; cases q2
              rw [hcx] at q3; rw [hcy] at q4
              cases q3; cases q4
              exact Or.inr ⟨rfl, rfl, rfl⟩
            · exact Or.inl ⟨a, u, by omega, q1, q2, q3, q4⟩
          · rintro (⟨a, u, ha, q⟩ | ⟨rfl, rfl, rfl⟩)
            · exact ⟨a, u, by omega, q⟩
            · exact ⟨k, x, by omega, hx, hy, hcx, hcy⟩
        unfold Nd.sepArc
        simp only [hx, hy, hcx, Option.bind_eq_bind, Option.bind_some]
        by_cases h3 : cx = small
        · rw [if_pos h3, hcy, Option.bind_some]
          by_cases h4 : cy ≠ small
          · rw [if_pos h4, wr_lt (by omega)]
            refine ⟨_, rfl, by simpa using h1, ?_⟩
            intro z
            rw [step, rd_set (by omega)]
            have : cy = !small := by cases cy <;> cases small <;> simp_all
            by_cases hzy : z = y
            · simp [hzy, h3, this]
            · simp [hzy]
          · rw [if_neg h4]
            refine ⟨_, rfl, h1, ?_⟩
            intro z
            rw [step]
            have : cy = small := by simpa using h4
            simp [this]
        · rw [if_neg h3]
          refine ⟨_, rfl, h1, ?_⟩
          intro z
          rw [step]
          simp [h3])
    refine ⟨sep, e, h1, ?_⟩
    intro y
    rw [h2]
    constructor
    · rintro ⟨a, x, _, q⟩; exact ⟨a, x, q⟩
    · rintro ⟨a, x, q1, q⟩; exact ⟨a, x, rd_some_lt q1, q1, q⟩
  have hcnt := count_true_add_false cut
  have hc0 : cut.countP id = cut.count true := by
    rw [List.count]
    apply List.countP_congr
    intro b _
    cases b <;> simp
  unfold Nd.deriveSeparatorFromCut
  obtain ⟨sep, e, h1, h2⟩ := key (decide (cut.countP id ≤ f.nodeCount / 2))
  refine ⟨sep, _, e, h1, ?_, h2⟩
  rw [hc0]
  by_cases h : cut.count true ≤ f.nodeCount / 2
  · rw [decide_eq_true h]
    simp only [Bool.not_true]
    omega
  · rw [decide_eq_false h]
    simp only [Bool.not_false]
    omega

end RK
