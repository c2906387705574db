import Verif.Model.Flow
import Verif.Proof.Components
import Verif.Proof.BitVector
/-! # The breadth first search of a blocking flow (nested_dissection.cpp:107-157) -/
namespace RK
open Spec Nd BitVector

theorem rd_at {B : List Bool} {x : Nat} (h : x < B.length) : rd B x = some (at' B x) := by
  rw [rd_lt h, at_lt h]

theorem wr_at {B : List Bool} {x : Nat} {b : Bool} (h : x < B.length) : wr B x b = some (B.set x b) := wr_lt h

theorem pushBack_lt {cap : Nat} {q : List Nat} {x : Nat} (h : q.length < cap) :
    pushBack cap q x = some (q ++ [x]) := if_pos h

theorem rd_snoc_iff {α : Type} {Q : List α} {y z : α} {p : Nat} :
    rd (Q ++ [y]) p = some z ↔ rd Q p = some z ∨ (p = Q.length ∧ z = y) := by
  unfold rd
  rcases Nat.lt_trichotomy p Q.length with h | h | h
  · rw [List.getElem?_append_left h]
    constructor
    · exact Or.inl
    · rintro (h1 | ⟨h1, _⟩)
      · exact h1
      · omega
  · subst h
    simp
    constructor
    · intro h; exact h.symm
    · intro h; exact h.symm
  · rw [List.getElem?_append_right (by omega), List.getElem?_eq_none (by simp; omega)]
    constructor
    · intro h; cases h
    · rintro (h1 | ⟨h1, _⟩)
      · have := rd_some_lt (v := Q) h1; omega
      · omega

theorem rd_nodup_inj {Q : List Nat} (h : Q.Nodup) {p q x : Nat} (h1 : rd Q p = some x) (h2 : rd Q q = some x) :
    p = q := by
  obtain ⟨l1, r1⟩ := rd_eq_some.1 h1
  obtain ⟨l2, r2⟩ := rd_eq_some.1 h2
  exact (List.Nodup.getElem_inj_iff h).1 (r1.trans r2.symm)

theorem fragArc_inj {f : GraphFragment} {a x y x' y' : Nat} (h : FragArc f a x y) (h' : FragArc f a x' y') :
    x = x' ∧ y = y' := by
  have h1 := h.1.symm.trans h'.1
  have h2 := h.2.symm.trans h'.2
  exact ⟨by injection h1, by injection h2⟩

/-- Sources and targets are marked by one bit for each node, and no node is both. -/
structure Ends (f : GraphFragment) (src tgt : List Bool) : Prop where
  sl : src.length = f.nodeCount
  tl : tgt.length = f.nodeCount
  disj : ∀ x, at' src x = true → at' tgt x = false

/-- The state of the search: `k` sources, `L` nodes on the levels up to the current one, `P` are the arcs
that were processed. -/
structure BfsInv (f : GraphFragment) (src tgt sat : List Bool) (k L : Nat) (P : Nat → Prop) (s : BfsState) : Prop where
  sml : s.same.length = f.nodeCount
  pl : s.pushed.length = f.nodeCount
  bl : s.blocked.length = f.arcCount
  nd : s.queue.Nodup
  lt : ∀ x ∈ s.queue, x < f.nodeCount
  nt : ∀ x ∈ s.queue, at' tgt x = false
  kl : k ≤ s.queue.length
  ll : L ≤ s.queue.length
  pt : ∀ a x, P a → rd f.tail a = some x → x ∈ s.queue
  src1 : ∀ x, at' src x = true → ∃ p, p < k ∧ rd s.queue p = some x
  src2 : ∀ p x, p < k → rd s.queue p = some x → at' src x = true
  psh : ∀ y, at' s.pushed y = true ↔ ∃ p, k ≤ p ∧ rd s.queue p = some y
  sm : ∀ y, at' s.same y = true ↔ ∃ p, p < L ∧ rd s.queue p = some y
  np : ∀ a, ¬ P a → at' s.blocked a = false
  pr : ∀ a x y p, P a → FragArc f a x y → rd s.queue p = some x →
    (at' s.blocked a = true ∧ (at' sat a = true ∨ y ∈ s.queue)) ∨
    (at' s.blocked a = false ∧ at' sat a = false ∧ (at' tgt y = true ∨ ∃ q, p < q ∧ rd s.queue q = some y))
  par : ∀ p y, k ≤ p → rd s.queue p = some y → ∃ a x, P a ∧ FragArc f a x y ∧ x ∈ s.queue ∧ at' s.blocked a = false
  rch : s.reach = true ↔ ∃ a x y, P a ∧ FragArc f a x y ∧ x ∈ s.queue ∧ at' s.blocked a = false ∧ at' tgt y = true

/-- Blocking an arc. -/
theorem bfs_block {f : GraphFragment} {src tgt sat : List Bool} {k L : Nat} {P : Nat → Prop} {s : BfsState}
    (I : BfsInv f src tgt sat k L P s) {xy x y : Nat} (ha : FragArc f xy x y) (hxy : xy < f.arcCount) (hP : ¬ P xy)
    (hxq : x ∈ s.queue) (hr : at' sat xy = true ∨ y ∈ s.queue) :
    BfsInv f src tgt sat k L (fun a => P a ∨ a = xy) { s with blocked := s.blocked.set xy true } := by
  have hbl := I.bl
  have hset : ∀ a, at' (s.blocked.set xy true) a = if a = xy then true else at' s.blocked a := fun a => at_set (by omega)
  have hold : ∀ a, P a → at' (s.blocked.set xy true) a = at' s.blocked a := by
    intro a h
    rw [hset, if_neg]
    rintro rfl
    exact hP h
  refine { I with bl := by simpa using I.bl, pt := ?_, np := ?_, pr := ?_, par := ?_, rch := ?_ }
  · intro a u h hu
    rcases h with h | rfl
    · exact I.pt a u h hu
    · have := ha.1.symm.trans hu
      cases this
      exact hxq
  · intro a h
    simp only
    rw [hset, if_neg (fun h' => h (Or.inr h'))]
    exact I.np a fun h' => h (Or.inl h')
  · intro a u w p h hA hp
    simp only
    rcases h with h | rfl
    · rw [hold a h]; exact I.pr a u w p h hA hp
    · left
      rw [hset, if_pos rfl]
      obtain ⟨_, rfl⟩ := fragArc_inj ha hA
      exact ⟨rfl, hr⟩
  · intro p w hk hp
    obtain ⟨a, u, h1, h2, h3, h4⟩ := I.par p w hk hp
    exact ⟨a, u, Or.inl h1, h2, h3, by simp only; rw [hold a h1]; exact h4⟩
  · simp only
    rw [I.rch]
    constructor
    · rintro ⟨a, u, w, h1, h2, h3, h4, h5⟩
      exact ⟨a, u, w, Or.inl h1, h2, h3, by rw [hold a h1]; exact h4, h5⟩
    · rintro ⟨a, u, w, h1 | rfl, h2, h3, h4, h5⟩
      · exact ⟨a, u, w, h1, h2, h3, by rw [hold a h1] at h4; exact h4, h5⟩
      · rw [hset, if_pos rfl] at h4; cases h4

theorem bfsArc_spec {f : GraphFragment} {src tgt sat : List Bool} (o : FragmentOk f) (E : Ends f src tgt)
    (hsl : sat.length = f.arcCount) {k L : Nat} {P : Nat → Prop} {s : BfsState}
    (I : BfsInv f src tgt sat k L P s) (hkL : k ≤ L) {xy x y i : Nat} (ha : FragArc f xy x y) (hP : ¬ P xy)
    (hx : rd s.queue i = some x) (hiL : i < L) :
    ∃ s', bfsArc f tgt sat s xy = some s' ∧ BfsInv f src tgt sat k L (fun a => P a ∨ a = xy) s' ∧
      ∃ t, s'.queue = s.queue ++ t := by
  have hac : f.arcCount = f.tail.length := rfl
  have hxyl : xy < f.arcCount := rd_some_lt (v := f.tail) ha.1
  obtain ⟨hxl, hyl⟩ := fragArc_lt o ha
  have hyr : rd f.head xy = some y := ha.2
  have hbl := I.bl
  have hsm := I.sml
  have hpl := I.pl
  have htl := E.tl
  unfold bfsArc
  rw [rd_at (show xy < sat.length by omega)]
  simp only [Option.bind_eq_bind, Option.bind_some]
  cases hsat : at' sat xy with
  | true =>
    simp only [if_true]
    rw [wr_at (show xy < s.blocked.length by omega), Option.bind_some]
    exact ⟨_, rfl, bfs_block I ha hxyl hP (List.mem_of_getElem? hx) (Or.inl hsat), [], by simp⟩
  | false =>
    simp only [Bool.false_eq_true, if_false, hyr, Option.bind_some]
    rw [rd_at (show y < s.same.length by omega), Option.bind_some]
    cases hsame : at' s.same y with
    | true =>
      simp only [if_true]
      rw [wr_at (show xy < s.blocked.length by omega), Option.bind_some]
      obtain ⟨p, _, hp⟩ := (I.sm y).1 hsame
      exact ⟨_, rfl, bfs_block I ha hxyl hP (List.mem_of_getElem? hx) (Or.inr (List.mem_of_getElem? hp)), [], by simp⟩
    | false =>
      simp only [Bool.false_eq_true, if_false]
      rw [rd_at (show y < tgt.length by omega), Option.bind_some]
      have hub : at' s.blocked xy = false := I.np xy hP
      have hpos : ∀ q, rd s.queue q = some y → i < q := by
        intro q hq
        by_contra hlt
        have := (I.sm y).2 ⟨q, by omega, hq⟩
        rw [hsame] at this; cases this
      have hposx : ∀ p, rd s.queue p = some x → p = i := fun p hp => rd_nodup_inj I.nd hp hx
      have hpt' : ∀ a u, (P a ∨ a = xy) → rd f.tail a = some u → u ∈ s.queue := by
        intro a u h hu
        rcases h with h | rfl
        · exact I.pt a u h hu
        · have := ha.1.symm.trans hu
          cases this
          exact List.mem_of_getElem? hx
      cases htgt : at' tgt y with
      | true =>
        simp only [if_true]
        refine ⟨_, rfl, { I with pt := hpt', np := ?_, pr := ?_, par := ?_, rch := ?_ }, [], by simp⟩
        · intro a h
          exact I.np a fun h' => h (Or.inl h')
        · intro a u w p h hA hp
          rcases h with h | rfl
          · exact I.pr a u w p h hA hp
          · right
            obtain ⟨_, rfl⟩ := fragArc_inj ha hA
            exact ⟨hub, hsat, Or.inl htgt⟩
        · intro p w hk hp
          obtain ⟨a, u, h1, h2⟩ := I.par p w hk hp
          exact ⟨a, u, Or.inl h1, h2⟩
        · simp only [true_iff]
          exact ⟨xy, x, y, Or.inr rfl, ha, List.mem_of_getElem? hx, hub, htgt⟩
      | false =>
        simp only [Bool.false_eq_true, if_false]
        rw [rd_at (show y < s.pushed.length by omega), Option.bind_some]
        cases hpush : at' s.pushed y with
        | true =>
          simp only [Bool.not_true, Bool.false_eq_true, if_false]
          obtain ⟨q, _, hq⟩ := (I.psh y).1 hpush
          refine ⟨_, rfl, { I with pt := hpt', np := ?_, pr := ?_, par := ?_, rch := ?_ }, [], by simp⟩
          · intro a h
            exact I.np a fun h' => h (Or.inl h')
          · intro a u w p h hA hp
            rcases h with h | rfl
            · exact I.pr a u w p h hA hp
            · right
              obtain ⟨rfl, rfl⟩ := fragArc_inj ha hA
              rw [hposx p hp]
              exact ⟨hub, hsat, Or.inr ⟨q, hpos q hq, hq⟩⟩
          · intro p w hk hp
            obtain ⟨a, u, h1, h2⟩ := I.par p w hk hp
            exact ⟨a, u, Or.inl h1, h2⟩
          · rw [I.rch]
            constructor
            · rintro ⟨a, u, w, h1, h2⟩
              exact ⟨a, u, w, Or.inl h1, h2⟩
            · rintro ⟨a, u, w, h1 | rfl, h2, h3, h4, h5⟩
              · exact ⟨a, u, w, h1, h2, h3, h4, h5⟩
              · obtain ⟨rfl, rfl⟩ := fragArc_inj ha h2
                rw [htgt] at h5; cases h5
        | false =>
          simp only [Bool.not_false, if_true]
          have hyq : y ∉ s.queue := by
            intro h
            obtain ⟨p, hp⟩ := List.getElem?_of_mem h
            by_cases hpL : p < L
            · have := (I.sm y).2 ⟨p, hpL, hp⟩
              rw [hsame] at this; cases this
            · have := (I.psh y).2 ⟨p, by omega, hp⟩
              rw [hpush] at this; cases this
          have hlen : (y :: s.queue).length ≤ f.nodeCount :=
            nodup_bounded_length (List.nodup_cons.2 ⟨hyq, I.nd⟩) (by
              intro z hz
              rcases List.mem_cons.1 hz with rfl | hz
              · exact hyl
              · exact I.lt z hz)
          simp only [List.length_cons] at hlen
          rw [pushBack_lt (by omega), Option.bind_some, wr_at (show y < s.pushed.length by omega), Option.bind_some]
          have hmem : ∀ z, z ∈ s.queue ++ [y] ↔ z ∈ s.queue ∨ z = y := by simp
          have hkl := I.kl
          have hil := rd_some_lt hx
          refine ⟨_, rfl, ?_, [y], rfl⟩
          refine ⟨hsm, by simpa using hpl, hbl, ?_, ?_, ?_, ?_, ?_, ?_, ?_, ?_, ?_, ?_, ?_, ?_, ?_, ?_⟩
          · simp only
            exact (List.perm_append_singleton y s.queue).nodup_iff.2 (List.nodup_cons.2 ⟨hyq, I.nd⟩)
          · intro z hz
            rcases (hmem z).1 hz with hz | rfl
            · exact I.lt z hz
            · exact hyl
          · intro z hz
            rcases (hmem z).1 hz with hz | rfl
            · exact I.nt z hz
            · exact htgt
          · simp; omega
          · have := I.ll; simp; omega
          · intro a u h hu
            rcases h with h | rfl
            · exact (hmem u).2 (Or.inl (I.pt a u h hu))
            · have := ha.1.symm.trans hu
              cases this
              exact (hmem _).2 (Or.inl (List.mem_of_getElem? hx))
          · intro z hz
            obtain ⟨p, h1, h2⟩ := I.src1 z hz
            exact ⟨p, h1, rd_snoc_iff.2 (Or.inl h2)⟩
          · intro p z hp hz
            rcases rd_snoc_iff.1 hz with hz | ⟨hz, _⟩
            · exact I.src2 p z hp hz
            · omega
          · intro z
            simp only
            rw [at_set (by omega)]
            constructor
            · intro h
              by_cases hzy : z = y
              · subst hzy
                exact ⟨s.queue.length, by omega, rd_snoc_iff.2 (Or.inr ⟨rfl, rfl⟩)⟩
              · rw [if_neg hzy] at h
                obtain ⟨p, h1, h2⟩ := (I.psh z).1 h
                exact ⟨p, h1, rd_snoc_iff.2 (Or.inl h2)⟩
            · rintro ⟨p, h1, h2⟩
              rcases rd_snoc_iff.1 h2 with h2 | ⟨_, h2⟩
              · by_cases hzy : z = y
                · rw [if_pos hzy]
                · rw [if_neg hzy]; exact (I.psh z).2 ⟨p, h1, h2⟩
              · rw [if_pos h2]
          · intro z
            simp only
            rw [I.sm z]
            constructor
            · rintro ⟨p, h1, h2⟩
              exact ⟨p, h1, rd_snoc_iff.2 (Or.inl h2)⟩
            · rintro ⟨p, h1, h2⟩
              rcases rd_snoc_iff.1 h2 with h2 | ⟨h2, rfl⟩
              · exact ⟨p, h1, h2⟩
              · have := I.ll; omega
          · intro a h
            exact I.np a fun h' => h (Or.inl h')
          · intro a u w p h hA hp
            simp only at hp ⊢
            rcases rd_snoc_iff.1 hp with hp | ⟨hp, rfl⟩
            · rcases h with h | rfl
              · rcases I.pr a u w p h hA hp with ⟨h1, h2⟩ | ⟨h1, h2, h3⟩
                · exact Or.inl ⟨h1, h2.imp id fun h => (hmem w).2 (Or.inl h)⟩
                · refine Or.inr ⟨h1, h2, h3.imp id ?_⟩
                  rintro ⟨q, h4, h5⟩
                  exact ⟨q, h4, rd_snoc_iff.2 (Or.inl h5)⟩
              · right
                obtain ⟨rfl, rfl⟩ := fragArc_inj ha hA
                exact ⟨hub, hsat, Or.inr ⟨s.queue.length, rd_some_lt hp, rd_snoc_iff.2 (Or.inr ⟨rfl, rfl⟩)⟩⟩
            · exfalso
              rcases h with h | rfl
              · exact hyq (I.pt a u h hA.1)
              · obtain ⟨rfl, _⟩ := fragArc_inj ha hA
                exact hyq (List.mem_of_getElem? hx)
          · intro p w hk hp
            rcases rd_snoc_iff.1 hp with hp | ⟨hp, rfl⟩
            · obtain ⟨a, u, h1, h2, h3, h4⟩ := I.par p w hk hp
              exact ⟨a, u, Or.inl h1, h2, (hmem u).2 (Or.inl h3), h4⟩
            · exact ⟨xy, x, Or.inr rfl, ha, (hmem x).2 (Or.inl (List.mem_of_getElem? hx)), hub⟩
          · simp only
            rw [I.rch]
            constructor
            · rintro ⟨a, u, w, h1, h2, h3, h4⟩
              exact ⟨a, u, w, Or.inl h1, h2, (hmem u).2 (Or.inl h3), h4⟩
            · rintro ⟨a, u, w, h1 | rfl, h2, h3, h4, h5⟩
              · rcases (hmem u).1 h3 with h3 | rfl
                · exact ⟨a, u, w, h1, h2, h3, h4, h5⟩
                · exact absurd (I.pt a u h1 h2.1) hyq
              · obtain ⟨rfl, rfl⟩ := fragArc_inj ha h2
                rw [htgt] at h5; cases h5


theorem bfsInv_congr {f : GraphFragment} {src tgt sat : List Bool} {k L : Nat} {P P' : Nat → Prop} {s : BfsState}
    (I : BfsInv f src tgt sat k L P s) (h : ∀ a, P' a ↔ P a) : BfsInv f src tgt sat k L P' s := by
  have : P' = P := funext fun a => propext (h a)
  rw [this]; exact I

/-- The arcs of the nodes at the first `i` positions of the queue. -/
def ArcsBefore (f : GraphFragment) (Q : List Nat) (i a : Nat) : Prop :=
  ∃ x p, rd f.tail a = some x ∧ rd Q p = some x ∧ p < i

theorem arcsBefore_append {f : GraphFragment} {Q t : List Nat} {i a : Nat} (hi : i ≤ Q.length) :
    ArcsBefore f (Q ++ t) i a ↔ ArcsBefore f Q i a := by
  unfold ArcsBefore
  have : ∀ p x, p < i → (rd (Q ++ t) p = some x ↔ rd Q p = some x) := by
    intro p x hp
    unfold rd
    rw [List.getElem?_append_left (by omega)]
  constructor
  · rintro ⟨x, p, h1, h2, h3⟩; exact ⟨x, p, h1, (this p x h3).1 h2, h3⟩
  · rintro ⟨x, p, h1, h2, h3⟩; exact ⟨x, p, h1, (this p x h3).2 h2, h3⟩

theorem bfsNode_spec {f : GraphFragment} {src tgt sat : List Bool} (o : FragmentOk f) (E : Ends f src tgt)
    (hsl : sat.length = f.arcCount) {k L i : Nat} {s : BfsState} (hkL : k ≤ L) (hiL : i < L)
    (I : BfsInv f src tgt sat k L (ArcsBefore f s.queue i) s) :
    ∃ s', bfsNode f tgt sat s i = some s' ∧ BfsInv f src tgt sat k L (ArcsBefore f s'.queue (i + 1)) s' ∧
      ∃ t, s'.queue = s.queue ++ t := by
  have hll := I.ll
  obtain ⟨x, hx⟩ := rd_isSome (v := s.queue) (i := i) (by omega)
  have hxl := I.lt x (List.mem_of_getElem? hx)
  obtain ⟨b, e, hb, he, hbe, hiff⟩ := o.first_out x hxl
  have hb' : rd f.firstOut x = some b := hb
  have he' : rd f.firstOut (x + 1) = some e := he
  unfold bfsNode
  simp only [hx, hb', he', Option.bind_eq_bind, Option.bind_some]
  have hP : ∀ a, rd f.tail a = some x → ¬ ArcsBefore f s.queue i a := by
    rintro a ha ⟨u, p, h1, h2, h3⟩
    rw [ha] at h1; cases h1
    have := rd_nodup_inj I.nd h2 hx
    omega
  obtain ⟨s', es, I', t, ht⟩ := forRange_inv (lo := b) (hi := e) (s := s) (f := bfsArc f tgt sat)
    (fun j s' => BfsInv f src tgt sat k L (fun a => ArcsBefore f s.queue i a ∨ (b ≤ a ∧ a < j)) s' ∧
      ∃ t, s'.queue = s.queue ++ t) hbe
    ⟨bfsInv_congr I (by intro a; constructor; (rintro (h | h); exact h; omega); exact Or.inl), [], by simp⟩
    (by
      rintro j s1 h1 h2 ⟨I1, t, ht⟩
      have hj : rd f.tail j = some x := (hiff j).2 ⟨h1, h2⟩
      obtain ⟨y, hy⟩ := rd_isSome (v := f.head) (i := j) (by
        have := o.head_len
        have := rd_some_lt hj
        omega)
      obtain ⟨s2, e2, I2, t2, ht2⟩ := bfsArc_spec o E hsl I1 hkL (xy := j) (x := x) (y := y) (i := i) ⟨hj, hy⟩
        (by
          rintro (h | h)
          · exact hP j hj h
          · omega)
        (by rw [ht]; unfold rd; rw [List.getElem?_append_left (by omega)]; exact hx) hiL
      refine ⟨s2, e2, bfsInv_congr I2 ?_, t ++ t2, by rw [ht2, ht, List.append_assoc]⟩
      intro a
      rw [or_assoc]
      refine or_congr Iff.rfl ?_
      omega)
  refine ⟨s', es, bfsInv_congr I' ?_, t, ht⟩
  intro a
  rw [ht, arcsBefore_append (by omega)]
  constructor
  · rintro ⟨u, p, h1, h2, h3⟩
    by_cases hp : p < i
    · exact Or.inl ⟨u, p, h1, h2, hp⟩
    · have : p = i := by omega
      subst this
      rw [hx] at h2; cases h2
      exact Or.inr ((hiff a).1 h1)
  · rintro (⟨u, p, h1, h2, h3⟩ | h)
    · exact ⟨u, p, h1, h2, by omega⟩
    · exact ⟨x, i, (hiff a).2 h, hx, by omega⟩

theorem bfsLoop_spec {f : GraphFragment} {src tgt sat : List Bool} (o : FragmentOk f) (E : Ends f src tgt)
    (hsl : sat.length = f.arcCount) {k : Nat} : ∀ (fuel qb : Nat) (s : BfsState),
    BfsInv f src tgt sat k qb (ArcsBefore f s.queue qb) s → f.nodeCount < fuel + qb →
    ∃ s', bfsLoop f tgt sat fuel qb s.queue.length s = some s' ∧
      BfsInv f src tgt sat k s'.queue.length (ArcsBefore f s'.queue s'.queue.length) s'
  | 0, qb, s, I, hf => by
    have := I.ll
    have := nodup_bounded_length I.nd I.lt
    omega
  | fuel + 1, qb, s, I, hf => by
    have hll := I.ll
    unfold bfsLoop
    by_cases hq : qb = s.queue.length
    · rw [if_neg (by simpa using hq)]
      subst hq
      exact ⟨s, rfl, I⟩
    · rw [if_pos hq]
      obtain ⟨same, esame, hl, hat⟩ := forRange_inv (lo := qb) (hi := s.queue.length) (s := s.same)
        (f := fun same i => do
          let x ← rd s.queue i
          wr same x true)
        (fun i same => same.length = f.nodeCount ∧
          ∀ y, at' same y = true ↔ ∃ p, p < i ∧ rd s.queue p = some y) hll
        ⟨I.sml, I.sm⟩ (by
          rintro i same h1 h2 ⟨h3, h4⟩
          obtain ⟨x, hx⟩ := rd_isSome h2
          have hxl := I.lt x (List.mem_of_getElem? hx)
          simp only [hx, Option.bind_eq_bind, Option.bind_some]
          rw [wr_at (by omega)]
          refine ⟨_, rfl, by simpa using h3, ?_⟩
          intro y
          rw [at_set (by omega)]
          by_cases hyx : y = x
          · subst hyx
            rw [if_pos rfl]
            simp only [true_iff]
            exact ⟨i, by omega, hx⟩
          · rw [if_neg hyx, h4]
            constructor
            · rintro ⟨p, h5, h6⟩; exact ⟨p, by omega, h6⟩
            · rintro ⟨p, h5, h6⟩
              refine ⟨p, ?_, h6⟩
              by_contra hp
              have : p = i := by omega
              subst this
              rw [hx] at h6; cases h6
              exact hyx rfl)
      simp only [Option.bind_eq_bind] at esame ⊢
      rw [esame, Option.bind_some]
      have I1 : BfsInv f src tgt sat k s.queue.length (ArcsBefore f s.queue qb) { s with same := same } :=
        { I with sml := hl, sm := hat, ll := Nat.le_refl _ }
      obtain ⟨s2, e2, I2, t, ht⟩ := forRange_inv (lo := qb) (hi := s.queue.length) (s := { s with same := same })
        (f := bfsNode f tgt sat)
        (fun i s' => BfsInv f src tgt sat k s.queue.length (ArcsBefore f s'.queue i) s' ∧
          ∃ t, s'.queue = s.queue ++ t) hll ⟨I1, [], by simp⟩
        (by
          rintro i s1 h1 h2 ⟨I1, t, ht⟩
          obtain ⟨s2, e2, I2, t2, ht2⟩ := bfsNode_spec o E hsl I.kl h2 I1
          exact ⟨s2, e2, I2, t ++ t2, by rw [ht2, ht, List.append_assoc]⟩)
      rw [e2, Option.bind_some]
      exact bfsLoop_spec o E hsl fuel s.queue.length s2 I2 (by omega)

/-- The result of the search. -/
structure BfsDone (f : GraphFragment) (src tgt sat blocked : List Bool) (reach : Bool) (Q : List Nat) : Prop where
  bl : blocked.length = f.arcCount
  nd : Q.Nodup
  lt : ∀ x ∈ Q, x < f.nodeCount
  nt : ∀ x ∈ Q, at' tgt x = false
  srcs : ∀ x, at' src x = true → x ∈ Q
  out : ∀ a x y, FragArc f a x y → x ∉ Q → at' blocked a = false
  pr : ∀ a x y p, FragArc f a x y → rd Q p = some x →
    (at' blocked a = true ∧ (at' sat a = true ∨ y ∈ Q)) ∨
    (at' blocked a = false ∧ at' sat a = false ∧ (at' tgt y = true ∨ ∃ q, p < q ∧ rd Q q = some y))
  par : ∀ y ∈ Q, at' src y = true ∨ ∃ a x, FragArc f a x y ∧ x ∈ Q ∧ at' blocked a = false
  rch : reach = true ↔ ∃ a x y, FragArc f a x y ∧ x ∈ Q ∧ at' blocked a = false ∧ at' tgt y = true

theorem sourceQueue_spec {cap : Nat} {src : List Bool} {n : Nat} (hl : src.length = n) (hcap : n ≤ cap) :
    (forRange 0 n [] fun queue x => do
      let s ← rd src x
      if s then pushBack cap queue x else some queue) = some ((List.range n).filter (at' src)) := by
  obtain ⟨q, e, hq⟩ := forRange_inv (lo := 0) (hi := n) (s := ([] : List Nat))
    (f := fun queue x => do
      let s ← rd src x
      if s then pushBack cap queue x else some queue)
    (fun i q => q = (List.range i).filter (at' src)) (Nat.zero_le _) (by simp) (by
      rintro i q _ hi rfl
      simp only [Option.bind_eq_bind]
      rw [rd_at (by omega), Option.bind_some, List.range_succ, List.filter_append]
      cases h : at' src i with
      | true =>
        simp only [if_true]
        have := List.length_filter_le (at' src) (List.range i)
        rw [List.length_range] at this
        rw [pushBack_lt (by omega)]
        exact ⟨_, rfl, by simp [h]⟩
      | false =>
        simp only [Bool.false_eq_true, if_false]
        exact ⟨_, rfl, by simp [h]⟩)
  rw [e, hq]

theorem computeBlockingFlow_spec {f : GraphFragment} {src tgt sat : List Bool} (o : FragmentOk f) (E : Ends f src tgt)
    (hsl : sat.length = f.arcCount) :
    ∃ blocked reach Q, computeBlockingFlow f src tgt sat = some (blocked, reach) ∧
      BfsDone f src tgt sat blocked reach Q := by
  have hq := sourceQueue_spec (cap := f.nodeCount) (src := src) (n := f.nodeCount) E.sl (Nat.le_refl _)
  generalize hQ : (List.range f.nodeCount).filter (at' src) = Q0 at hq
  have hmem : ∀ x, x ∈ Q0 ↔ at' src x = true := by
    intro x
    rw [← hQ, List.mem_filter, List.mem_range]
    constructor
    · exact fun h => h.2
    · intro h
      exact ⟨by have := at_eq_true_lt h; have := E.sl; omega, h⟩
  have I0 : BfsInv f src tgt sat Q0.length 0 (ArcsBefore f Q0 0)
      ⟨List.replicate f.nodeCount false, List.replicate f.nodeCount false, List.replicate f.arcCount false, Q0, false⟩ := by
    have hno : ∀ a, ¬ ArcsBefore f Q0 0 a := by rintro a ⟨_, _, _, _, h⟩; omega
    refine ⟨by simp, by simp, by simp, by simp only; rw [← hQ]; exact List.nodup_range.filter _, ?_, ?_, by simp,
      by simp, ?_, ?_, ?_, ?_, ?_, ?_, ?_, ?_, ?_⟩
    · intro x hx
      have := at_eq_true_lt ((hmem x).1 hx)
      have := E.sl
      omega
    · intro x hx
      exact E.disj x ((hmem x).1 hx)
    · intro a x h; exact absurd h (hno a)
    · intro x hx
      obtain ⟨p, hp⟩ := List.getElem?_of_mem ((hmem x).2 hx)
      exact ⟨p, rd_some_lt (v := Q0) hp, hp⟩
    · intro p x _ hp
      exact (hmem x).1 (List.mem_of_getElem? hp)
    · intro y
      simp only [at_replicate, Bool.and_false, Bool.false_eq_true, false_iff]
      rintro ⟨p, h1, h2⟩
      have := rd_some_lt h2
      omega
    · intro y
      simp only [at_replicate, Bool.and_false, Bool.false_eq_true, false_iff]
      rintro ⟨p, h1, h2⟩
      omega
    · intro a _
      simp [at_replicate]
    · intro a x y p h; exact absurd h (hno a)
    · intro p y h1 h2
      have := rd_some_lt h2
      simp only at this h1
      omega
    · simp only [Bool.false_eq_true, false_iff]
      rintro ⟨a, x, y, h, _⟩
      exact hno a h
  obtain ⟨s, e, I⟩ := bfsLoop_spec o E hsl (f.nodeCount + 1) 0
    ⟨List.replicate f.nodeCount false, List.replicate f.nodeCount false, List.replicate f.arcCount false, Q0, false⟩
    I0 (by omega)
  refine ⟨s.blocked, s.reach, s.queue, ?_, I.bl, I.nd, I.lt, I.nt, ?_, ?_, ?_, ?_, ?_⟩
  · unfold computeBlockingFlow
    simp only [Option.bind_eq_bind] at hq ⊢
    simp only at e
    rw [hq, Option.bind_some, e, Option.bind_some]
  · intro x hx
    obtain ⟨p, _, hp⟩ := I.src1 x hx
    exact List.mem_of_getElem? hp
  · intro a x y hA hx
    apply I.np
    rintro ⟨u, p, h1, h2, _⟩
    have := hA.1.symm.trans h1
    cases this
    exact hx (List.mem_of_getElem? h2)
  · intro a x y p hA hp
    exact I.pr a x y p ⟨x, p, hA.1, hp, rd_some_lt hp⟩ hA hp
  · intro y hy
    obtain ⟨p, hp⟩ := List.getElem?_of_mem hy
    by_cases hpk : p < Q0.length
    · exact Or.inl (I.src2 p y hpk hp)
    · obtain ⟨a, x, _, h⟩ := I.par p y (by omega) hp
      exact Or.inr ⟨a, x, h⟩
  · rw [I.rch]
    constructor
    · rintro ⟨a, x, y, _, h⟩; exact ⟨a, x, y, h⟩
    · rintro ⟨a, x, y, h1, h2, h3⟩
      obtain ⟨p, hp⟩ := List.getElem?_of_mem h2
      exact ⟨a, x, y, ⟨x, p, h1.1, hp, rd_some_lt (v := s.queue) hp⟩, h1, h2, h3⟩

end RK
