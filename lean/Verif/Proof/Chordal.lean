import Verif.Model.Cch
import Verif.Proof.Fill
import Verif.Proof.Fn
import Mathlib.Tactic.Tauto
/-! Helper lemmas: `compute_chordal_supergraph`. -/
namespace RK
open Spec

/-! ### Sorting -/

theorem mem_insertNat {x y : Nat} : ∀ {l : List Nat}, y ∈ insertNat x l ↔ y = x ∨ y ∈ l
  | [] => by simp [insertNat]
  | z :: l => by
    unfold insertNat
    split
    · simp
    · simp only [List.mem_cons, mem_insertNat (l := l)]; tauto

theorem sorted_insertNat {x : Nat} : ∀ {l : List Nat}, l.Pairwise (· ≤ ·) → (insertNat x l).Pairwise (· ≤ ·)
  | [], _ => by simp [insertNat]
  | y :: l, h => by
    unfold insertNat
    have h1 := List.pairwise_cons.1 h
    split
    · rename_i hxy
      refine List.pairwise_cons.2 ⟨?_, h⟩
      intro z hz
      rcases List.mem_cons.1 hz with rfl | hz
      · exact hxy
      · exact Nat.le_trans hxy (h1.1 z hz)
    · rename_i hxy
      refine List.pairwise_cons.2 ⟨?_, sorted_insertNat h1.2⟩
      intro z hz
      rcases mem_insertNat.1 hz with rfl | hz
      · omega
      · exact h1.1 z hz

theorem mem_sortNats {y : Nat} : ∀ {l : List Nat}, y ∈ sortNats l ↔ y ∈ l
  | [] => by simp [sortNats]
  | x :: l => by rw [sortNats, mem_insertNat, mem_sortNats, List.mem_cons]

theorem sorted_sortNats : ∀ (l : List Nat), (sortNats l).Pairwise (· ≤ ·)
  | [] => by simp [sortNats]
  | x :: l => sorted_insertNat (sorted_sortNats l)

theorem mem_uniqueAdj {y : Nat} : ∀ {l : List Nat}, y ∈ uniqueAdj l ↔ y ∈ l
  | [] => by simp [uniqueAdj]
  | [a] => by simp [uniqueAdj]
  | a :: b :: l => by
    unfold uniqueAdj
    split
    · rename_i hab
      rw [mem_uniqueAdj (l := b :: l)]
      subst hab; simp
    · rw [List.mem_cons, mem_uniqueAdj (l := b :: l), List.mem_cons (l := b :: l)]

theorem strict_uniqueAdj : ∀ {l : List Nat}, l.Pairwise (· ≤ ·) → (uniqueAdj l).Pairwise (· < ·)
  | [], _ => by simp [uniqueAdj]
  | [a], _ => by simp [uniqueAdj]
  | a :: b :: l, h => by
    unfold uniqueAdj
    have h1 := List.pairwise_cons.1 h
    split
    · exact strict_uniqueAdj h1.2
    · rename_i hab
      refine List.pairwise_cons.2 ⟨?_, strict_uniqueAdj h1.2⟩
      intro z hz
      have hz' := mem_uniqueAdj.1 hz
      have hab' := h1.1 b (by simp)
      rcases List.mem_cons.1 hz' with rfl | hz'
      · omega
      · have := (List.pairwise_cons.1 h1.2).1 z hz'; omega

theorem mem_mergeInto {a y : Nat} {as : List Nat} {rest : List Nat → List Nat}
    (hr : ∀ bs, y ∈ rest bs ↔ y ∈ as ∨ y ∈ bs) : ∀ {bs : List Nat}, y ∈ mergeInto a as rest bs ↔ y ∈ a :: as ∨ y ∈ bs
  | [] => by simp [mergeInto]
  | b :: bs => by
    unfold mergeInto
    split
    · simp only [List.mem_cons, mem_mergeInto hr (bs := bs)]; tauto
    · simp only [List.mem_cons, hr]; tauto

theorem mem_mergeNats {y : Nat} : ∀ {as bs : List Nat}, y ∈ mergeNats as bs ↔ y ∈ as ∨ y ∈ bs
  | [], bs => by simp [mergeNats]
  | a :: as, bs => by
    unfold mergeNats
    exact mem_mergeInto (fun bs => mem_mergeNats)

theorem sorted_mergeInto {a : Nat} {as : List Nat} (ha : (a :: as).Pairwise (· ≤ ·)) {rest : List Nat → List Nat}
    (hm : ∀ y bs, y ∈ rest bs ↔ y ∈ as ∨ y ∈ bs)
    (hr : ∀ bs : List Nat, bs.Pairwise (· ≤ ·) → (rest bs).Pairwise (· ≤ ·)) :
    ∀ {bs : List Nat}, bs.Pairwise (· ≤ ·) → (mergeInto a as rest bs).Pairwise (· ≤ ·)
  | [], _ => by simpa [mergeInto] using ha
  | b :: bs, h => by
    unfold mergeInto
    have h1 := List.pairwise_cons.1 h
    have h2 := List.pairwise_cons.1 ha
    split
    · rename_i hba
      refine List.pairwise_cons.2 ⟨?_, sorted_mergeInto ha hm hr h1.2⟩
      intro z hz
      rcases (mem_mergeInto (hm z)).1 hz with hz | hz
      · rcases List.mem_cons.1 hz with rfl | hz
        · omega
        · have := h2.1 z hz; omega
      · exact h1.1 z hz
    · rename_i hba
      refine List.pairwise_cons.2 ⟨?_, hr _ h⟩
      intro z hz
      rcases (hm z _).1 hz with hz | hz
      · exact h2.1 z hz
      · rcases List.mem_cons.1 hz with rfl | hz
        · omega
        · have := h1.1 z hz; omega

theorem sorted_mergeNats : ∀ {as bs : List Nat}, as.Pairwise (· ≤ ·) → bs.Pairwise (· ≤ ·) →
    (mergeNats as bs).Pairwise (· ≤ ·)
  | [], bs, _, h => by simpa [mergeNats] using h
  | a :: as, bs, ha, h => by
    unfold mergeNats
    exact sorted_mergeInto ha (fun y bs => mem_mergeNats)
      (fun bs hb => sorted_mergeNats (List.pairwise_cons.1 ha).2 hb) h

/-! ### Loops with a size limit -/

theorem forN_limit {σ : Type} {f : σ → Nat → Option σ} (P : Nat → σ → Prop) (size : σ → Nat) (K : Nat) :
    ∀ (n lo : Nat) (s : σ), P lo s → size s ≤ K →
      (∀ i s, lo ≤ i → i < lo + n → P i s → ∃ s', P (i + 1) s' ∧ size s ≤ size s' ∧
        (size s ≤ K → f s i = if size s' ≤ K then some s' else none)) →
      ∃ s', P (lo + n) s' ∧ forN f lo n s = if size s' ≤ K then some s' else none := by
  -- the pure run
  have pure : ∀ (n lo : Nat) (s : σ), P lo s →
      (∀ i s, lo ≤ i → i < lo + n → P i s → ∃ s', P (i + 1) s' ∧ size s ≤ size s' ∧
        (size s ≤ K → f s i = if size s' ≤ K then some s' else none)) →
      ∃ s', P (lo + n) s' ∧ size s ≤ size s' := by
    intro n
    induction n with
    | zero => intro lo s h _; exact ⟨s, h, Nat.le_refl _⟩
    | succ n ih =>
      intro lo s h hs
      obtain ⟨s1, p1, l1, _⟩ := hs lo s (Nat.le_refl _) (by omega) h
      obtain ⟨s2, p2, l2⟩ := ih (lo + 1) s1 p1 (fun i s h1 h2 h3 => hs i s (by omega) (by omega) h3)
      exact ⟨s2, by rw [show lo + (n + 1) = lo + 1 + n by omega]; exact p2, Nat.le_trans l1 l2⟩
  intro n
  induction n with
  | zero => intro lo s h hk _; exact ⟨s, h, by simp [forN, hk]⟩
  | succ n ih =>
    intro lo s h hk hs
    obtain ⟨s1, p1, l1, e1⟩ := hs lo s (Nat.le_refl _) (by omega) h
    have e1 := e1 hk
    by_cases h1 : size s1 ≤ K
    · rw [if_pos h1] at e1
      obtain ⟨s2, p2, e2⟩ := ih (lo + 1) s1 p1 h1 (fun i s h1 h2 h3 => hs i s (by omega) (by omega) h3)
      refine ⟨s2, by rw [show lo + (n + 1) = lo + 1 + n by omega]; exact p2, ?_⟩
      simp only [forN, e1, Option.bind_some, e2]
    · rw [if_neg h1] at e1
      obtain ⟨s2, p2, l2⟩ := pure n (lo + 1) s1 p1 (fun i s h1 h2 h3 => hs i s (by omega) (by omega) h3)
      refine ⟨s2, by rw [show lo + (n + 1) = lo + 1 + n by omega]; exact p2, ?_⟩
      rw [if_neg (by omega)]
      simp only [forN, e1, Option.bind_none]

/-! ### Building the neighbour lists -/

theorem chordalInit_spec {n : Nat} {tail head : List Nat} (hl : tail.length = head.length)
    (ht : ∀ x ∈ tail, x < n) :
    ∃ nodes, chordalInit n tail head = some nodes ∧ nodes.length = n ∧
      ∀ x, x < n → ∀ y, y ∈ fn nodes x ↔ x < y ∧ ∃ i, rd tail i = some x ∧ rd head i = some y := by
  unfold chordalInit
  obtain ⟨nodes, e, h1, h2⟩ := forRange_inv (lo := 0) (hi := tail.length) (s := List.replicate n ([] : List Nat))
    (f := fun nodes i => (rd tail i).bind fun t => (rd head i).bind fun h =>
      if t < h then (rd nodes t).bind fun l => wr nodes t (l ++ [h]) else some nodes)
    (fun k nodes => nodes.length = n ∧ ∀ x, x < n → ∀ y, y ∈ fn nodes x ↔
      x < y ∧ ∃ i, i < k ∧ rd tail i = some x ∧ rd head i = some y) (Nat.zero_le _)
    ⟨by simp, by intro x hx y; rw [fn_replicate hx]; simp⟩
    (by
      rintro k nodes _ hk ⟨hlen, hm⟩
      obtain ⟨t, et⟩ := rd_isSome (v := tail) hk
      obtain ⟨h, eh⟩ := rd_isSome (v := head) (i := k) (by omega)
      have htn := ht t (List.mem_of_getElem? et)
      by_cases hth : t < h
      · refine ⟨nodes.set t (fn nodes t ++ [h]), ?_, by simpa using hlen, ?_⟩
        · simp [et, eh, hth, rd_fn (v := nodes) (x := t) (by omega), wr_lt (v := nodes) (i := t) (by omega)]
        · intro x hx y
          rw [fn_set (by omega)]
          by_cases hxt : x = t
          · subst hxt
            rw [if_pos rfl, List.mem_append, hm x hx, List.mem_singleton]
            constructor
            · rintro (⟨h1, i, h2, h3⟩ | rfl)
              · exact ⟨h1, i, by omega, h3⟩
              · exact ⟨hth, k, by omega, et, eh⟩
            · rintro ⟨h1, i, h2, h3, h4⟩
              by_cases hik : i = k
              · subst hik
                rw [eh] at h4; cases h4; exact Or.inr rfl
              · exact Or.inl ⟨h1, i, by omega, h3, h4⟩
          · rw [if_neg hxt, hm x hx]
            constructor
            · rintro ⟨h1, i, h2, h3⟩; exact ⟨h1, i, by omega, h3⟩
            · rintro ⟨h1, i, h2, h3, h4⟩
              refine ⟨h1, i, ?_, h3, h4⟩
              rcases Nat.lt_or_ge i k with h5 | h5
              · exact h5
              · have : i = k := by omega
                subst this; rw [et] at h3; cases h3; exact absurd rfl hxt
      · refine ⟨nodes, by simp [et, eh, hth], hlen, ?_⟩
        intro x hx y
        rw [hm x hx]
        constructor
        · rintro ⟨h1, i, h2, h3⟩; exact ⟨h1, i, by omega, h3⟩
        · rintro ⟨h1, i, h2, h3, h4⟩
          refine ⟨h1, i, ?_, h3, h4⟩
          rcases Nat.lt_or_ge i k with h5 | h5
          · exact h5
          · have : i = k := by omega
            subst this; rw [et] at h3; rw [eh] at h4; cases h3; cases h4; exact absurd h1 hth)
  refine ⟨nodes, e, h1, ?_⟩
  intro x hx y
  rw [h2 x hx]
  constructor
  · rintro ⟨h, i, _, h3⟩; exact ⟨h, i, h3⟩
  · rintro ⟨h, i, h3, h4⟩; exact ⟨h, i, rd_some_lt h3, h3, h4⟩

theorem chordalSort_spec {n : Nat} {nodes : List (List Nat)} (hl : nodes.length = n) :
    ∃ nodes', chordalSort n nodes = some nodes' ∧ nodes'.length = n ∧
      ∀ x, x < n → (fn nodes' x).Pairwise (· < ·) ∧ ∀ y, y ∈ fn nodes' x ↔ y ∈ fn nodes x := by
  unfold chordalSort
  obtain ⟨nodes', e, h1, h2, _⟩ := forRange_inv (lo := 0) (hi := n) (s := nodes)
    (f := fun nodes x => (rd nodes x).bind fun l => wr nodes x (uniqueAdj (sortNats l)))
    (fun k nodes' => nodes'.length = n ∧ (∀ x, x < k → (fn nodes' x).Pairwise (· < ·) ∧ ∀ y, y ∈ fn nodes' x ↔ y ∈ fn nodes x) ∧
      ∀ x, k ≤ x → fn nodes' x = fn nodes x) (Nat.zero_le _)
    ⟨hl, fun x hx => absurd hx (Nat.not_lt_zero x), fun _ _ => rfl⟩
    (by
      rintro k ns _ hk ⟨hlen, hm, hm'⟩
      refine ⟨ns.set k (uniqueAdj (sortNats (fn ns k))), ?_, by simpa using hlen, ?_, ?_⟩
      · simp [rd_fn (v := ns) (x := k) (by omega), wr_lt (v := ns) (i := k) (by omega)]
      · intro x hx
        rw [fn_set (by omega)]
        by_cases hxk : x = k
        · subst hxk
          rw [if_pos rfl]
          refine ⟨strict_uniqueAdj (sorted_sortNats _), ?_⟩
          intro y
          rw [mem_uniqueAdj, mem_sortNats, hm' x (Nat.le_refl _)]
        · rw [if_neg hxk]; exact hm x (by omega)
      · intro x hx
        rw [fn_set (by omega), if_neg (by omega)]
        exact hm' x (by omega))
  exact ⟨nodes', e, h1, h2⟩

/-! ### The elimination game -/

theorem emit_spec (x : Nat) : ∀ (l t h : List Nat), t.length ≤ invalidId →
    forEach l (t, h) (pushUpArc x) =
      if t.length + l.length ≤ invalidId then some (t ++ List.replicate l.length x, h ++ l) else none
  | [], t, h, ht => by simp [forEach, ht]
  | y :: l, t, h, ht => by
    rw [forEach]
    unfold pushUpArc
    by_cases hk : t.length = invalidId
    · rw [if_neg (by simp; omega)]
      simp [hk, check]
    · have c : decide (t.length ≠ invalidId) = true := by simpa using hk
      simp only [c, check_true, Option.bind_eq_bind, Option.bind_some]
      rw [show (fun (arcs : List Nat × List Nat) (y : Nat) => (check (decide (arcs.1.length ≠ invalidId))).bind fun _ =>
        some (arcs.1 ++ [x], arcs.2 ++ [y])) = pushUpArc x from rfl]
      rw [emit_spec x l (t ++ [x]) (h ++ [y]) (by simp; omega)]
      simp only [List.length_append, List.length_cons, List.length_nil, List.append_assoc,
        List.singleton_append, List.replicate_succ]
      rw [show t.length + (0 + 1) + l.length = t.length + (l.length + 1) by omega]

/-- Pairs `(t[a], h[a])` in strictly increasing lexicographic order. -/
def SortedArcs (t h : List Nat) : Prop :=
  t.length = h.length ∧ ∀ a b ta tb ha hb, a < b → rd t a = some ta → rd t b = some tb →
    rd h a = some ha → rd h b = some hb → ta < tb ∨ (ta = tb ∧ ha < hb)

/-- The pair `(x, y)` occurs. -/
def HasArc (t h : List Nat) (x y : Nat) : Prop := ∃ a, rd t a = some x ∧ rd h a = some y

theorem rd_append {α : Type} {u v : List α} {a : Nat} {x : α} :
    rd (u ++ v) a = some x ↔ rd u a = some x ∨ (u.length ≤ a ∧ rd v (a - u.length) = some x) := by
  unfold rd
  rcases Nat.lt_or_ge a u.length with h | h
  · rw [List.getElem?_append_left h]
    constructor
    · exact Or.inl
    · rintro (h' | ⟨h', _⟩)
      · exact h'
      · omega
  · rw [List.getElem?_append_right h]
    constructor
    · exact fun h' => Or.inr ⟨h, h'⟩
    · rintro (h' | ⟨_, h'⟩)
      · have := rd_some_lt (v := u) h'; omega
      · exact h'

theorem SortedArcs.append {t h l : List Nat} {x : Nat} (hs : SortedArcs t h) (ht : ∀ z ∈ t, z < x)
    (hl : l.Pairwise (· < ·)) : SortedArcs (t ++ List.replicate l.length x) (h ++ l) := by
  refine ⟨by simp [hs.1], ?_⟩
  intro a b ta tb ha hb hab e1 e2 e3 e4
  have hl' := hs.1
  rcases rd_append.1 e1 with e1 | ⟨la, e1⟩
  · have l1 := rd_some_lt e1
    rcases rd_append.1 e2 with e2 | ⟨lb, e2⟩
    · have l2 := rd_some_lt e2
      rcases rd_append.1 e3 with e3 | ⟨_, _⟩
      · rcases rd_append.1 e4 with e4 | ⟨_, _⟩
        · exact hs.2 a b ta tb ha hb hab e1 e2 e3 e4
        · omega
      · omega
    · have : tb = x := by
        have := List.mem_of_getElem? e2
        exact (List.mem_replicate.1 this).2
      left; rw [this]; exact ht ta (List.mem_of_getElem? e1)
  · rcases rd_append.1 e2 with e2 | ⟨lb, e2⟩
    · have := rd_some_lt e2; omega
    · have h1 := (List.mem_replicate.1 (List.mem_of_getElem? e1)).2
      have h2 := (List.mem_replicate.1 (List.mem_of_getElem? e2)).2
      right
      refine ⟨by omega, ?_⟩
      rcases rd_append.1 e3 with e3 | ⟨_, e3⟩
      · have := rd_some_lt e3; omega
      · rcases rd_append.1 e4 with e4 | ⟨_, e4⟩
        · have := rd_some_lt e4; omega
        · obtain ⟨p1, q1⟩ := rd_eq_some.1 e3
          obtain ⟨p2, q2⟩ := rd_eq_some.1 e4
          rw [← q1, ← q2]
          exact List.pairwise_iff_getElem.1 hl _ _ p1 p2 (by omega)

theorem HasArc.append {t h l : List Nat} {x p q : Nat} (hl : t.length = h.length) :
    HasArc (t ++ List.replicate l.length x) (h ++ l) p q ↔ HasArc t h p q ∨ (p = x ∧ q ∈ l) := by
  constructor
  · rintro ⟨a, e1, e2⟩
    rcases rd_append.1 e1 with e1 | ⟨la, e1⟩
    · have := rd_some_lt e1
      rcases rd_append.1 e2 with e2 | ⟨_, e2⟩
      · exact Or.inl ⟨a, e1, e2⟩
      · omega
    · rcases rd_append.1 e2 with e2 | ⟨_, e2⟩
      · have := rd_some_lt e2; omega
      · exact Or.inr ⟨(List.mem_replicate.1 (List.mem_of_getElem? e1)).2, List.mem_of_getElem? e2⟩
  · rintro (⟨a, e1, e2⟩ | ⟨rfl, hq⟩)
    · exact ⟨a, rd_append.2 (Or.inl e1), rd_append.2 (Or.inl e2)⟩
    · obtain ⟨i, hi, e⟩ := List.getElem_of_mem hq
      refine ⟨t.length + i, rd_append.2 (Or.inr ⟨by omega, ?_⟩), rd_append.2 (Or.inr ⟨by omega, ?_⟩)⟩
      · rw [show t.length + i - t.length = i by omega]; exact rd_replicate hi
      · rw [show t.length + i - h.length = i by omega]; exact rd_eq_some.2 ⟨hi, e⟩

/-- State of the game before node `x` is eliminated. -/
structure GameInv (n : Nat) (E : Nat → Nat → Prop) (x : Nat) (s : List (List Nat) × (List Nat × List Nat)) : Prop where
  len : s.1.length = n
  strict : ∀ z, z < n → (fn s.1 z).Pairwise (· < ·)
  sound : ∀ z y, z < n → y ∈ fn s.1 z → z < y ∧ y < n ∧ InnerPath E (fun u => u < z) z y
  base : ∀ z y, E z y → z < y → y ∈ fn s.1 z
  low : ∀ z a rest, z < x → fn s.1 z = a :: rest → ∀ b ∈ rest, b ∈ fn s.1 a
  sorted : SortedArcs s.2.1 s.2.2
  arcs : ∀ z y, HasArc s.2.1 s.2.2 z y ↔ z < x ∧ y ∈ fn s.1 z

theorem chordalStep_spec {n x : Nat} {E : Nat → Nat → Prop} (hE : ∀ x y, E x y → E y x)
    {s : List (List Nat) × (List Nat × List Nat)} (h : GameInv n E x s) (hx : x < n) :
    ∃ s', GameInv n E (x + 1) s' ∧ s.2.1.length ≤ s'.2.1.length ∧
      (s.2.1.length ≤ invalidId → chordalStep s x = if s'.2.1.length ≤ invalidId then some s' else none) := by
  obtain ⟨nodes, t, hd⟩ := s
  have hlen : nodes.length = n := h.len
  have er := rd_fn (v := nodes) (x := x) (by omega)
  unfold chordalStep
  simp only [er, Option.bind_eq_bind, Option.bind_some]
  have htx : ∀ z ∈ t, z < x := by
    intro z hz
    obtain ⟨i, hi, e⟩ := List.getElem_of_mem hz
    have hl : t.length = hd.length := h.sorted.1
    obtain ⟨y, ey⟩ := rd_isSome (v := hd) (i := i) (by omega)
    exact ((h.arcs z y).1 ⟨i, rd_eq_some.2 ⟨hi, e⟩, ey⟩).1
  cases hl : fn nodes x with
  | nil =>
    refine ⟨(nodes, t, hd), ⟨h.len, h.strict, h.sound, h.base, ?_, h.sorted, ?_⟩, Nat.le_refl _, ?_⟩
    · intro z a rest hz hf
      by_cases hzx : z = x
      · subst hzx
        have hf : fn nodes z = a :: rest := hf
        rw [hl] at hf; cases hf
      · exact h.low z a rest (by omega) hf
    · intro z y
      rw [h.arcs z y]
      constructor
      · rintro ⟨h1, h2⟩; exact ⟨by omega, h2⟩
      · rintro ⟨h1, h2⟩
        refine ⟨?_, h2⟩
        by_cases hzx : z = x
        · subst hzx
          have h2 : y ∈ fn nodes z := h2
          rw [hl] at h2; cases h2
        · omega
    · intro hk
      rw [if_pos hk]
  | cons low rest =>
    have hs0 := h.sound x low hx (by show low ∈ fn nodes x; rw [hl]; simp)
    obtain ⟨hlx, hln, hpl⟩ := hs0
    have hst : (low :: rest).Pairwise (· < ·) := by have := h.strict x hx; rw [show fn (nodes, t, hd).1 x = low :: rest from hl] at this; exact this
    have hst' := List.pairwise_cons.1 hst
    have el := rd_fn (v := nodes) (x := low) (by omega)
    have ew := wr_lt (v := nodes) (i := low) (x := uniqueAdj (mergeNats rest (fn nodes low))) (by omega)
    let nodes' := nodes.set low (uniqueAdj (mergeNats rest (fn nodes low)))
    have hlen' : nodes'.length = n := by simpa [nodes'] using hlen
    have hfn : ∀ z, fn nodes' z = if z = low then uniqueAdj (mergeNats rest (fn nodes low)) else fn nodes z :=
      fun z => fn_set (by omega)
    have ex : rd nodes' x = some (low :: rest) := by
      rw [rd_fn (by omega), hfn, if_neg (by omega), hl]
    have hmono : ∀ z y, y ∈ fn nodes z → y ∈ fn nodes' z := by
      intro z y hy
      rw [hfn]
      by_cases hz : z = low
      · subst hz; rw [if_pos rfl, mem_uniqueAdj, mem_mergeNats]; exact Or.inr hy
      · rw [if_neg hz]; exact hy
    refine ⟨(nodes', t ++ List.replicate (low :: rest).length x, hd ++ (low :: rest)), ?_, ?_, ?_⟩
    · refine ⟨hlen', ?_, ?_, ?_, ?_, ?_, ?_⟩
      · intro z hz
        show (fn nodes' z).Pairwise (· < ·)
        rw [hfn]
        by_cases hzl : z = low
        · rw [if_pos hzl]
          apply strict_uniqueAdj
          apply sorted_mergeNats
          · exact hst'.2.imp (fun h => Nat.le_of_lt h)
          · exact (h.strict low hln).imp (fun h => Nat.le_of_lt h)
        · rw [if_neg hzl]; exact h.strict z hz
      · intro z y hz hy
        have hy : y ∈ fn nodes' z := hy
        rw [hfn] at hy
        by_cases hzl : z = low
        · rw [if_pos hzl, mem_uniqueAdj, mem_mergeNats] at hy
          rcases hy with hy | hy
          · obtain ⟨h1, h2, h3⟩ := h.sound x y hx (by show y ∈ fn nodes x; rw [hl]; exact List.mem_cons_of_mem _ hy)
            have h4 := hst'.1 y hy
            refine ⟨by omega, h2, ?_⟩
            rw [hzl]
            exact innerPath_append (innerPath_mono (fun u hu => by omega) (innerPath_symm hE hpl)) hlx
              (innerPath_mono (fun u hu => by omega) h3)
          · rw [hzl]; exact h.sound low y hln hy
        · rw [if_neg hzl] at hy; exact h.sound z y hz hy
      · intro z y hE' hzy
        exact hmono z y (h.base z y hE' hzy)
      · intro z a r hz hf b hb
        change fn nodes' z = a :: r at hf
        show b ∈ fn nodes' a
        rw [hfn] at hf
        rw [if_neg (by omega)] at hf
        by_cases hzx : z = x
        · subst hzx
          rw [hl] at hf
          cases hf
          rw [hfn, if_pos rfl, mem_uniqueAdj, mem_mergeNats]
          exact Or.inl hb
        · exact hmono a b (h.low z a r (by omega) hf b hb)
      · exact h.sorted.append htx hst
      · intro z y
        rw [HasArc.append h.sorted.1, h.arcs z y]
        show z < x ∧ y ∈ fn nodes z ∨ z = x ∧ y ∈ low :: rest ↔ z < x + 1 ∧ y ∈ fn nodes' z
        rw [hfn]
        constructor
        · rintro (⟨h1, h2⟩ | ⟨rfl, h2⟩)
          · rw [if_neg (by omega)]; exact ⟨by omega, h2⟩
          · rw [if_neg (by omega), hl]; exact ⟨by omega, h2⟩
        · rintro ⟨h1, h2⟩
          rw [if_neg (by omega)] at h2
          by_cases hzx : z = x
          · subst hzx; right; rw [hl] at h2; exact ⟨rfl, h2⟩
          · left; exact ⟨by omega, h2⟩
    · show t.length ≤ _
      simp
    · intro hk
      simp only [el, Option.bind_some, ew]
      change (rd nodes' x).bind _ = _
      simp only [ex, Option.bind_some]
      rw [emit_spec x _ t hd hk]
      by_cases hk' : t.length + (low :: rest).length ≤ invalidId
      · rw [if_pos hk', if_pos (by simpa using hk')]
        rfl
      · rw [if_neg hk', if_neg (by simpa using hk')]
        rfl

/-- The result of `compute_chordal_supergraph`: the elimination fill, sorted; `none` (an exception) if there
are more than 2^32-1 arcs. -/
theorem chordalSupergraph_spec {n : Nat} {tail head : List Nat} {E : Nat → Nat → Prop}
    (hl : tail.length = head.length) (ht : ∀ x ∈ tail, x < n) (hh : ∀ x ∈ head, x < n)
    (hE : ∀ x y, E x y → E y x) (hEI : ∀ x y, x < y → (E x y ↔ HasArc tail head x y)) :
    ∃ t h, SortedArcs t h ∧ (∀ x y, HasArc t h x y → y < n) ∧ FillOk n E (HasArc t h) ∧
      chordalSupergraph n tail head = if t.length ≤ invalidId then some (t, h) else none := by
  obtain ⟨nodes0, e0, hl0, hm0⟩ := chordalInit_spec hl ht
  obtain ⟨nodes1, e1, hl1, hm1⟩ := chordalSort_spec hl0
  have hinit : GameInv n E 0 (nodes1, ([], [])) := by
    refine ⟨hl1, fun z hz => (hm1 z hz).1, ?_, ?_, fun z _ _ hz => absurd hz (Nat.not_lt_zero z), ?_, ?_⟩
    · intro z y hz hy
      obtain ⟨h1, i, h2, h3⟩ := (hm0 z hz y).1 (((hm1 z hz).2 y).1 hy)
      exact ⟨h1, hh y (List.mem_of_getElem? h3), .edge ((hEI z y h1).2 ⟨i, h2, h3⟩)⟩
    · intro z y hE' hzy
      obtain ⟨i, h2, h3⟩ := (hEI z y hzy).1 hE'
      have hz := ht z (List.mem_of_getElem? h2)
      exact ((hm1 z hz).2 y).2 ((hm0 z hz y).2 ⟨hzy, i, h2, h3⟩)
    · exact ⟨rfl, fun a b ta tb ha hb _ h => by simp [rd] at h⟩
    · intro z y
      constructor
      · rintro ⟨a, h, _⟩; simp [rd] at h
      · rintro ⟨h, _⟩; exact absurd h (Nat.not_lt_zero z)
  obtain ⟨s, hs, es⟩ := forN_limit (f := chordalStep) (GameInv n E) (fun s => s.2.1.length) invalidId n 0
    (nodes1, ([], [])) hinit (by simp) (fun i s _ h2 h3 => chordalStep_spec hE h3 (by omega))
  rw [Nat.zero_add] at hs
  obtain ⟨nodes, t, h⟩ := s
  have hmem : ∀ x y, HasArc t h x y ↔ x < n ∧ y ∈ fn nodes x := hs.arcs
  refine ⟨t, h, hs.sorted, ?_, ?_, ?_⟩
  · intro x y hxy
    obtain ⟨h1, h2⟩ := (hmem x y).1 hxy
    exact (hs.sound x y h1 h2).2.1
  · refine ⟨hE, ?_, ?_, ?_⟩
    · intro x y h1 h2
      obtain ⟨i, h3, _⟩ := (hEI x y h2).1 h1
      exact (hmem x y).2 ⟨ht x (List.mem_of_getElem? h3), hs.base x y h1 h2⟩
    · intro x y hxy
      obtain ⟨h1, h2⟩ := (hmem x y).1 hxy
      exact hs.sound x y h1 h2
    · intro x a b ha hb hmin hab
      obtain ⟨h1, h2⟩ := (hmem x a).1 ha
      obtain ⟨_, h3⟩ := (hmem x b).1 hb
      refine (hmem a b).2 ⟨(hs.sound x a h1 h2).2.1, ?_⟩
      cases hf : fn nodes x with
      | nil => rw [hf] at h2; cases h2
      | cons low rest =>
        have hst := hs.strict x h1
        rw [show fn (nodes, t, h).1 x = low :: rest from hf] at hst
        have hlow : a = low := by
          have h4 := hmin low ((hmem x low).2 ⟨h1, by rw [hf]; simp⟩)
          rw [hf] at h2
          rcases List.mem_cons.1 h2 with h2 | h2
          · exact h2
          · have := (List.pairwise_cons.1 hst).1 a h2; omega
        subst hlow
        rw [hf] at h3
        rcases List.mem_cons.1 h3 with h3 | h3
        · omega
        · exact hs.low x a rest h1 hf b h3
  · unfold chordalSupergraph
    simp only [e0, e1, Option.bind_eq_bind, Option.bind_some]
    have : forRange 0 n (nodes1, (([] : List Nat), ([] : List Nat))) chordalStep = _ := es
    rw [this]
    by_cases hk : t.length ≤ invalidId
    · rw [if_pos hk, if_pos hk]; rfl
    · rw [if_neg hk, if_neg hk]; rfl

end RK
