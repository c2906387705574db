import Verif.Proof.CchOk
import Verif.Spec.Vector
/-! # Property theorems C25, C26, C33 (customizable_contraction_hierarchy.cpp, the constructor) -/
namespace RK.Props
open Spec RK

/-- The arc from `x` to `y` (ranks) of the up graph. -/
def UpArc (c : Cch) (x y : Nat) : Prop := ∃ a : Nat, c.upTail[a]? = some x ∧ c.upHead[a]? = some y

/-- C25. Without filtering, the up arcs are exactly the pairs `x < y` of ranks which are joined by a path of the
undirected input graph whose inner nodes have rank below `x`; no pair occurs twice. -/
theorem C25_up_arcs_are_fill_pairs (order tail head : List Nat) (callable : Bool) (junk : Nat → Nat → Word) (c : Cch)
    (h : CchInput order tail head callable false) (hb : Cch.build order tail head callable false junk = some c) :
    AreInverse order c.rank ∧ c.order = order ∧
    (∀ x y, UpArc c x y ↔ FillPair c.rank tail head x y) ∧
    (∀ a b x y : Nat, c.upTail[a]? = some x → c.upHead[a]? = some y → c.upTail[b]? = some x → c.upHead[b]? = some y →
      a = b) := by
  obtain ⟨rt, rh, U, T, H, h1, h2, h3, h4, h5, h6, h7, h8, _⟩ := cch_built h hb
  obtain ⟨e1, e2⟩ := h8 rfl
  refine ⟨h1, h6, ?_, fun a b x y q1 q2 q3 q4 => h7.graph.up.sorted.inj q1 q2 q3 q4⟩
  intro x y
  rw [← fill_iff h2 h3, ← h5, ← e1, ← e2]
  rfl

/-- C25. The up graph is chordal: two upward neighbours of a node are joined by an arc. -/
theorem C25_closed_under_lower_triangles (order tail head : List Nat) (callable : Bool) (junk : Nat → Nat → Word)
    (c : Cch) (h : CchInput order tail head callable false)
    (hb : Cch.build order tail head callable false junk = some c) (x y z : Nat)
    (hy : UpArc c x y) (hz : UpArc c x z) (hyz : y < z) : UpArc c y z := by
  obtain ⟨_, _, hf, _⟩ := C25_up_arcs_are_fill_pairs order tail head callable junk c h hb
  rw [hf] at hy hz ⊢
  refine ⟨hyz, ?_⟩
  have p1 := innerPath_symm (fun _ _ h => Or.symm h) hy.2
  exact innerPath_append (isPath_of_lt p1 (Nat.le_of_lt hy.1)) hy.1 (isPath_of_lt hz.2 (Nat.le_of_lt hy.1))

/-- C25. Every input arc is mapped to the up arc between the ranks of its end points (with or without filtering),
and it is recorded whether it leads upward; loops are mapped to `invalid_id`. -/
theorem C25_input_arcs_are_mapped (order tail head : List Nat) (callable filter : Bool) (junk : Nat → Nat → Word)
    (c : Cch) (h : CchInput order tail head callable filter)
    (hb : Cch.build order tail head callable filter junk = some c)
    (i t hd : Nat) (ht : tail[i]? = some t) (hh : head[i]? = some hd) :
    ∃ x y, c.rank[t]? = some x ∧ c.rank[hd]? = some y ∧
      (t = hd → c.inputToCch[i]? = some invalidId) ∧
      (x < y → ∃ a : Nat, c.inputToCch[i]? = some a ∧ c.upTail[a]? = some x ∧ c.upHead[a]? = some y ∧
        c.inputUp.isSet i = some true) ∧
      (y < x → ∃ a : Nat, c.inputToCch[i]? = some a ∧ c.upTail[a]? = some y ∧ c.upHead[a]? = some x ∧
        c.inputUp.isSet i = some false) := by
  obtain ⟨rt, rh, U, T, H, h1, h2, h3, h4, h5, h6, h7, h8, _⟩ := cch_built h hb
  have hrl := h7.nodes
  obtain ⟨x, hx⟩ := rd_isSome (v := c.rank) (i := t) (by rw [hrl]; exact h.tail_lt t (List.mem_of_getElem? ht))
  obtain ⟨y, hy⟩ := rd_isSome (v := c.rank) (i := hd) (by rw [hrl]; exact h.head_lt hd (List.mem_of_getElem? hh))
  obtain ⟨m1, m2, m3⟩ := h7.map.at_ i x y (by rw [h2.2 i t ht]; exact hx) (by rw [h3.2 i hd hh]; exact hy)
  have hi : i < U.length := by
    have := h7.map.lenU; have := h2.1; have := rd_some_lt (v := tail) ht; omega
  refine ⟨x, y, hx, hy, ?_, ?_, ?_⟩
  · rintro rfl
    exact m1 (rd_congr_some hx hy)
  · intro hlt
    obtain ⟨a, a1, a2, a3, a4⟩ := m2 hlt
    exact ⟨a, a1, a2, a3, by rw [h7.upRep.isSet hi, a4]⟩
  · intro hlt
    obtain ⟨a, a1, a2, a3, a4⟩ := m3 hlt
    exact ⟨a, a1, a2, a3, by rw [h7.upRep.isSet hi, a4]⟩

/-- C25. The constructor succeeds exactly if there are at most 2^32-1 fill pairs. -/
theorem C25_succeeds_iff (order tail head : List Nat) (callable filter : Bool) (junk : Nat → Nat → Word)
    (h : CchInput order tail head callable filter) :
    ∃ rank, AreInverse order rank ∧
      ((∃ c, Cch.build order tail head callable filter junk = some c) ↔
        ∃ L : List (Nat × Nat), L.length < 2 ^ 32 ∧ ∀ x y, FillPair rank tail head x y → (x, y) ∈ L) := by
  obtain ⟨rank, rt, rh, T, H, h1, _, h3, h4, h5, h6, h7, h8⟩ := cchInput_spec h junk
  refine ⟨rank, h1, ?_⟩
  have hmem : ∀ x y, (x, y) ∈ T.zip H ↔ HasArc T H x y := by
    intro x y
    rw [List.mem_iff_getElem?]
    constructor
    · rintro ⟨a, ha⟩
      rw [List.getElem?_zip_eq_some] at ha
      exact ⟨a, ha.1, ha.2⟩
    · rintro ⟨a, h1, h2⟩
      exact ⟨a, List.getElem?_zip_eq_some.2 ⟨h1, h2⟩⟩
  have hinv : invalidId = 4294967295 := rfl
  constructor
  · rintro ⟨c, hc⟩
    rcases Nat.lt_or_ge invalidId T.length with hbig | hsm
    · rw [h7 hbig] at hc; cases hc
    · refine ⟨T.zip H, ?_, ?_⟩
      · rw [List.length_zip]; omega
      · intro x y hxy
        rw [hmem, h6, fill_iff h3 h4]; exact hxy
  · rintro ⟨L, hL, hall⟩
    have hnd : (T.zip H).Nodup := by
      rw [List.nodup_iff_pairwise_ne, List.pairwise_iff_getElem]
      intro i j hi hj hij heq
      have e1 : (T.zip H)[i]? = some (T.zip H)[i] := List.getElem?_eq_getElem hi
      have e2 : (T.zip H)[j]? = some (T.zip H)[i] := by rw [heq]; exact List.getElem?_eq_getElem hj
      rw [List.getElem?_zip_eq_some] at e1 e2
      have := h5.inj e1.1 e1.2 e2.1 e2.2
      omega
    have hsub : T.zip H ⊆ L := by
      rintro ⟨x, y⟩ hxy
      exact hall x y ((fill_iff h3 h4 x y).1 ((h6 x y).1 ((hmem x y).1 hxy)))
    have hle := (List.Nodup.subperm hnd hsub).length_le
    rw [List.length_zip] at hle
    have := h5.1
    obtain ⟨c, U, e, _⟩ := h8 (by omega)
    exact ⟨c, e⟩

/-- A square with a diagonal inserted by the elimination of node 3, some arcs in both directions, a loop and a
parallel arc. -/
private def exTail : List Nat := [0, 1, 2, 3, 0, 1, 1]
private def exHead : List Nat := [1, 2, 3, 0, 1, 1, 0]
private def exOrder : List Nat := [3, 1, 0, 2]

set_option maxRecDepth 10000 in
private theorem ex_input (filter : Bool) : CchInput exOrder exTail exHead true filter := by
  refine ⟨by unfold IsPermutation; decide, by decide, by decide, by decide, by decide, by decide, Or.inl rfl⟩

set_option maxRecDepth 10000 in
example : (Cch.build exOrder exTail exHead true false (fun _ _ => 0xAAAAAAAAAAAAAAAA)).map
    (fun c => (c.upTail, c.upHead, c.inputToCch, c.parent)) =
    some ([0, 0, 1, 1, 2], [2, 3, 2, 3, 3], [2, 3, 1, 0, 2, invalidId, 2], [2, 2, 3, invalidId]) := by decide +kernel

/-- C26. Without filtering, the parent of a node is its lowest upward neighbour, and `invalid_id` if it has none. -/
theorem C26_parent_is_lowest_upward_neighbour (order tail head : List Nat) (callable : Bool) (junk : Nat → Nat → Word)
    (c : Cch) (h : CchInput order tail head callable false)
    (hb : Cch.build order tail head callable false junk = some c) :
    c.parent.length = order.length ∧ ∀ x, x < order.length → ∃ p, c.parent[x]? = some p ∧
      ((p = invalidId ∧ ∀ y, ¬ UpArc c x y) ∨ (UpArc c x p ∧ ∀ y, UpArc c x y → p ≤ y)) := by
  obtain ⟨rt, rh, U, T, H, h1, h2, h3, h4, h5, h6, h7, h8, _⟩ := cch_built h hb
  obtain ⟨e1, e2⟩ := h8 rfl
  have hf : ∀ x y, UpArc c x y ↔ Fill rt rh x y := by
    intro x y; rw [← h5, ← e1, ← e2]; rfl
  refine ⟨h7.parentLen, ?_⟩
  intro x hx
  simp only [hf]
  exact h7.parent x hx

/-- The parent in the elimination tree; roots are marked with `invalid_id`. -/
def parentOf (c : Cch) (x : Nat) : Option Nat := c.parent[x]?.bind fun p => if p = invalidId then none else some p

private theorem fill_ancestor {n : Nat} {rt rh : List Nat} {c : Cch} {U : List Bool} (hn : n ≤ invalidId)
    (h : CchOk n rt rh c U) : ∀ k x y, y - x ≤ k → Fill rt rh x y → y < n → Ancestor (parentOf c) x y := by
  intro k
  induction k with
  | zero => intro x y hk hf; have := hf.1; omega
  | succ k ih =>
    intro x y hk hf hy
    obtain ⟨p, hp, hc⟩ := h.parent x (by have := hf.1; omega)
    rcases hc with ⟨_, hno⟩ | ⟨hxp, hle⟩
    · exact absurd hf (hno y)
    · have hpy := hle y hf
      have hpar : parentOf c x = some p := by
        have hp' : c.parent[x]? = some p := hp
        unfold parentOf
        rw [hp', Option.bind_some, if_neg (by omega)]
      by_cases hpe : p = y
      · subst hpe; exact .up hpar .refl
      · have hlt := hxp.1
        refine .up hpar (ih p y (by omega) ⟨by omega, ?_⟩ hy)
        have p1 := innerPath_symm (fun _ _ h => Or.symm h) hxp.2
        exact innerPath_append (isPath_of_lt p1 (by omega)) hlt (isPath_of_lt hf.2 (by omega))

private theorem Ancestor.trans {parent : Nat → Option Nat} {x y z : Nat} (h1 : Ancestor parent x y)
    (h2 : Ancestor parent y z) : Ancestor parent x z := by
  induction h1 with
  | refl => exact h2
  | up hp _ ih => exact .up hp (ih h2)

/-- C26. Every node that can be reached by following up arcs is an ancestor in the elimination tree, with or without
filtering. -/
theorem C26_upward_reachable_are_ancestors (order tail head : List Nat) (callable filter : Bool)
    (junk : Nat → Nat → Word) (c : Cch) (hn : order.length < 2 ^ 32) (h : CchInput order tail head callable filter)
    (hb : Cch.build order tail head callable filter junk = some c) (x y : Nat)
    (hr : InnerPath (UpArc c) (fun _ => True) x y) : Ancestor (parentOf c) x y := by
  obtain ⟨rt, rh, U, T, H, h1, h2, h3, h4, h5, h6, h7, _⟩ := cch_built h hb
  have hinv : invalidId = 4294967295 := rfl
  have step : ∀ x y, UpArc c x y → Ancestor (parentOf c) x y := fun x y hxy =>
    fill_ancestor (by omega) h7 _ x y (Nat.le_refl _) (h7.sound x y hxy) (h7.graph.up.up x y hxy).2
  induction hr with
  | edge he => exact step _ _ he
  | step he _ _ ih => exact Ancestor.trans (step _ _ he) ih

/-- C26. Conversely, without filtering every proper ancestor can be reached by following up arcs. -/
theorem C26_ancestors_are_upward_reachable (order tail head : List Nat) (callable : Bool)
    (junk : Nat → Nat → Word) (c : Cch) (h : CchInput order tail head callable false)
    (hb : Cch.build order tail head callable false junk = some c) (x y : Nat)
    (ha : Ancestor (parentOf c) x y) : x = y ∨ InnerPath (UpArc c) (fun _ => True) x y := by
  obtain ⟨hlen, hpar⟩ := C26_parent_is_lowest_upward_neighbour order tail head callable junk c h hb
  induction ha with
  | refl => exact Or.inl rfl
  | @up x p y hp _ ih =>
    right
    have hup : UpArc c x p := by
      unfold parentOf at hp
      obtain ⟨q, hq, hq'⟩ := Option.bind_eq_some_iff.1 hp
      obtain ⟨q', e, hc⟩ := hpar x (by rw [← hlen]; exact rd_some_lt (v := c.parent) hq)
      cases (hq.symm.trans e : some q = some q')
      by_cases hqi : q = invalidId
      · rw [if_pos hqi] at hq'; cases hq'
      · rw [if_neg hqi] at hq'
        cases hq'
        rcases hc with ⟨h', _⟩ | ⟨h', _⟩
        · exact absurd h' hqi
        · exact h'
    rcases ih with rfl | ih
    · exact .edge hup
    · exact .step hup trivial ih

/-- C33 (structure). With filtering, the up arcs are exactly those fill pairs which are joined by a *directed* path
through lower nodes in at least one of the two directions; they are a subset of the unfiltered arcs, and the
elimination tree is the same. -/
theorem C33_filtered_arcs (order tail head : List Nat) (callable callable' : Bool) (junk junk' : Nat → Nat → Word)
    (c c' : Cch) (h : CchInput order tail head callable true) (hb : Cch.build order tail head callable true junk = some c)
    (h' : CchInput order tail head callable' false) (hb' : Cch.build order tail head callable' false junk' = some c') :
    (∀ x y, UpArc c x y ↔ DirectedFillPair c.rank tail head x y) ∧
    (∀ x y, UpArc c x y → UpArc c' x y) ∧ c.rank = c'.rank ∧ c.parent = c'.parent := by
  obtain ⟨rt, rh, U, T, H, h1, h2, h3, h4, h5, h6, h7, _, h8⟩ := cch_built h hb
  obtain ⟨rt', rh', U', T', H', h1', h2', h3', h4', h5', h6', h7', h8', _⟩ := cch_built h' hb'
  obtain ⟨e1, e2⟩ := h8' rfl
  have hrank : c.rank = c'.rank := by
    apply list_ext_rd
    · rw [← h1.1, ← h1'.1]
    · intro j _
      have hh : ∀ i, rd c.rank j = some i ↔ rd c'.rank j = some i := fun i => (h1.2 i j).symm.trans (h1'.2 i j)
      cases e : rd c.rank j with
      | none =>
        cases e' : rd c'.rank j with
        | none => rfl
        | some i => rw [(hh i).2 e'] at e; cases e
      | some i => exact ((hh i).1 e).symm
  have hrt : rt = rt' := by
    apply list_ext_rd
    · rw [h2.1, h2'.1]
    · intro i _
      rcases Nat.lt_or_ge i tail.length with hi | hi
      · obtain ⟨t, et⟩ := rd_isSome (v := tail) hi
        rw [h2.2 i t et, h2'.2 i t et, hrank]
      · have a1 : rd rt i = none := List.getElem?_eq_none (by rw [h2.1]; exact hi)
        have a2 : rd rt' i = none := List.getElem?_eq_none (by rw [h2'.1]; exact hi)
        rw [a1, a2]
  have hrh : rh = rh' := by
    apply list_ext_rd
    · rw [h3.1, h3'.1]
    · intro i _
      rcases Nat.lt_or_ge i head.length with hi | hi
      · obtain ⟨t, et⟩ := rd_isSome (v := head) hi
        rw [h3.2 i t et, h3'.2 i t et, hrank]
      · have a1 : rd rh i = none := List.getElem?_eq_none (by rw [h3.1]; exact hi)
        have a2 : rd rh' i = none := List.getElem?_eq_none (by rw [h3'.1]; exact hi)
        rw [a1, a2]
  subst hrt; subst hrh
  refine ⟨fun x y => ((h8 rfl x y).trans (dfill_iff h2 h3 x y)), ?_, hrank, ?_⟩
  · intro x y hxy
    have := h7.sound x y hxy
    rw [← h5', ← e1, ← e2] at this
    exact this
  · apply list_ext_rd
    · rw [h7.parentLen, h7'.parentLen]
    · intro x _
      rcases Nat.lt_or_ge x order.length with hx | hx
      · obtain ⟨p, q1, q2⟩ := h7.parent x hx
        obtain ⟨p', q1', q2'⟩ := h7'.parent x hx
        rw [q1, q1']
        congr 1
        rcases q2 with ⟨q2, q3⟩ | ⟨q2, q3⟩ <;> rcases q2' with ⟨q2', q3'⟩ | ⟨q2', q3'⟩
        · omega
        · exact absurd q2' (q3 p')
        · exact absurd q2 (q3' p)
        · have := q3 p' q2'; have := q3' p q2; omega
      · have a1 : rd c.parent x = none := List.getElem?_eq_none (by rw [h7.parentLen]; exact hx)
        have a2 : rd c'.parent x = none := List.getElem?_eq_none (by rw [h7'.parentLen]; exact hx)
        rw [a1, a2]

/-- Here two arcs lead into node 0 only, so that the inserted arc between 1 and 2 is always infinite. -/
example : CchInput [0, 1, 2] [1, 2] [0, 0] true true := by
  refine ⟨by unfold IsPermutation; decide, by decide, by decide, by decide, by decide, by decide, Or.inl rfl⟩

set_option maxRecDepth 10000 in
example : ((Cch.build [0, 1, 2] [1, 2] [0, 0] true true (fun _ _ => 0)).map fun c => (c.upTail, c.upHead)) =
      some ([0, 0], [1, 2]) ∧
    ((Cch.build [0, 1, 2] [1, 2] [0, 0] true false (fun _ _ => 0)).map fun c => (c.upTail, c.upHead)) =
      some ([0, 0, 1], [1, 2, 2]) := by decide +kernel

/-- The code as it is fails for an empty `log_message` when it does not filter: the function is called without a
check (line 453). -/
theorem C25_empty_log_message_undefined (order tail head : List Nat) (junk : Nat → Nat → Word) :
    Cch.build order tail head false false junk = none := by
  unfold Cch.build
  simp only [Bool.or_self, Option.bind_eq_bind]
  simp [check]

/-- With zero nodes the checks and statistics of the constructor access memory out of bounds. -/
theorem C25_no_nodes_undefined (tail head : List Nat) (callable filter : Bool) (junk : Nat → Nat → Word) :
    Cch.build [] tail head callable filter junk = none := by
  unfold Cch.build
  simp only [Option.bind_eq_bind]
  simp [check]

end RK.Props
