import Verif.Proof.OsmSort
import Verif.Proof.CchUp
import Verif.Model.OsmTurns
import Verif.Spec.OsmTurns
/-! # Proofs about forbidden turns -/
namespace RK.Osm
open Spec BitVector

variable {fl : FloatOps} {σ : Type}

/-! ### Loops -/

theorem forN_forEach {τ β : Type} {f : τ → Nat → Option τ} {g : τ → β → Option τ} : ∀ (l : List β) (b : Nat) (s : τ),
    (∀ k x s, l[k]? = some x → f s (b + k) = g s x) → forN f b l.length s = forEach l s g
  | [], _, _, _ => rfl
  | x :: l, b, s, h => by
    rw [List.length_cons, forN, forEach, show f s b = g s x from h 0 x s rfl]
    congr 1
    funext s'
    refine forN_forEach l (b + 1) s' (fun k y s hk => ?_)
    rw [show b + 1 + k = b + (k + 1) by omega]
    exact h (k + 1) y s hk

theorem forRange_forEach {τ β : Type} {f : τ → Nat → Option τ} {g : τ → β → Option τ} {l : List β} {b e : Nat} (he : e = b + l.length) (s : τ)
    (h : ∀ k x s, l[k]? = some x → f s (b + k) = g s x) : forRange b e s f = forEach l s g := by
  unfold forRange
  rw [he, Nat.add_sub_cancel_left]
  exact forN_forEach l b s h

theorem forEach_congr {τ β : Type} {f g : τ → β → Option τ} : ∀ {l : List β}, (∀ x ∈ l, ∀ s, f s x = g s x) → ∀ s, forEach l s f = forEach l s g
  | [], _, _ => rfl
  | x :: l, h, s => by
    rw [forEach, forEach, h x List.mem_cons_self]
    congr 1
    funext s'
    exact forEach_congr (fun y hy => h y (List.mem_cons_of_mem _ hy)) s'

theorem forEach_filter {β : Type} (p : β → Bool) : ∀ (l acc : List β),
    forEach l acc (fun acc a => some (if p a then acc ++ [a] else acc)) = some (acc ++ l.filter p)
  | [], acc => by simp [forEach]
  | x :: l, acc => by
    rw [forEach, Option.bind_some, forEach_filter p l, List.filter_cons]
    cases p x <;> simp

theorem forEach_unit {β : Type} {f : Unit → β → Option Unit} : ∀ {l : List β}, (∀ x ∈ l, f () x = some ()) → forEach l () f = some ()
  | [], _ => rfl
  | x :: l, h => by
    rw [forEach, h x List.mem_cons_self, Option.bind_some]
    exact forEach_unit fun y hy => h y (List.mem_cons_of_mem _ hy)

/-- A loop that appends something to a list in each step. -/
theorem forEach_collect {β γ : Type} {f : List γ → β → Option (List γ)} {P : β → List γ → Prop} : ∀ {l : List β},
    (∀ x ∈ l, ∃ d, P x d ∧ ∀ acc, f acc x = some (acc ++ d)) →
    ∃ ds, List.Forall₂ P l ds ∧ ∀ acc, forEach l acc f = some (acc ++ ds.flatten)
  | [], _ => ⟨[], .nil, fun acc => by simp [forEach]⟩
  | x :: l, h => by
    obtain ⟨d, h1, h2⟩ := h x List.mem_cons_self
    obtain ⟨ds, h3, h4⟩ := forEach_collect fun y hy => h y (List.mem_cons_of_mem _ hy)
    refine ⟨d :: ds, .cons h1 h3, fun acc => ?_⟩
    rw [forEach, h2, Option.bind_some, h4, List.flatten_cons, List.append_assoc]

theorem forall₂_mem {β γ : Type} {R : β → γ → Prop} {l : List β} {m : List γ} (h : List.Forall₂ R l m) :
    (∀ x ∈ l, ∃ y ∈ m, R x y) ∧ ∀ y ∈ m, ∃ x ∈ l, R x y := by
  induction h with
  | nil => simp
  | @cons a b l m h1 _ ih =>
    refine ⟨?_, ?_⟩
    · intro x hx
      rcases List.mem_cons.1 hx with rfl | hx
      · exact ⟨b, List.mem_cons_self, h1⟩
      · obtain ⟨y, hy, h⟩ := ih.1 x hx; exact ⟨y, List.mem_cons_of_mem _ hy, h⟩
    · intro y hy
      rcases List.mem_cons.1 hy with rfl | hy
      · exact ⟨a, List.mem_cons_self, h1⟩
      · obtain ⟨x, hx, h⟩ := ih.2 y hy; exact ⟨x, List.mem_cons_of_mem _ hx, h⟩

/-- The elements of the lists that a loop appends. -/
theorem flatten_mem {β γ : Type} {Q : β → γ → Prop} {l : List β} {ds : List (List γ)}
    (h : List.Forall₂ (fun x d => ∀ y, y ∈ d ↔ Q x y) l ds) (y : γ) : y ∈ ds.flatten ↔ ∃ x ∈ l, Q x y := by
  rw [List.mem_flatten]
  constructor
  · rintro ⟨d, hd, hy⟩
    obtain ⟨x, hx, h1⟩ := (forall₂_mem h).2 d hd
    exact ⟨x, hx, (h1 y).1 hy⟩
  · rintro ⟨x, hx, hq⟩
    obtain ⟨d, hd, h1⟩ := (forall₂_mem h).1 x hx
    exact ⟨d, hd, (h1 y).2 hq⟩

theorem flatten_length {β γ : Type} {l : List β} {ds : List (List γ)} {K : Nat} (h : List.Forall₂ (fun _ d => d.length ≤ K) l ds) :
    ds.flatten.length ≤ l.length * K := by
  induction h with
  | nil => simp
  | cons h1 _ ih => rw [List.flatten_cons, List.length_append, List.length_cons, Nat.add_mul]; omega

/-! ### Positions by key -/

/-- The positions of each key are consecutive. -/
def Slices (gr : List Nat × List Nat) (v : List Nat) (n : Nat) : Prop :=
  ∀ w, w < n → ∃ (b : Nat) (l : List Nat), rd gr.2 w = some b ∧ rd gr.2 (w + 1) = some (b + l.length) ∧ (∀ (k x : Nat), l[k]? = some x → rd gr.1 (b + k) = some x) ∧
    l.Nodup ∧ (∀ i, i ∈ l ↔ rd v i = some w) ∧ b + l.length ≤ v.length

theorem groupBy_ok {stdSort : SortFn} (hs : StdSort stdSort) {v : List Nat} {n : Nat} (hv : ∀ x ∈ v, x < n) :
    ∃ gr, groupBy stdSort v n = some gr ∧ Slices gr v n := by
  obtain ⟨p, e1, h1, _⟩ := computeMaybeStable_spec (stdSort := stdSort) (gk := fun x : Nat => x) hv false (Or.inr hs)
  have hp := isPerm_iff_perm.2 h1.1
  have hpl : p.length = v.length := by simpa using h1.2.1
  obtain ⟨r, e2, hrl, hr⟩ := applyPermutation_spec hp hpl
  obtain ⟨hperm, hsort⟩ := perm_of_sortPerm hrl h1 hr
  obtain ⟨idx, e3, hil, hi⟩ := invertVector_spec (v := r) (n := n) hsort (fun x hx => hv x (hperm.mem_iff.1 hx))
  refine ⟨(p, idx), ?_, ?_⟩
  · unfold groupBy
    unfold computeSortPermutationUsingKey
    simp only [e1, e2, e3, Option.bind_eq_bind, Option.bind_some]
  intro w hw
  have hm := cLt_mono r (show w ≤ w + 1 by omega)
  have hle : cLt r (w + 1) ≤ p.length := by
    rw [hpl, ← hrl]; exact List.countP_le_length
  have hlen : ((p.drop (cLt r w)).take (cLt r (w + 1) - cLt r w)).length = cLt r (w + 1) - cLt r w := by
    rw [List.length_take, List.length_drop]; omega
  refine ⟨cLt r w, (p.drop (cLt r w)).take (cLt r (w + 1) - cLt r w), hi w (by omega), ?_, ?_, ?_, ?_, ?_⟩
  · rw [hlen, show cLt r w + (cLt r (w + 1) - cLt r w) = cLt r (w + 1) by omega]; exact hi _ (by omega)
  · intro k x hk
    have hk' : k < cLt r (w + 1) - cLt r w := by rw [← hlen]; exact (List.getElem?_eq_some_iff.1 hk).1
    rw [List.getElem?_take_of_lt hk', List.getElem?_drop] at hk
    exact hk
  · exact (hp.nodup.sublist (List.drop_sublist _ _)).sublist (List.take_sublist _ _)
  · intro i
    rw [List.mem_iff_getElem?]
    constructor
    · rintro ⟨k, hk⟩
      have hk' : k < cLt r (w + 1) - cLt r w := by rw [← hlen]; exact (List.getElem?_eq_some_iff.1 hk).1
      rw [List.getElem?_take_of_lt hk', List.getElem?_drop] at hk
      have hrk := hr _ _ hk
      obtain ⟨y, hy⟩ := rd_isSome (v := r) (i := cLt r w + k) (by omega)
      have a1 := sorted_cLt (k := w) hsort hy
      have a2 := sorted_cLt (k := w + 1) hsort hy
      rw [← hrk, hy]
      congr 1; omega
    · intro hv'
      have hil := rd_some_lt hv'
      obtain ⟨k, _, hk⟩ := hp.surj (x := i) (by omega)
      have hrk := hr _ _ hk
      rw [hv'] at hrk
      have a1 := sorted_cLt (k := w) hsort hrk
      have a2 := sorted_cLt (k := w + 1) hsort hrk
      refine ⟨k - cLt r w, ?_⟩
      rw [List.getElem?_take_of_lt (by omega), List.getElem?_drop, show cLt r w + (k - cLt r w) = k by omega]
      exact hk
  · rw [hlen]; omega

theorem forEach_snoc {β : Type} : ∀ (l acc : List β), forEach l acc (fun acc a => some (acc ++ [a])) = some (acc ++ l)
  | [], acc => by simp [forEach]
  | x :: l, acc => by rw [forEach, Option.bind_some, forEach_snoc l]; simp

theorem group_ok {gr : List Nat × List Nat} {v : List Nat} {n w : Nat} (h : Slices gr v n) (hw : w < n) :
    ∃ l, group gr w = some l ∧ l.Nodup ∧ (∀ i, i ∈ l ↔ rd v i = some w) := by
  obtain ⟨b, l, e1, e2, h1, h2, h3, _⟩ := h w hw
  refine ⟨l, ?_, h2, h3⟩
  unfold group
  simp only [e1, e2, Option.bind_eq_bind, Option.bind_some]
  rw [forRange_forEach (l := l) (g := fun acc a => some (acc ++ [a])) rfl _ (fun k x s hk => by rw [h1 k x hk, Option.bind_some]), forEach_snoc]
  rfl

/-- The arcs out of a node. -/
theorem outRange {tail fo : List Nat} {n : Nat} (hs : tail.Pairwise (· ≤ ·)) (hlt : ∀ x ∈ tail, x < n) (h : invertVector tail n = some fo)
    {v : Nat} (hv : v < n) : ∃ (b : Nat) (l : List Nat), rd fo v = some b ∧ rd fo (v + 1) = some (b + l.length) ∧ (∀ (k x : Nat), l[k]? = some x → b + k = x) ∧
      l.Nodup ∧ ∀ i, i ∈ l ↔ rd tail i = some v := by
  obtain ⟨idx, e, hl, hi⟩ := invertVector_spec hs hlt
  rw [h] at e
  cases e
  have hm := cLt_mono tail (show v ≤ v + 1 by omega)
  have hle : cLt tail (v + 1) ≤ tail.length := List.countP_le_length
  refine ⟨cLt tail v, List.range' (cLt tail v) (cLt tail (v + 1) - cLt tail v), hi v (by omega), ?_, ?_, List.nodup_range', ?_⟩
  · rw [List.length_range', show cLt tail v + (cLt tail (v + 1) - cLt tail v) = cLt tail (v + 1) by omega]; exact hi _ (by omega)
  · intro k x hk
    obtain ⟨hk1, hk2⟩ := List.getElem?_eq_some_iff.1 hk
    rw [← hk2, List.getElem_range']; omega
  · intro i
    rw [List.mem_range'_1]
    constructor
    · rintro ⟨a, b⟩
      obtain ⟨y, hy⟩ := rd_isSome (v := tail) (i := i) (by omega)
      have a1 := sorted_cLt (k := v) hs hy
      have a2 := sorted_cLt (k := v + 1) hs hy
      rw [hy]; congr 1; omega
    · intro hy
      have a1 := sorted_cLt (k := v) hs hy
      have a2 := sorted_cLt (k := v + 1) hs hy
      omega

/-! ### The graph -/

/-- The graph, and the arcs it was made of. -/
structure TurnsOk (E : Env fl) (mp : Mappers) (Bm Br Bw : List Bool) (A : List MapArc) (r : RoutingGraph fl) (tail : List Nat) : Prop where
  env : EnvOk E mp Bm Br Bw
  graph : GraphIs E Br A r tail
  ends : ∀ a ∈ A, at' Br a.tail = true ∧ at' Br a.head = true
  ways : ∀ a ∈ A, at' Bw a.way = true
  sorted : tail.Pairwise (· ≤ ·)
  geo : E.geo ≠ .none
  count : A.length < u32

/-- The vectors that are read. -/
def turnGraph (r : RoutingGraph fl) (tail : List Nat) : TurnGraph := ⟨r.firstOut, tail, r.head, r.way⟩

section
variable {E : Env fl} {mp : Mappers} {Bm Br Bw : List Bool} {A : List MapArc} {r : RoutingGraph fl} {tail : List Nat}

theorem rd_arcs (f : MapArc → Nat) {i y : Nat} : rd (A.map f) i = some y ↔ ∃ a, A[i]? = some a ∧ f a = y := by
  rw [rd, List.getElem?_map, Option.map_eq_some_iff]

theorem TurnsOk.headIs (h : TurnsOk E mp Bm Br Bw A r tail) {v : Nat} (hv : at' Br v = true) (i : Nat) :
    rd r.head i = some (E.locR v) ↔ ∃ a, A[i]? = some a ∧ a.head = v := by
  rw [h.graph.head, rd_arcs]
  constructor
  · rintro ⟨a, h1, h2⟩
    refine ⟨a, h1, rk_inj (h.ends a (List.mem_of_getElem? h1)).2 hv ?_⟩
    rw [← h.env.lr]; exact h2
  · rintro ⟨a, h1, rfl⟩; exact ⟨a, h1, rfl⟩

theorem TurnsOk.tailIs (h : TurnsOk E mp Bm Br Bw A r tail) {v : Nat} (hv : at' Br v = true) (i : Nat) :
    rd tail i = some (E.locR v) ↔ ∃ a, A[i]? = some a ∧ a.tail = v := by
  rw [h.graph.tail, rd_arcs]
  constructor
  · rintro ⟨a, h1, h2⟩
    refine ⟨a, h1, rk_inj (h.ends a (List.mem_of_getElem? h1)).1 hv ?_⟩
    rw [← h.env.lr]; exact h2
  · rintro ⟨a, h1, rfl⟩; exact ⟨a, h1, rfl⟩

theorem TurnsOk.wayIs (h : TurnsOk E mp Bm Br Bw A r tail) {w : Nat} (hw : at' Bw w = true) (i : Nat) :
    rd r.way i = some (E.locW w) ↔ ∃ a, A[i]? = some a ∧ a.way = w := by
  rw [h.graph.way, rd_arcs]
  constructor
  · rintro ⟨a, h1, h2⟩
    refine ⟨a, h1, rk_inj (h.ways a (List.mem_of_getElem? h1)) hw ?_⟩
    rw [← h.env.lw]; exact h2
  · rintro ⟨a, h1, rfl⟩; exact ⟨a, h1, rfl⟩

theorem TurnsOk.node_lt (h : TurnsOk E mp Bm Br Bw A r tail) {v : Nat} (hv : at' Br v = true) : E.locR v < Br.count true := by
  rw [h.env.lr]; exact rk_lt_count hv

theorem TurnsOk.way_lt (h : TurnsOk E mp Bm Br Bw A r tail) {w : Nat} (hw : at' Bw w = true) : E.locW w < Bw.count true := by
  rw [h.env.lw]; exact rk_lt_count hw

theorem TurnsOk.headLength (h : TurnsOk E mp Bm Br Bw A r tail) : r.head.length = A.length := by rw [h.graph.head]; simp
theorem TurnsOk.wayLength (h : TurnsOk E mp Bm Br Bw A r tail) : r.way.length = A.length := by rw [h.graph.way]; simp

theorem TurnsOk.head_lt (h : TurnsOk E mp Bm Br Bw A r tail) : ∀ x ∈ r.head, x < Br.count true := by
  rw [h.graph.head]
  intro x hx
  obtain ⟨a, ha, rfl⟩ := List.mem_map.1 hx
  exact h.node_lt (h.ends a ha).2

theorem TurnsOk.tail_lt (h : TurnsOk E mp Bm Br Bw A r tail) : ∀ x ∈ tail, x < Br.count true := by
  rw [h.graph.tail]
  intro x hx
  obtain ⟨a, ha, rfl⟩ := List.mem_map.1 hx
  exact h.node_lt (h.ends a ha).1

theorem TurnsOk.ways_lt (h : TurnsOk E mp Bm Br Bw A r tail) : ∀ x ∈ r.way, x < Bw.count true := by
  rw [h.graph.way]
  intro x hx
  obtain ⟨a, ha, rfl⟩ := List.mem_map.1 hx
  exact h.way_lt (h.ways a ha)

theorem TurnsOk.out (h : TurnsOk E mp Bm Br Bw A r tail) {v : Nat} (hv : at' Br v = true) :
    ∃ (b : Nat) (l : List Nat), rd r.firstOut (E.locR v) = some b ∧ rd r.firstOut (E.locR v + 1) = some (b + l.length) ∧
      (∀ (k x : Nat), l[k]? = some x → b + k = x) ∧ l.Nodup ∧ ∀ i, i ∈ l ↔ Begins A v i := by
  have := h.graph.firstOut
  rw [← h.graph.tail] at this
  obtain ⟨b, l, h1, h2, h3, h4, h5⟩ := outRange h.sorted h.tail_lt this (h.node_lt hv)
  exact ⟨b, l, h1, h2, h3, h4, fun i => by rw [h5, h.tailIs hv]; rfl⟩

theorem enters_node (h : TurnsOk E mp Bm Br Bw A r tail) {w v i : Nat} (he : Enters A w v i) : at' Br v = true ∧ at' Bw w = true ∧ i < A.length := by
  obtain ⟨a, h1, rfl, rfl⟩ := he
  have ha := List.mem_of_getElem? h1
  exact ⟨(h.ends a ha).2, h.ways a ha, (List.getElem?_eq_some_iff.1 h1).1⟩

theorem leaves_node (h : TurnsOk E mp Bm Br Bw A r tail) {w v i : Nat} (he : Leaves A w v i) : at' Br v = true ∧ at' Bw w = true ∧ i < A.length := by
  obtain ⟨a, h1, rfl, rfl⟩ := he
  have ha := List.mem_of_getElem? h1
  exact ⟨(h.ends a ha).1, h.ways a ha, (List.getElem?_eq_some_iff.1 h1).1⟩

theorem enters_iff (h : TurnsOk E mp Bm Br Bw A r tail) {w v : Nat} (hv : at' Br v = true) (hw : at' Bw w = true) (i : Nat) :
    Enters A w v i ↔ rd r.way i = some (E.locW w) ∧ rd r.head i = some (E.locR v) := by
  rw [h.wayIs hw, h.headIs hv]
  constructor
  · rintro ⟨a, h1, h2, h3⟩; exact ⟨⟨a, h1, h2⟩, ⟨a, h1, h3⟩⟩
  · rintro ⟨⟨a, h1, h2⟩, ⟨b, h3, h4⟩⟩
    rw [h1] at h3; cases h3
    exact ⟨a, h1, h2, h4⟩

theorem leaves_iff (h : TurnsOk E mp Bm Br Bw A r tail) {w v : Nat} (hv : at' Br v = true) (hw : at' Bw w = true) (i : Nat) :
    Leaves A w v i ↔ rd r.way i = some (E.locW w) ∧ rd tail i = some (E.locR v) := by
  rw [h.wayIs hw, h.tailIs hv]
  constructor
  · rintro ⟨a, h1, h2, h3⟩; exact ⟨⟨a, h1, h2⟩, ⟨a, h1, h3⟩⟩
  · rintro ⟨⟨a, h1, h2⟩, ⟨b, h3, h4⟩⟩
    rw [h1] at h3; cases h3
    exact ⟨a, h1, h2, h4⟩

/-! ### Candidates -/

theorem fromCandidates_ok (h : TurnsOk E mp Bm Br Bw A r tail) {byHead : List Nat × List Nat} (hb : Slices byHead r.head (Br.count true))
    {v w : Nat} (hv : at' Br v = true) (hw : at' Bw w = true) :
    ∃ l, fromCandidates (turnGraph r tail) byHead (E.locR v) (E.locW w) = some l ∧ l.Nodup ∧ ∀ i, i ∈ l ↔ Enters A w v i := by
  obtain ⟨b, l, e1, e2, h1, h2, h3, h4⟩ := hb _ (h.node_lt hv)
  have hl : ∀ i, i ∈ l.filter (fun a => decide (rd r.way a = some (E.locW w))) ↔ Enters A w v i := by
    intro i
    rw [List.mem_filter, h3, enters_iff h hv hw, decide_eq_true_eq, and_comm]
  refine ⟨l.filter fun a => decide (rd r.way a = some (E.locW w)), ?_, h2.sublist List.filter_sublist, hl⟩
  unfold fromCandidates
  simp only [e1, e2, Option.bind_eq_bind, Option.bind_some]
  rw [forRange_forEach (l := l) (g := fun acc a => some (if decide (rd r.way a = some (E.locW w)) then acc ++ [a] else acc)) rfl, forEach_filter]
  · rw [List.nil_append, Option.bind_some, forEach_unit, Option.bind_some]
    intro a ha
    have := ((hl a).1 ha)
    rw [enters_iff h hv hw] at this
    change (rd r.head a).bind _ = _
    rw [this.2, Option.bind_some]
    simp [check]
  · intro k x s hk
    have hk' : k < l.length := (List.getElem?_eq_some_iff.1 hk).1
    have hx := (h3 x).1 (List.mem_of_getElem? hk)
    have hxl := rd_some_lt hx
    have c1 : decide (b + k < (turnGraph r tail).head.length) = true := decide_eq_true (show b + k < r.head.length by omega)
    have c2 : decide (x < (turnGraph r tail).head.length) = true := decide_eq_true hxl
    obtain ⟨wa, hwa⟩ := rd_isSome (v := r.way) (i := x) (by rw [h.wayLength, ← h.headLength]; omega)
    rw [c1, check_true, Option.bind_some, h1 k x hk, Option.bind_some, c2, check_true, Option.bind_some]
    change (rd r.way x).bind _ = _
    rw [hwa, Option.bind_some]
    simp

theorem toCandidates_ok (h : TurnsOk E mp Bm Br Bw A r tail) {v w : Nat} (hv : at' Br v = true) (hw : at' Bw w = true) :
    ∃ l, toCandidates (turnGraph r tail) (E.locR v) (E.locW w) = some l ∧ l.Nodup ∧ ∀ i, i ∈ l ↔ Leaves A w v i := by
  obtain ⟨b, l, e1, e2, h1, h2, h3⟩ := h.out hv
  have hl : ∀ i, i ∈ l.filter (fun a => decide (rd r.way a = some (E.locW w))) ↔ Leaves A w v i := by
    intro i
    rw [List.mem_filter, h3, leaves_iff h hv hw, decide_eq_true_eq, and_comm, h.tailIs hv]
    rfl
  refine ⟨l.filter fun a => decide (rd r.way a = some (E.locW w)), ?_, h2.sublist List.filter_sublist, hl⟩
  unfold toCandidates
  have e1' : rd (turnGraph r tail).firstOut (E.locR v) = some b := e1
  have e2' : rd (turnGraph r tail).firstOut (E.locR v + 1) = some (b + l.length) := e2
  simp only [e1', e2', Option.bind_eq_bind, Option.bind_some]
  rw [forRange_forEach (l := l) (g := fun acc a => some (if decide (rd r.way a = some (E.locW w)) then acc ++ [a] else acc)) rfl, forEach_filter]
  · rw [List.nil_append, Option.bind_some, forEach_unit, Option.bind_some]
    intro a ha
    have := ((hl a).1 ha)
    rw [leaves_iff h hv hw] at this
    change (rd tail a).bind _ = _
    rw [this.2, Option.bind_some]
    simp [check]
  · intro k x s hk
    obtain ⟨a, ha, _⟩ := (h3 x).1 (List.mem_of_getElem? hk)
    have hxl : x < A.length := (List.getElem?_eq_some_iff.1 ha).1
    have c2 : decide (x < (turnGraph r tail).head.length) = true :=
      decide_eq_true (show x < r.head.length by rw [h.headLength]; exact hxl)
    obtain ⟨wa, hwa⟩ := rd_isSome (v := r.way) (i := x) (by rw [h.wayLength]; omega)
    rw [h1 k x hk, c2, check_true, Option.bind_some]
    change (rd r.way x).bind _ = _
    rw [hwa, Option.bind_some]
    simp

/-! ### Mandatory turns -/

theorem positions_count {P : MapArc → Bool} {l : List Nat} (hn : l.Nodup) (hl : ∀ i ∈ l, ∃ a, A[i]? = some a ∧ P a = true) : l.length ≤ A.countP P := by
  have h1 : l ⊆ (List.range A.length).filter fun i => (A[i]?).any P := by
    intro i hi
    obtain ⟨a, ha, hp⟩ := hl i hi
    rw [List.mem_filter, List.mem_range, ha]
    exact ⟨(List.getElem?_eq_some_iff.1 ha).1, hp⟩
  have h2 := (List.Nodup.subperm hn h1).length_le
  have h3 : A.map some = (List.range A.length).map fun i => A[i]? := by
    apply List.ext_getElem (by simp)
    intro i h1 h2
    simp at h1
    simp [h1]
  have h4 : A.countP P = (A.map some).countP fun o => o.any P := by rw [List.countP_map]; rfl
  rw [h4, h3, List.countP_map, List.countP_eq_length_filter]
  exact h2

theorem addForbidden_ok {n : Nat} {fb : List (Nat × Nat)} {a b : Nat} (ha : a < n) (hb : b < n) : addForbidden n fb a b = some (fb ++ [(a, b)]) := by
  unfold addForbidden
  simp [check, ha, hb]

theorem forEach_filterMap {β γ : Type} (p : β → Bool) (f : β → γ) : ∀ (l : List β) (acc : List γ),
    forEach l acc (fun acc a => some (if p a then acc ++ [f a] else acc)) = some (acc ++ (l.filter p).map f)
  | [], acc => by simp [forEach]
  | x :: l, acc => by
    rw [forEach, Option.bind_some, forEach_filterMap p f l, List.filter_cons]
    cases p x <;> simp

theorem forbidOthers_ok (h : TurnsOk E mp Bm Br Bw A r tail) {D : Nat} (hD : ∀ v, A.countP (fun a => decide (a.tail = v)) ≤ D) {v a : Nat} (keep : Nat)
    (hv : at' Br v = true) (ha : a < A.length) :
    ∃ d, (∀ acc, forbidOthers (turnGraph r tail) acc a (E.locR v) keep = some (acc ++ d)) ∧
      (∀ p, p ∈ d ↔ p.1 = a ∧ Begins A v p.2 ∧ p.2 ≠ keep) ∧ d.length ≤ D := by
  obtain ⟨b, l, e1, e2, h1, h2, h3⟩ := h.out hv
  refine ⟨(l.filter fun o => decide (o ≠ keep)).map fun o => (a, o), ?_, ?_, ?_⟩
  · intro acc
    unfold forbidOthers
    have e1' : rd (turnGraph r tail).firstOut (E.locR v) = some b := e1
    have e2' : rd (turnGraph r tail).firstOut (E.locR v + 1) = some (b + l.length) := e2
    simp only [e1', e2', Option.bind_eq_bind, Option.bind_some]
    rw [forRange_forEach (l := l) (g := fun acc o => some (if decide (o ≠ keep) then acc ++ [(a, o)] else acc)) rfl, forEach_filterMap]
    intro k x s hk
    rw [h1 k x hk]
    obtain ⟨c, hc, _⟩ := (h3 x).1 (List.mem_of_getElem? hk)
    have hxl : x < A.length := (List.getElem?_eq_some_iff.1 hc).1
    by_cases hx : x ≠ keep
    · rw [if_pos hx, addForbidden_ok (by simp only [turnGraph]; rw [h.headLength]; exact ha) (by simp only [turnGraph]; rw [h.headLength]; exact hxl)]
      simp [hx]
    · rw [if_neg hx]; simp [hx]
  · rintro ⟨x, y⟩
    rw [List.mem_map]
    constructor
    · rintro ⟨o, ho, e⟩
      cases e
      rw [List.mem_filter, h3, decide_eq_true_eq] at ho
      exact ⟨rfl, ho⟩
    · rintro ⟨h4, h5⟩
      simp only at h4 h5
      exact ⟨y, by rw [List.mem_filter, h3, decide_eq_true_eq]; exact h5, by rw [h4]⟩
  · rw [List.length_map]
    refine Nat.le_trans (List.length_filter_le _ _) (Nat.le_trans (positions_count h2 ?_) (hD v))
    intro i hi
    obtain ⟨c, hc, ht⟩ := (h3 i).1 hi
    exact ⟨c, hc, by simp [ht]⟩

/-! ### Restrictions without via node -/

/-- The last arc of a list which ends at a node. -/
def lastIn (head : List Nat) : List Nat → Nat → Option Nat
  | [], _ => none
  | a :: l, y => (lastIn head l y).or (if rd head a = some y then some a else none)

theorem lastIn_some {head : List Nat} {y a : Nat} : ∀ {l : List Nat}, lastIn head l y = some a → a ∈ l ∧ rd head a = some y
  | b :: l, h => by
    rw [lastIn] at h
    cases hl : lastIn head l y with
    | some c =>
      rw [hl] at h
      cases h
      obtain ⟨h1, h2⟩ := lastIn_some hl
      exact ⟨List.mem_cons_of_mem _ h1, h2⟩
    | none =>
      rw [hl] at h
      by_cases hb : rd head b = some y
      · rw [if_pos hb] at h; cases h; exact ⟨List.mem_cons_self, hb⟩
      · rw [if_neg hb] at h; cases h

theorem lastIn_none {head : List Nat} {y : Nat} : ∀ {l : List Nat}, lastIn head l y = none → ∀ a ∈ l, rd head a ≠ some y
  | b :: l, h, a, ha => by
    rw [lastIn, Option.or_eq_none_iff] at h
    rcases List.mem_cons.1 ha with rfl | ha
    · intro e; rw [if_pos e] at h; exact absurd h.2 (by simp)
    · exact lastIn_none h.1 a ha

theorem writeHeads_ok {α : Type} {g : TurnGraph} {x : Nat → α} : ∀ {l : List Nat} {v : List α},
    (∀ a ∈ l, ∃ y, rd g.head a = some y ∧ y < v.length) →
    ∃ v', writeHeads g l v x = some v' ∧ v'.length = v.length ∧
      ∀ y, y < v.length → rd v' y = match lastIn g.head l y with
        | some a => some (x a)
        | none => rd v y
  | [], v, _ => ⟨v, rfl, rfl, fun _ _ => rfl⟩
  | a :: l, v, h => by
    obtain ⟨y, h1, h2⟩ := h a List.mem_cons_self
    obtain ⟨v', e, h3, h4⟩ := writeHeads_ok (g := g) (x := x) (l := l) (v := v.set y (x a)) (by
      intro b hb; simpa using h b (List.mem_cons_of_mem _ hb))
    rw [List.length_set] at h3 h4
    refine ⟨v', ?_, h3, ?_⟩
    · unfold writeHeads at e ⊢
      rw [forEach]
      simp only [h1, Option.bind_eq_bind, Option.bind_some, wr_lt h2]
      exact e
    · intro z hz
      rw [h4 z hz, lastIn]
      cases lastIn g.head l z with
      | some c => rfl
      | none =>
        rw [Option.none_or]
        by_cases hyz : y = z
        · subst hyz
          rw [if_pos h1, rd, List.getElem?_set_self h2]
        · rw [if_neg (by rw [h1]; simp [hyz]), rd, List.getElem?_set_ne hyz]; rfl

/-- The arc that the code stores for a way and a node. -/
def chosen (E : Env fl) (r : RoutingGraph fl) (byWay : List Nat × List Nat) (w v : Nat) : Nat :=
  (lastIn r.head ((group byWay (E.locW w)).getD []) (E.locR v)).getD 0

theorem group_ways (h : TurnsOk E mp Bm Br Bw A r tail) {byWay : List Nat × List Nat} (hb : Slices byWay r.way (Bw.count true)) {w : Nat}
    (hw : at' Bw w = true) : ∃ l, group byWay (E.locW w) = some l ∧ l.Nodup ∧ ∀ i, i ∈ l ↔ ∃ a, A[i]? = some a ∧ a.way = w := by
  obtain ⟨l, e, h1, h2⟩ := group_ok hb (h.way_lt hw)
  exact ⟨l, e, h1, fun i => by rw [h2, h.wayIs hw]⟩

theorem group_heads (h : TurnsOk E mp Bm Br Bw A r tail) {w : Nat} {l : List Nat} (hl : ∀ i, i ∈ l ↔ ∃ a, A[i]? = some a ∧ a.way = w) :
    ∀ a ∈ l, ∃ y, rd r.head a = some y ∧ y < Br.count true := by
  intro i hi
  obtain ⟨a, ha, _⟩ := (hl i).1 hi
  have := h.ends a (List.mem_of_getElem? ha)
  exact ⟨E.locR a.head, by rw [h.headIs this.2]; exact ⟨a, ha, rfl⟩, h.node_lt this.2⟩

theorem lastIn_enters (h : TurnsOk E mp Bm Br Bw A r tail) {w v : Nat} (hv : at' Br v = true) {l : List Nat} (hl : ∀ i, i ∈ l ↔ ∃ a, A[i]? = some a ∧ a.way = w) :
    (∀ i, lastIn r.head l (E.locR v) = some i → Enters A w v i) ∧ (lastIn r.head l (E.locR v) = none → ¬ ∃ i, Enters A w v i) := by
  refine ⟨?_, ?_⟩
  · intro i hi
    obtain ⟨h1, h2⟩ := lastIn_some hi
    obtain ⟨a, ha, hw⟩ := (hl i).1 h1
    obtain ⟨b, hb, hv'⟩ := (h.headIs hv i).1 h2
    rw [ha] at hb; cases hb
    exact ⟨a, ha, hw, hv'⟩
  · rintro hn ⟨i, a, ha, hw, hv'⟩
    exact lastIn_none hn i ((hl i).2 ⟨a, ha, hw⟩) ((h.headIs hv i).2 ⟨a, ha, hv'⟩)

theorem chosen_ok (h : TurnsOk E mp Bm Br Bw A r tail) {byWay : List Nat × List Nat} (hb : Slices byWay r.way (Bw.count true)) :
    Chooses A (chosen E r byWay) := by
  rintro w v ⟨i, hi⟩
  obtain ⟨hv, hw, _⟩ := enters_node h hi
  obtain ⟨l, e, h1, h2⟩ := group_ways h hb hw
  have hE := lastIn_enters h hv h2
  unfold chosen
  rw [e, Option.getD_some]
  cases hl : lastIn r.head l (E.locR v) with
  | none => exact absurd ⟨i, hi⟩ (hE.2 hl)
  | some j => exact hE.1 j hl

theorem goStraight_ok (h : TurnsOk E mp Bm Br Bw A r tail) {D : Nat} (hD : ∀ v, A.countP (fun a => decide (a.tail = v)) ≤ D)
    {byWay : List Nat × List Nat} {w : Nat} {l : List Nat} (e : group byWay (E.locW w) = some l) (hn : l.Nodup)
    (hl : ∀ i, i ∈ l ↔ ∃ a, A[i]? = some a ∧ a.way = w) :
    ∃ d, (∀ acc, goStraight (turnGraph r tail) (List.replicate (Br.count true) invalidId) acc l =
        some (List.replicate (Br.count true) invalidId, acc ++ d)) ∧
      (∀ p, p ∈ d ↔ ForbidsLeaving A (chosen E r byWay) w p.1 p.2) ∧ d.length ≤ A.length * D := by
  have hh := group_heads h hl
  obtain ⟨inc, e1, l1, h1⟩ := writeHeads_ok (g := turnGraph r tail) (x := fun a => a) (l := l) (v := List.replicate (Br.count true) invalidId) (by
    rw [List.length_replicate]; exact hh)
  rw [List.length_replicate] at l1 h1
  obtain ⟨inc', e2, l2, h2⟩ := writeHeads_ok (g := turnGraph r tail) (x := fun _ => invalidId) (l := l) (v := inc) (by
    rw [l1]; exact hh)
  rw [l1] at l2 h2
  have hinc' : inc' = List.replicate (Br.count true) invalidId := by
    apply list_ext_rd (by simp [l2])
    intro i hi
    rw [l2] at hi
    rw [h2 i hi, rd_replicate hi]
    have h1 := h1 i hi
    cases hc : lastIn (turnGraph r tail).head l i with
    | some a => rfl
    | none => rw [hc] at h1; rw [h1, rd_replicate hi]
  have step : ∀ out ∈ l, ∃ d, ((∀ p, p ∈ d ↔ ∃ v, (∃ i, Enters A w v i) ∧ Leaves A w v out ∧ p.1 = chosen E r byWay w v ∧ Begins A v p.2 ∧ p.2 ≠ out) ∧
      d.length ≤ D) ∧ ∀ acc : List (Nat × Nat), ((rd tail out).bind fun v => (rd inc v).bind fun a =>
        if a ≠ invalidId then forbidOthers (turnGraph r tail) acc a v out else some acc) = some (acc ++ d) := by
    intro out ho
    obtain ⟨a, ha, hw⟩ := (hl out).1 ho
    have hv := (h.ends a (List.mem_of_getElem? ha)).1
    have ht : rd tail out = some (E.locR a.tail) := (h.tailIs hv out).2 ⟨a, ha, rfl⟩
    have huniq : ∀ v, Leaves A w v out → v = a.tail := by
      rintro v ⟨b, hb, _, rfl⟩
      rw [ha] at hb; cases hb; rfl
    have hE := lastIn_enters h hv hl
    have h1 := h1 _ (h.node_lt hv)
    change rd inc _ = match lastIn r.head l _ with | some a => some a | none => _ at h1
    cases hc : lastIn r.head l (E.locR a.tail) with
    | none =>
      rw [hc] at h1
      simp only [rd_replicate (h.node_lt hv)] at h1
      refine ⟨[], ⟨?_, by simp⟩, ?_⟩
      · intro p
        constructor
        · intro hp; simp at hp
        · rintro ⟨v, h3, h4, _⟩
          rw [huniq v h4] at h3
          exact absurd h3 (hE.2 hc)
      · intro acc
        rw [ht, Option.bind_some, h1, Option.bind_some]
        simp
    | some j =>
      rw [hc] at h1
      have hj := hE.1 j hc
      obtain ⟨_, _, hjl⟩ := enters_node h hj
      obtain ⟨d, h3, h4, h5⟩ := forbidOthers_ok h hD out hv hjl
      have hch : chosen E r byWay w a.tail = j := by unfold chosen; rw [e, Option.getD_some, hc, Option.getD_some]
      refine ⟨d, ⟨?_, h5⟩, ?_⟩
      · intro p
        rw [h4]
        constructor
        · rintro ⟨h6, h7, h8⟩
          exact ⟨a.tail, ⟨j, hj⟩, ⟨a, ha, hw, rfl⟩, by rw [hch]; exact h6, h7, h8⟩
        · rintro ⟨v, _, h7, h8, h9, h10⟩
          rw [huniq v h7] at h8 h9
          exact ⟨by rw [h8, hch], h9, h10⟩
      · intro acc
        rw [ht, Option.bind_some, h1, Option.bind_some]
        have : j ≠ invalidId := by
          have := h.count
          have hu : u32 = invalidId + 1 := rfl
          omega
        rw [if_pos this, h3]
  obtain ⟨ds, hds, hloop⟩ := forEach_collect (l := l) (γ := Nat × Nat) step
  refine ⟨ds.flatten, ?_, ?_, ?_⟩
  · intro acc
    unfold goStraight
    simp only [e1, Option.bind_eq_bind, Option.bind_some]
    rw [show (turnGraph r tail).tail = tail from rfl, hloop acc]
    simp only [Option.bind_some, e2, hinc']
  · intro p
    rw [flatten_mem (hds.imp fun _ _ h => h.1)]
    constructor
    · rintro ⟨out, _, v, h3, h4, h5⟩; exact ⟨v, out, h3, h4, h5⟩
    · rintro ⟨v, out, h3, h4, h5⟩
      have ⟨a, ha, hw, _⟩ := h4
      exact ⟨out, (hl out).2 ⟨a, ha, hw⟩, v, h3, h4, h5⟩
  · refine Nat.le_trans (flatten_length (hds.imp fun _ _ h => h.2)) (Nat.mul_le_mul_right _ ?_)
    have := positions_count (A := A) (P := fun _ => true) hn (by
      intro i hi
      obtain ⟨a, ha, _⟩ := (hl i).1 hi
      exact ⟨a, ha, rfl⟩)
    exact Nat.le_trans this List.countP_le_length

/-- Lines 526-530 for one node. -/
def viaStep (s : Nat × Nat) (v : Nat) : Nat × Nat := if s.1 ≠ invalidId then (s.1, v) else (v, s.2)

theorem via_two {x : Nat} (hx : x ≠ invalidId) : ∀ {q : List Nat} {z : Nat}, z ≠ invalidId → (∀ y ∈ q, y ≠ invalidId) →
    (q.foldl viaStep (x, z)).1 = x ∧ (q.foldl viaStep (x, z)).2 ≠ invalidId
  | [], _, hz, _ => ⟨rfl, hz⟩
  | y :: q, z, hz, h => by
    rw [List.foldl_cons, viaStep, if_pos hx]
    exact via_two hx (h y List.mem_cons_self) fun y' hy => h y' (List.mem_cons_of_mem _ hy)

theorem via_result {q : List Nat} (h : ∀ y ∈ q, y ≠ invalidId) :
    ((q.foldl viaStep (invalidId, invalidId)).1 = invalidId ↔ q = []) ∧
    ((q.foldl viaStep (invalidId, invalidId)).1 ≠ invalidId → (q.foldl viaStep (invalidId, invalidId)).2 = invalidId →
      q = [(q.foldl viaStep (invalidId, invalidId)).1]) ∧
    (∀ x, q = [x] → q.foldl viaStep (invalidId, invalidId) = (x, invalidId)) := by
  match q with
  | [] => simp
  | [x] =>
    have := h x (by simp)
    simp [viaStep, this]
  | x :: y :: q =>
    have hx := h x (by simp)
    have hy := h y (by simp)
    have := via_two hx (q := q) hy (fun y' h' => h y' (by simp [h']))
    rw [List.foldl_cons, List.foldl_cons, show viaStep (invalidId, invalidId) x = (x, invalidId) by simp [viaStep],
      show viaStep (x, invalidId) y = (x, y) by simp [viaStep, hx]]
    refine ⟨by rw [this.1]; simp [hx], fun _ h2 => absurd h2 this.2, by simp⟩

theorem forEach_via {f : Nat × Nat → Nat → Option (Nat × Nat)} {p : Nat → Bool} {y : Nat → Nat} : ∀ {l : List Nat} (s : Nat × Nat),
    (∀ a ∈ l, ∀ s, f s a = some (if p a then viaStep s (y a) else s)) →
    forEach l s f = some (((l.filter p).map y).foldl viaStep s)
  | [], _, _ => rfl
  | a :: l, s, h => by
    rw [forEach, h a List.mem_cons_self, Option.bind_some, forEach_via _ (fun b hb => h b (List.mem_cons_of_mem _ hb)), List.filter_cons]
    cases p a <;> rfl

theorem findVia_ok (h : TurnsOk E mp Bm Br Bw A r tail) {w w' : Nat} {l l' : List Nat}
    (hl : ∀ i, i ∈ l ↔ ∃ a, A[i]? = some a ∧ a.way = w) (hn : l'.Nodup) (hl' : ∀ i, i ∈ l' ↔ ∃ a, A[i]? = some a ∧ a.way = w') :
    ∃ s, findVia (turnGraph r tail) (List.replicate (Br.count true) false) l l' = some (List.replicate (Br.count true) false, s) ∧
      (s.1 ≠ invalidId ∧ s.2 = invalidId → ∃ v, OnlyVia A w w' v ∧ s.1 = E.locR v) ∧
      (∀ v, OnlyVia A w w' v → s = (E.locR v, invalidId) ∧ E.locR v ≠ invalidId) := by
  have hh := group_heads h hl
  obtain ⟨ish, e1, l1, h1⟩ := writeHeads_ok (g := turnGraph r tail) (x := fun _ => true) (l := l) (v := List.replicate (Br.count true) false) (by
    rw [List.length_replicate]; exact hh)
  rw [List.length_replicate] at l1 h1
  obtain ⟨ish', e2, l2, h2⟩ := writeHeads_ok (g := turnGraph r tail) (x := fun _ => false) (l := l) (v := ish) (by
    rw [l1]; exact hh)
  rw [l1] at l2 h2
  have hish' : ish' = List.replicate (Br.count true) false := by
    apply list_ext_rd (by simp [l2])
    intro i hi
    rw [l2] at hi
    rw [h2 i hi, rd_replicate hi]
    have h1 := h1 i hi
    cases hc : lastIn (turnGraph r tail).head l i with
    | some a => rfl
    | none => rw [hc] at h1; rw [h1, rd_replicate hi]
  -- the arcs of the second way which begin where an arc of the first ends
  let p : Nat → Bool := fun t => decide (∃ y, rd tail t = some y ∧ (lastIn r.head l y).isSome)
  let y : Nat → Nat := fun t => (rd tail t).getD 0
  have hp : ∀ t, p t = true ↔ ∃ y, rd tail t = some y ∧ (lastIn r.head l y).isSome := fun t => decide_eq_true_iff
  have key : ∀ t v, Leaves A w' v t → y t = E.locR v ∧ (p t = true ↔ ∃ i, Enters A w v i) := by
    intro t v ht
    obtain ⟨hv, _, _⟩ := leaves_node h ht
    obtain ⟨b, hb, hbw, hbv⟩ := ht
    have e : rd tail t = some (E.locR v) := (h.tailIs hv t).2 ⟨b, hb, hbv⟩
    refine ⟨by simp only [y, e, Option.getD_some], ?_⟩
    have hE := lastIn_enters h hv hl
    rw [hp, e]
    constructor
    · rintro ⟨_, e3, h4⟩
      cases e3
      obtain ⟨i, hi⟩ := Option.isSome_iff_exists.1 h4
      exact ⟨i, hE.1 i hi⟩
    · intro h4
      refine ⟨_, rfl, ?_⟩
      cases hc : lastIn r.head l (E.locR v) with
      | some _ => rfl
      | none => exact absurd h4 (hE.2 hc)
  have leaves_of : ∀ t ∈ l', ∃ v, Leaves A w' v t := by
    intro t ht
    obtain ⟨a, ha, hw⟩ := (hl' t).1 ht
    exact ⟨a.tail, a, ha, hw, rfl⟩
  have hne : ∀ z ∈ (l'.filter p).map y, z ≠ invalidId := by
    intro z hz
    obtain ⟨t, ht, rfl⟩ := List.mem_map.1 hz
    obtain ⟨v, hv⟩ := leaves_of t (List.mem_filter.1 ht).1
    rw [(key t v hv).1]
    have := h.node_lt (leaves_node h hv).1
    have := h.env.cr
    omega
  have hloop : ∀ s, forEach l' s (fun s a => (rd tail a).bind fun v => (rd ish v).bind fun b =>
      if b then some (if s.1 ≠ invalidId then (s.1, v) else (v, s.2)) else some s) = some (((l'.filter p).map y).foldl viaStep s) := by
    intro s
    refine forEach_via s ?_
    intro a ha s
    obtain ⟨v, hv⟩ := leaves_of a ha
    obtain ⟨k1, _⟩ := key a v hv
    obtain ⟨hvr, hvw, _⟩ := leaves_node h hv
    have e : rd tail a = some (E.locR v) := ((leaves_iff h hvr hvw a).1 hv).2
    have h1 := h1 _ (h.node_lt hvr)
    change rd ish _ = match lastIn r.head l _ with | some _ => some true | none => _ at h1
    have hpa := hp a
    rw [e] at hpa
    rw [e, Option.bind_some]
    cases hc : lastIn r.head l (E.locR v) with
    | none =>
      rw [hc] at h1
      simp only [rd_replicate (h.node_lt hvr)] at h1
      have : p a = false := by
        rw [Bool.eq_false_iff]
        intro hpt
        obtain ⟨_, e3, h4⟩ := hpa.1 hpt
        cases e3
        rw [hc] at h4; cases h4
      rw [h1, Option.bind_some, this]
      rfl
    | some j =>
      rw [hc] at h1
      have : p a = true := hpa.2 ⟨_, rfl, by rw [hc]; rfl⟩
      rw [h1, Option.bind_some, this, k1]
      rfl
  obtain ⟨v1, v2, v3⟩ := via_result hne
  have honly : ∀ v t, OnlyVia A w w' v → Leaves A w' v t → (∃ i, Enters A w v i) → l'.filter p = [t] := by
    rintro v t ⟨t0, h3, h4, h5⟩ h6 h7
    have : t = t0 := h5 t v h6 h7
    subst this
    apply List.perm_singleton.1
    rw [List.perm_ext_iff_of_nodup (hn.sublist List.filter_sublist) (by simp)]
    intro t'
    rw [List.mem_filter, List.mem_singleton]
    constructor
    · rintro ⟨h8, h9⟩
      obtain ⟨v', hv'⟩ := leaves_of t' h8
      exact h5 t' v' hv' ((key t' v' hv').2.1 h9)
    · rintro rfl
      have ⟨a, ha, hw, _⟩ := h6
      exact ⟨(hl' _).2 ⟨a, ha, hw⟩, (key _ v h6).2.2 h7⟩
  refine ⟨((l'.filter p).map y).foldl viaStep (invalidId, invalidId), ?_, ?_, ?_⟩
  · unfold findVia
    simp only [e1, Option.bind_eq_bind, Option.bind_some]
    rw [show (turnGraph r tail).tail = tail from rfl, hloop]
    simp only [Option.bind_some, e2, hish']
  · rintro ⟨h3, h4⟩
    have := v2 h3 h4
    obtain ⟨t, ht, hty⟩ := List.map_eq_singleton_iff.1 this
    have htm : t ∈ l'.filter p := by rw [ht]; simp
    obtain ⟨htl, htp⟩ := List.mem_filter.1 htm
    obtain ⟨v, hv⟩ := leaves_of t htl
    refine ⟨v, ⟨t, hv, (key t v hv).2.1 htp, ?_⟩, by rw [← hty]; exact (key t v hv).1⟩
    intro t' v' h5 h6
    have : t' ∈ l'.filter p := by
      have ⟨a, ha, hw, _⟩ := h5
      exact List.mem_filter.2 ⟨(hl' _).2 ⟨a, ha, hw⟩, (key _ v' h5).2.2 h6⟩
    rw [ht, List.mem_singleton] at this
    exact this
  · intro v hv
    have ⟨t, h3, h4, h5⟩ := hv
    have := honly v t hv h3 h4
    rw [this, List.map_singleton, (key t v h3).1]
    rw [this, List.map_singleton, (key t v h3).1] at hne
    have hne' := hne _ (List.mem_singleton_self _)
    refine ⟨?_, hne'⟩
    simp [viaStep]

/-- A restriction with the numbers of its ways. -/
structure WaysAre (E : Env fl) (Bw : List Bool) (x : LocalRestriction) (w w' : Nat) : Prop where
  markedFrom : at' Bw w = true
  markedTo : at' Bw w' = true
  fromWay : x.fromWay = E.locW w
  toWay : x.toWay = E.locW w'

/-- What the repair step forbids. -/
def RepairForbids (A : List MapArc) (inc : Nat → Nat → Nat) (x : LocalRestriction) (w w' : Nat) (p : Nat × Nat) : Prop :=
  x.viaNode = invalidId ∧ (x.category = .mandatory ∧ w = w') ∧ ForbidsLeaving A inc w p.1 p.2

/-- The restrictions that remain. -/
def RepairKeeps (E : Env fl) (A : List MapArc) (x : LocalRestriction) (w w' : Nat) (z : LocalRestriction) : Prop :=
  (x.viaNode ≠ invalidId ∧ z = x) ∨
  (x.viaNode = invalidId ∧ ¬ (x.category = .mandatory ∧ w = w') ∧ ∃ v, OnlyVia A w w' v ∧ z = { x with viaNode := E.locR v })

theorem locW_inj (h : TurnsOk E mp Bm Br Bw A r tail) {w w' : Nat} (hw : at' Bw w = true) (hw' : at' Bw w' = true) : E.locW w = E.locW w' ↔ w = w' := by
  refine ⟨fun e => rk_inj hw hw' ?_, fun e => by rw [e]⟩
  rw [← h.env.lw]; exact e

theorem repairStep_ok (h : TurnsOk E mp Bm Br Bw A r tail) {D : Nat} (hD : ∀ v, A.countP (fun a => decide (a.tail = v)) ≤ D)
    {byWay : List Nat × List Nat} (hb : Slices byWay r.way (Bw.count true)) {x : LocalRestriction} {w w' : Nat} (hx : WaysAre E Bw x w w') :
    ∃ F O, (∀ fb out, repairStep (turnGraph r tail) byWay ⟨List.replicate (Br.count true) false, List.replicate (Br.count true) invalidId, fb, out⟩ x =
        some ⟨List.replicate (Br.count true) false, List.replicate (Br.count true) invalidId, fb ++ F, out ++ O⟩) ∧
      (∀ p, p ∈ F ↔ RepairForbids A (chosen E r byWay) x w w' p) ∧ (∀ z, z ∈ O ↔ RepairKeeps E A x w w' z) ∧
      F.length + O.length * (A.length * D + 1) ≤ A.length * D + 1 := by
  have hsame : (x.fromWay = x.toWay ∧ x.category = .mandatory) ↔ (x.category = .mandatory ∧ w = w') := by
    rw [hx.fromWay, hx.toWay, locW_inj h hx.markedFrom hx.markedTo, and_comm]
  unfold repairStep RepairForbids RepairKeeps
  by_cases hv : x.viaNode ≠ invalidId
  · refine ⟨[], [x], fun fb out => by rw [if_pos hv]; simp, ?_, ?_, by simp⟩
    · intro p; simp [hv]
    · intro z; simp [hv]
  · have hv' : x.viaNode = invalidId := Classical.not_not.1 hv
    obtain ⟨l, e1, n1, g1⟩ := group_ways h hb hx.markedFrom
    obtain ⟨l', e2, n2, g2⟩ := group_ways h hb hx.markedTo
    by_cases hm : x.category = .mandatory ∧ w = w'
    · obtain ⟨d, h1, h2, h3⟩ := goStraight_ok h hD e1 n1 g1
      refine ⟨d, [], ?_, ?_, ?_, by simp; omega⟩
      · intro fb out
        rw [if_neg hv, if_pos (hsame.2 hm), hx.fromWay]
        simp only [e1, Option.bind_eq_bind, Option.bind_some, h1, List.append_nil]
      · intro p
        rw [h2]
        exact ⟨fun h => ⟨hv', hm, h⟩, fun h => h.2.2⟩
      · intro z
        simp only [List.not_mem_nil, false_iff]
        rintro (⟨h4, _⟩ | ⟨_, h4, _⟩)
        · exact hv h4
        · exact h4 hm
    · obtain ⟨s, h1, h2, h3⟩ := findVia_ok h g1 n2 g2
      by_cases hs : s.1 ≠ invalidId ∧ s.2 = invalidId
      · obtain ⟨v, h4, h5⟩ := h2 hs
        refine ⟨[], [{ x with viaNode := s.1 }], ?_, ?_, ?_, by simp⟩
        · intro fb out
          rw [if_neg hv, if_neg (fun hc => hm (hsame.1 hc)), hx.fromWay, hx.toWay]
          simp only [e1, e2, Option.bind_eq_bind, Option.bind_some, h1, List.append_nil]
          rw [if_neg hs.1, if_neg (by simp [hs.2])]
        · intro p
          simp only [List.not_mem_nil, false_iff]
          rintro ⟨_, h6, _⟩
          exact hm h6
        · intro z
          rw [List.mem_singleton]
          constructor
          · rintro rfl
            exact Or.inr ⟨hv', hm, v, h4, by rw [h5]⟩
          · rintro (⟨h6, _⟩ | ⟨_, _, v', h6, h7⟩)
            · exact absurd h6 hv
            · rw [h7, (h3 v' h6).1]
      · refine ⟨[], [], ?_, ?_, ?_, by simp⟩
        · intro fb out
          rw [if_neg hv, if_neg (fun hc => hm (hsame.1 hc)), hx.fromWay, hx.toWay]
          simp only [e1, e2, Option.bind_eq_bind, Option.bind_some, h1, List.append_nil]
          by_cases hs1 : s.1 = invalidId
          · rw [if_pos hs1]
          · rw [if_neg hs1, if_pos]
            intro hs2
            exact hs ⟨hs1, hs2⟩
        · intro p
          simp only [List.not_mem_nil, false_iff]
          rintro ⟨_, h6, _⟩
          exact hm h6
        · intro z
          simp only [List.not_mem_nil, false_iff]
          rintro (⟨h6, _⟩ | ⟨_, _, v', h6, h7⟩)
          · exact hv h6
          · obtain ⟨h8, h9⟩ := h3 v' h6
            rw [h8] at hs
            exact hs ⟨h9, rfl⟩

theorem repair_loop (h : TurnsOk E mp Bm Br Bw A r tail) {D : Nat} (hD : ∀ v, A.countP (fun a => decide (a.tail = v)) ≤ D)
    {byWay : List Nat × List Nat} (hb : Slices byWay r.way (Bw.count true)) : ∀ {l : List LocalRestriction}, (∀ x ∈ l, ∃ w w', WaysAre E Bw x w w') →
    ∃ F O, (∀ fb out, forEach l ⟨List.replicate (Br.count true) false, List.replicate (Br.count true) invalidId, fb, out⟩ (repairStep (turnGraph r tail) byWay) =
        some ⟨List.replicate (Br.count true) false, List.replicate (Br.count true) invalidId, fb ++ F, out ++ O⟩) ∧
      (∀ p, p ∈ F ↔ ∃ x ∈ l, ∃ w w', WaysAre E Bw x w w' ∧ RepairForbids A (chosen E r byWay) x w w' p) ∧
      (∀ z, z ∈ O ↔ ∃ x ∈ l, ∃ w w', WaysAre E Bw x w w' ∧ RepairKeeps E A x w w' z) ∧
      F.length + O.length * (A.length * D + 1) ≤ l.length * (A.length * D + 1)
  | [], _ => ⟨[], [], fun fb out => by simp [forEach], by simp, by simp, by simp⟩
  | x :: l, hl => by
    obtain ⟨w, w', hx⟩ := hl x List.mem_cons_self
    obtain ⟨F1, O1, h1, h2, h3, h4⟩ := repairStep_ok h hD hb hx
    obtain ⟨F, O, h5, h6, h7, h8⟩ := repair_loop h hD hb (l := l) fun y hy => hl y (List.mem_cons_of_mem _ hy)
    have huniq : ∀ {u u'}, WaysAre E Bw x u u' → u = w ∧ u' = w' := by
      intro u u' hu
      refine ⟨(locW_inj h hu.markedFrom hx.markedFrom).1 ?_, (locW_inj h hu.markedTo hx.markedTo).1 ?_⟩
      · rw [← hu.fromWay, hx.fromWay]
      · rw [← hu.toWay, hx.toWay]
    refine ⟨F1 ++ F, O1 ++ O, ?_, ?_, ?_, ?_⟩
    · intro fb out
      rw [forEach, h1, Option.bind_some, h5, List.append_assoc, List.append_assoc]
    · intro p
      rw [List.mem_append, h2, h6]
      constructor
      · rintro (h | ⟨y, hy, h⟩)
        · exact ⟨x, List.mem_cons_self, w, w', hx, h⟩
        · exact ⟨y, List.mem_cons_of_mem _ hy, h⟩
      · rintro ⟨y, hy, u, u', hu, h⟩
        rcases List.mem_cons.1 hy with rfl | hy
        · obtain ⟨rfl, rfl⟩ := huniq hu; exact Or.inl h
        · exact Or.inr ⟨y, hy, u, u', hu, h⟩
    · intro p
      rw [List.mem_append, h3, h7]
      constructor
      · rintro (h | ⟨y, hy, h⟩)
        · exact ⟨x, List.mem_cons_self, w, w', hx, h⟩
        · exact ⟨y, List.mem_cons_of_mem _ hy, h⟩
      · rintro ⟨y, hy, u, u', hu, h⟩
        rcases List.mem_cons.1 hy with rfl | hy
        · obtain ⟨rfl, rfl⟩ := huniq hu; exact Or.inl h
        · exact Or.inr ⟨y, hy, u, u', hu, h⟩
    · rw [List.length_append, List.length_append, List.length_cons, Nat.add_mul, Nat.add_mul]
      omega

/-! ### Directions -/

theorem ends_head (l : List Nat) : (ends l).head? = l.head? := by
  cases l <;> simp [ends]

theorem ends_last (l : List Nat) : (ends l).getLast? = l.getLast? := by
  match l with
  | [] => rfl
  | [x] => rfl
  | x :: y :: l => simp [ends, List.getLast?_cons]

theorem stored_ends {geo : Geometry} (hg : geo ≠ .none) (l : List Nat) : (stored geo l).head? = l.head? ∧ (stored geo l).getLast? = l.getLast? := by
  cases geo with
  | none => exact absurd rfl hg
  | uncompressed => exact ⟨rfl, rfl⟩
  | firstAndLast => exact ⟨ends_head l, ends_last l⟩

theorem nodePoint_ok (h : TurnsOk E mp Bm Br Bw A r tail) {v : Nat} (hv : at' Br v = true) : nodePoint r (E.locR v) = some (E.pos v) := by
  have h1 := h.graph.coords.lat v hv
  have h2 := h.graph.coords.lon v hv
  rw [← h.env.lr] at h1 h2
  simp [nodePoint, h1, h2]

theorem firstMod_rd (h : TurnsOk E mp Bm Br Bw A r tail) {i : Nat} {a : MapArc} (hi : A[i]? = some a) :
    ∃ b, rd r.firstMod i = some b ∧ rd r.firstMod (i + 1) = some (b + (stored E.geo a.inner).length) ∧
      ∀ (k x : Nat), (stored E.geo a.inner)[k]? = some x → modPoint r (b + k) = some (E.pos x) := by
  have hil : i < A.length := (List.getElem?_eq_some_iff.1 hi).1
  obtain ⟨s1, s2⟩ := split_at (as := A) hi
  have e := h.graph.firstMod
  rw [if_neg h.geo] at e
  refine ⟨(flat E.geo (A.take i)).length, by rw [e, offset_rd (by omega)], ?_, ?_⟩
  · rw [e, offset_rd (by omega), s2, flat_append, List.length_append]
    simp [flat]
  · intro k x hk
    have h3 : flat E.geo A = flat E.geo (A.take i) ++ (stored E.geo a.inner ++ flat E.geo (A.drop (i + 1))) := by
      conv_lhs => rw [s1]
      rw [flat_append]; rfl
    have hk' : k < (stored E.geo a.inner).length := (List.getElem?_eq_some_iff.1 hk).1
    have h4 : (flat E.geo A)[(flat E.geo (A.take i)).length + k]? = some x := by
      rw [h3, List.getElem?_append_right (by omega), Nat.add_sub_cancel_left, List.getElem?_append_left hk', hk]
    unfold modPoint
    rw [h.graph.modLat, h.graph.modLon]
    simp [rd, List.getElem?_map, h4]

theorem fromPoint_ok (h : TurnsOk E mp Bm Br Bw A r tail) {i : Nat} {a : MapArc} (hi : A[i]? = some a) :
    fromPoint r tail i = some (E.pos (beforeHead a)) := by
  obtain ⟨b, h1, h2, h3⟩ := firstMod_rd h hi
  have hv := (h.ends a (List.mem_of_getElem? hi)).1
  have ht : rd tail i = some (E.locR a.tail) := (h.tailIs hv i).2 ⟨a, hi, rfl⟩
  have hl := (stored_ends h.geo a.inner).2
  unfold fromPoint beforeHead
  rw [← hl]
  simp only [h1, h2, Option.bind_eq_bind, Option.bind_some]
  cases hs : (stored E.geo a.inner).getLast? with
  | none =>
    rw [List.getLast?_eq_none_iff] at hs
    rw [if_pos (by rw [hs]; rfl), ht, Option.bind_some, nodePoint_ok h hv]
    rfl
  | some x =>
    rw [List.getLast?_eq_getElem?] at hs
    have hlt := (List.getElem?_eq_some_iff.1 hs).1
    rw [if_neg (by omega), show b + (stored E.geo a.inner).length - 1 = b + ((stored E.geo a.inner).length - 1) by omega]
    exact h3 _ x hs

theorem toPoint_ok (h : TurnsOk E mp Bm Br Bw A r tail) {i : Nat} {a : MapArc} (hi : A[i]? = some a) :
    toPoint r i = some (E.pos (behindTail a)) := by
  obtain ⟨b, h1, h2, h3⟩ := firstMod_rd h hi
  have hv := (h.ends a (List.mem_of_getElem? hi)).2
  have ht : rd r.head i = some (E.locR a.head) := (h.headIs hv i).2 ⟨a, hi, rfl⟩
  have hl := (stored_ends h.geo a.inner).1
  unfold toPoint behindTail
  rw [← hl]
  simp only [h1, h2, Option.bind_eq_bind, Option.bind_some]
  cases hs : (stored E.geo a.inner).head? with
  | none =>
    rw [List.head?_eq_none_iff] at hs
    rw [if_pos (by rw [hs]; rfl), ht, Option.bind_some, nodePoint_ok h hv]
    rfl
  | some x =>
    rw [List.head?_eq_getElem?] at hs
    have hlt := (List.getElem?_eq_some_iff.1 hs).1
    rw [if_neg (by omega)]
    exact h3 0 x hs

/-- The turn fits to the direction. -/
def fitsAt (E : Env fl) (A : List MapArc) (dir : TurnDirection) (v f t : Nat) : Prop :=
  ∃ a b, A[f]? = some a ∧ A[t]? = some b ∧ fl.fits dir (E.pos v) (E.pos (beforeHead a)) (E.pos (behindTail b)) = true

/-- The same, computed. -/
def fitsB (E : Env fl) (A : List MapArc) (dir : TurnDirection) (v f t : Nat) : Bool :=
  match A[f]?, A[t]? with
  | some a, some b => fl.fits dir (E.pos v) (E.pos (beforeHead a)) (E.pos (behindTail b))
  | _, _ => false

theorem fitsB_iff {dir : TurnDirection} {v f t : Nat} : fitsB E A dir v f t = true ↔ fitsAt E A dir v f t := by
  unfold fitsB fitsAt
  cases A[f]? <;> cases A[t]? <;> simp

theorem forEach_count {p : Nat → Bool} {f : Nat} : ∀ (ts : List Nat) (s : Nat × Option (Nat × Nat)),
    forEach ts s (fun s t => some (if p t then (s.1 + 1, some (f, t)) else s)) =
      some (s.1 + ((ts.filter p).map (f, ·)).length, ((ts.filter p).map (f, ·)).getLast?.or s.2)
  | [], s => by simp [forEach]
  | t :: ts, s => by
    rw [forEach, Option.bind_some, forEach_count ts, List.filter_cons]
    cases p t with
    | false => simp
    | true =>
      simp only [if_true, List.map_cons, List.length_cons, List.getLast?_cons]
      refine congrArg some (Prod.ext (by simp; omega) ?_)
      cases hl : ((ts.filter p).map (f, ·)).getLast? <;> simp

theorem forEach_count2 {p : Nat → Nat → Bool} {ts : List Nat} : ∀ (fs : List Nat) (s : Nat × Option (Nat × Nat)),
    forEach fs s (fun s f => forEach ts s fun s t => some (if p f t then (s.1 + 1, some (f, t)) else s)) =
      some (s.1 + (fs.flatMap fun f => (ts.filter (p f)).map (f, ·)).length, (fs.flatMap fun f => (ts.filter (p f)).map (f, ·)).getLast?.or s.2)
  | [], s => by simp [forEach]
  | f :: fs, s => by
    rw [forEach, forEach_count, Option.bind_some, forEach_count2 fs, List.flatMap_cons, List.length_append, List.getLast?_append]
    refine congrArg some (Prod.ext (by simp only; omega) ?_)
    simp only [Option.or_assoc]

theorem matching_ok (h : TurnsOk E mp Bm Br Bw A r tail) {x : LocalRestriction} {v : Nat} (hv : at' Br v = true) (hx : x.viaNode = E.locR v)
    {fs ts : List Nat} (hf : ∀ f ∈ fs, f < A.length) (ht : ∀ t ∈ ts, t < A.length) :
    ∃ q, matching r tail x fs ts = some (q.length, q.getLast?) ∧ q = fs.flatMap fun f => (ts.filter (fitsB E A x.direction v f)).map (f, ·) := by
  refine ⟨_, ?_, rfl⟩
  unfold matching
  rw [hx, nodePoint_ok h hv]
  simp only [Option.bind_eq_bind, Option.bind_some]
  rw [forEach_congr (g := fun s f => forEach ts s fun s t => some (if fitsB E A x.direction v f t then (s.1 + 1, some (f, t)) else s)), forEach_count2]
  · simp
  · intro f hfm s
    obtain ⟨a, ha⟩ : ∃ a, A[f]? = some a := ⟨A[f]'(hf f hfm), List.getElem?_eq_getElem (hf f hfm)⟩
    rw [fromPoint_ok h ha, Option.bind_some]
    apply forEach_congr
    intro t htm s
    obtain ⟨b, hb⟩ : ∃ b, A[t]? = some b := ⟨A[t]'(ht t htm), List.getElem?_eq_getElem (ht t htm)⟩
    rw [toPoint_ok h hb, Option.bind_some]
    simp only [fitsB, ha, hb]

theorem resolve_ok (h : TurnsOk E mp Bm Br Bw A r tail) {x : LocalRestriction} {v w w' : Nat} (hv : at' Br v = true) (hx : x.viaNode = E.locR v)
    {fs ts : List Nat} (hfn : fs.Nodup) (htn : ts.Nodup) (hf : ∀ f, f ∈ fs ↔ Enters A w v f) (ht : ∀ t, t ∈ ts ↔ Leaves A w' v t) :
    ∃ o, resolve r tail x fs ts = some o ∧ ∀ f t, o = some (f, t) ↔ Meant A (fitsAt E A x.direction v) w v w' f t := by
  have hfl : ∀ f ∈ fs, f < A.length := fun f hm => (enters_node h ((hf f).1 hm)).2.2
  have htl : ∀ t ∈ ts, t < A.length := fun t hm => (leaves_node h ((ht t).1 hm)).2.2
  by_cases hu : ∃ f0 t0, fs = [f0] ∧ ts = [t0]
  · obtain ⟨f0, t0, rfl, rfl⟩ := hu
    refine ⟨some (f0, t0), rfl, ?_⟩
    intro f t
    simp only [List.mem_singleton] at hf ht
    constructor
    · intro e
      cases e
      exact ⟨(hf _).1 rfl, (ht _).1 rfl, Or.inl fun f' t' h1 h2 => ⟨(hf f').2 h1, (ht t').2 h2⟩⟩
    · rintro ⟨h1, h2, _⟩
      rw [(hf f).2 h1, (ht t).2 h2]
  · obtain ⟨q, e, hq⟩ := matching_ok h hv hx (x := x) hfl htl
    have hres : resolve r tail x fs ts = some (if q.length = 1 then q.getLast? else none) := by
      unfold resolve
      split
      · exact absurd ⟨_, _, rfl, rfl⟩ hu
      · rw [e]; rfl
    have hmem : ∀ f t, (f, t) ∈ q ↔ Enters A w v f ∧ Leaves A w' v t ∧ fitsAt E A x.direction v f t := by
      intro f t
      rw [hq, List.mem_flatMap]
      simp only [List.mem_map, List.mem_filter, Prod.mk.injEq, fitsB_iff, hf, ht]
      constructor
      · rintro ⟨_, h1, _, ⟨h2, h3⟩, rfl, rfl⟩; exact ⟨h1, h2, h3⟩
      · rintro ⟨h1, h2, h3⟩; exact ⟨f, h1, t, ⟨h2, h3⟩, rfl, rfl⟩
    have hqn : q.Nodup := by
      rw [hq, List.nodup_flatMap]
      refine ⟨fun f _ => (htn.sublist List.filter_sublist).map fun a b hab => (Prod.mk.inj hab).2, ?_⟩
      refine hfn.imp ?_
      intro f f' hne
      simp only [Function.onFun]
      intro p h1 h2
      simp only [List.mem_map, List.mem_filter] at h1 h2
      obtain ⟨_, _, rfl⟩ := h1
      obtain ⟨_, _, h3⟩ := h2
      exact hne (Prod.mk.inj h3).1.symm
    refine ⟨_, hres, ?_⟩
    intro f t
    constructor
    · intro hc
      by_cases h1 : q.length = 1
      · rw [if_pos h1] at hc
        obtain ⟨p, rfl⟩ := List.length_eq_one_iff.1 h1
        simp only [List.getLast?_singleton, Option.some.injEq] at hc
        subst hc
        have hm := (hmem f t).1 (by simp)
        refine ⟨hm.1, hm.2.1, Or.inr ⟨hm.2.2, ?_⟩⟩
        intro f' t' h2 h3 h4
        have := (hmem f' t').2 ⟨h2, h3, h4⟩
        rw [List.mem_singleton] at this
        exact Prod.mk.inj this
      · rw [if_neg h1] at hc; cases hc
    · rintro ⟨h1, h2, h3 | ⟨h3, h4⟩⟩
      · exfalso
        apply hu
        refine ⟨f, t, ?_, ?_⟩
        · apply List.perm_singleton.1
          rw [List.perm_ext_iff_of_nodup hfn (by simp)]
          intro f'
          rw [hf, List.mem_singleton]
          exact ⟨fun h5 => (h3 f' t h5 h2).1, fun h5 => by rw [h5]; exact h1⟩
        · apply List.perm_singleton.1
          rw [List.perm_ext_iff_of_nodup htn (by simp)]
          intro t'
          rw [ht, List.mem_singleton]
          exact ⟨fun h5 => (h3 f t' h1 h5).2, fun h5 => by rw [h5]; exact h2⟩
      · have : q = [(f, t)] := by
          apply List.perm_singleton.1
          rw [List.perm_ext_iff_of_nodup hqn (by simp)]
          rintro ⟨f', t'⟩
          rw [hmem, List.mem_singleton]
          constructor
          · rintro ⟨h5, h6, h7⟩
            obtain ⟨rfl, rfl⟩ := h4 f' t' h5 h6 h7; rfl
          · intro h5; cases h5; exact ⟨h1, h2, h3⟩
        rw [this]; rfl

theorem forbidStep_ok (h : TurnsOk E mp Bm Br Bw A r tail) {D : Nat} (hD : ∀ v, A.countP (fun a => decide (a.tail = v)) ≤ D)
    {byHead : List Nat × List Nat} (hb : Slices byHead r.head (Br.count true)) {x : LocalRestriction} {v w w' : Nat} (hw : WaysAre E Bw x w w')
    (hv : at' Br v = true) (hx : x.viaNode = E.locR v) :
    ∃ d, (∀ acc, forbidStep r (turnGraph r tail) byHead acc x = some (acc ++ d)) ∧
      (∀ p, p ∈ d ↔ ForbidsAt A (fitsAt E A x.direction v) (decide (x.category = .mandatory)) w v w' p.1 p.2) ∧ d.length ≤ D + 1 := by
  obtain ⟨fs, e1, n1, h1⟩ := fromCandidates_ok h hb hv hw.markedFrom
  obtain ⟨ts, e2, n2, h2⟩ := toCandidates_ok h hv hw.markedTo
  obtain ⟨o, e3, h3⟩ := resolve_ok h hv hx n1 n2 h1 h2
  have c1 : decide (x.viaNode ≠ invalidId) = true := by
    rw [hx]; have := h.node_lt hv; have := h.env.cr; simp; omega
  have c2 : decide (x.fromWay ≠ invalidId) = true := by
    rw [hw.fromWay]; have := h.way_lt hw.markedFrom; have := h.env.cw; simp; omega
  have c3 : decide (x.toWay ≠ invalidId) = true := by
    rw [hw.toWay]; have := h.way_lt hw.markedTo; have := h.env.cw; simp; omega
  have hno : (∀ f t, ¬ Meant A (fitsAt E A x.direction v) w v w' f t) → ∀ p : Nat × Nat,
      ¬ ForbidsAt A (fitsAt E A x.direction v) (decide (x.category = .mandatory)) w v w' p.1 p.2 := by
    intro hm p hp
    unfold ForbidsAt at hp
    split at hp
    · obtain ⟨t0, h4, _⟩ := hp; exact hm _ _ h4
    · exact hm _ _ hp
  by_cases hfs : fs = []
  · refine ⟨[], ?_, ?_, by simp⟩
    · intro acc
      unfold forbidStep
      simp only [c1, c2, c3, check_true, Option.bind_eq_bind, Option.bind_some]
      rw [hx, hw.fromWay, e1, Option.bind_some, if_pos hfs, List.append_nil]
    · intro p
      simp only [List.not_mem_nil, false_iff]
      refine hno ?_ p
      rintro f t ⟨h4, _⟩
      have := (h1 f).2 h4
      rw [hfs] at this; cases this
  by_cases hts : ts = []
  · refine ⟨[], ?_, ?_, by simp⟩
    · intro acc
      unfold forbidStep
      simp only [c1, c2, c3, check_true, Option.bind_eq_bind, Option.bind_some]
      rw [hx, hw.fromWay, hw.toWay, e1, Option.bind_some, if_neg hfs, e2, Option.bind_some, if_pos hts, List.append_nil]
    · intro p
      simp only [List.not_mem_nil, false_iff]
      refine hno ?_ p
      rintro f t ⟨_, h4, _⟩
      have := (h2 t).2 h4
      rw [hts] at this; cases this
  have estart : ∀ acc, forbidStep r (turnGraph r tail) byHead acc x = match (generalizing := false) o with
      | none => some acc
      | some (f, t) => if x.category = .prohibitive then addForbidden (turnGraph r tail).head.length acc f t
        else forbidOthers (turnGraph r tail) acc f (E.locR v) t := by
    intro acc
    unfold forbidStep
    simp only [c1, c2, c3, check_true, Option.bind_eq_bind, Option.bind_some]
    rw [hx, hw.fromWay, hw.toWay, e1, Option.bind_some, if_neg hfs, e2, Option.bind_some, if_neg hts]
    change (resolve r tail x fs ts).bind _ = _
    rw [e3, Option.bind_some]
    rcases o with _ | ⟨f, t⟩ <;> rfl
  cases o with
  | none =>
    refine ⟨[], fun acc => by rw [estart, List.append_nil], ?_, by simp⟩
    intro p
    simp only [List.not_mem_nil, false_iff]
    refine hno ?_ p
    intro f t h4
    exact absurd ((h3 f t).2 h4) (by simp)
  | some ft =>
    obtain ⟨f, t⟩ := ft
    have hm := (h3 f t).1 rfl
    have hfl := (enters_node h hm.1).2.2
    have htl := (leaves_node h hm.2.1).2.2
    have huniq : ∀ f' t', Meant A (fitsAt E A x.direction v) w v w' f' t' ↔ f' = f ∧ t' = t := by
      intro f' t'
      rw [← h3]
      simp [eq_comm]
    cases hc : x.category with
    | prohibitive =>
      refine ⟨[(f, t)], ?_, ?_, by simp⟩
      · intro acc
        rw [estart]
        simp only [hc, if_true]
        exact addForbidden_ok (show f < r.head.length by rw [h.headLength]; exact hfl) (show t < r.head.length by rw [h.headLength]; exact htl)
      · rintro ⟨f', t'⟩
        simp only [ForbidsAt, List.mem_singleton, Prod.mk.injEq]
        rw [if_neg (by simp), huniq]
    | mandatory =>
      obtain ⟨d, h4, h5, h6⟩ := forbidOthers_ok h hD t hv hfl
      refine ⟨d, ?_, ?_, by omega⟩
      · intro acc
        rw [estart]
        simp only [hc, reduceCtorEq, if_false]
        exact h4 acc
      · rintro ⟨f', t'⟩
        rw [h5]
        simp only [ForbidsAt, decide_true, if_true, huniq]
        constructor
        · rintro ⟨rfl, h7, h8⟩; exact ⟨t, ⟨rfl, rfl⟩, h7, h8⟩
        · rintro ⟨t0, ⟨rfl, rfl⟩, h7, h8⟩; exact ⟨rfl, h7, h8⟩

end

end RK.Osm
