import Mathlib.Data.List.ProdSigma
import Verif.Props.CchQuery
import Verif.Props.Cch
import Verif.Props.CchMetric
import Verif.Props.ChTotal
import Verif.Props.Tools
/-!
# C81: all three ways to compute a distance agree

Dijkstra's algorithm, contraction hierarchies and customizable contraction hierarchies, each used as in the documentation.
-/
namespace RK.Props
open RK _root_.Spec

/-- Dijkstra's algorithm from `s`, until all nodes are settled. -/
def dijkstraDistance (n : Nat) (firstOut tail head weight : List Nat) (s t : Nat) : Option Nat := do
  let d ← Dijkstra.new ⟨firstOut, tail, head⟩
  let d ← d.addSource s 0
  let d ← Dijkstra.runLoop (scalarGetWeight weight) (n + 1) d
  d.getDistanceTo t

/-- A query on a contraction hierarchy. -/
def chDistance (ch : Ch) (s t : Nat) : Option Nat := do
  let q ← (ChQuery.new ch).addSource s 0
  let q ← q.addTarget t 0
  let q ← q.run
  q.getDistance

/-- A query on a customized metric. -/
def cchDistance (on : CchHandle) (s t : Nat) : Option Nat := do
  let q ← (CchQuery.new on).addSource s 0
  let q ← q.addTarget t 0
  let q ← q.run
  q.getDistance

/-- A graph as an adjacency array and with the tail of each arc; arcs of weight `inf_weight` are closed; no path without cycles is
as long as `inf_weight`. -/
structure PlainGraph (n : Nat) (firstOut tail head weight : List Nat) : Prop where
  csr : IsCSR n firstOut head
  nodes : n ≤ 2 ^ 30
  size : head.length < 2 ^ 31
  tails : tail.length = head.length
  own : ∀ (x a : Nat), OutArc firstOut x a → tail[a]? = some x
  weights : weight.length = head.length
  short : ∃ W, (∀ w ∈ weight, w < 2147483647 → w ≤ W) ∧ n * W < 2147483647

/-- A walk that is shorter than `inf_weight` uses no closed arc. -/
theorem walk_open {fo hd wt : List Nat} {s t l : Nat} {p : List Nat} (h : Walk (csrArcs fo hd wt) s p t l) :
    l < 2147483647 → Walk (openArcs fo hd wt) s p t l := by
  induction h with
  | nil => exact fun _ => .nil _
  | cons ha _ ih =>
    intro hl
    exact .cons ⟨ha, by unfold closed; omega⟩ (ih (by omega))

theorem walk_all {fo hd wt : List Nat} {s t l : Nat} {p : List Nat} (h : Walk (openArcs fo hd wt) s p t l) : Walk (csrArcs fo hd wt) s p t l := by
  induction h with
  | nil => exact .nil _
  | cons ha _ ih => exact .cons ha.1 ih

/-- C81: on the same graph, for every contraction hierarchy that was built for it (any order, any limit of the witness searches) and
for every metric of a customizable contraction hierarchy that was built for it (any order), all three report the same number for
every pair of nodes: the exact distance, or `inf_weight` if there is no path. -/
theorem C81_same_distance (n : Nat) (firstOut tail head weight : List Nat) (h : PlainGraph n firstOut tail head weight)
    (ch : Ch) (hch : BuiltFor ch ⟨n, listArcs tail head weight⟩)
    (heap : Nat → Cch) (on : CchHandle) (hon : CustomizedFor heap on ⟨n, listArcs tail head weight⟩)
    (s t : Nat) (hs : s < n) (ht : t < n) :
    ∃ d, dijkstraDistance n firstOut tail head weight s t = some d ∧ chDistance ch s t = some d ∧ cchDistance on s t = some d ∧
      (IsDist (openArcs firstOut head weight) s t d ∨ ¬ Reachable (openArcs firstOut head weight) s t ∧ d = 2147483647) := by
  obtain ⟨W, hW, hfit⟩ := h.short
  have harcs : listArcs tail head weight = csrArcs firstOut head weight := isTail_arcs h.csr ⟨h.tails, h.own⟩
  obtain ⟨d0, d1, d2, e0, e1, e2, hd⟩ := C16_scalar_one_to_all_small n firstOut tail head weight h.csr h.nodes (by have := h.size; omega)
    h.tails h.own h.weights W hW (by omega) s hs
  obtain ⟨k, ek, hk⟩ := hd t ht
  obtain ⟨q1, q2, q3, c, ca, cn, f1, f2, f3, f4, _, _, hc⟩ := C22_C23_one_to_one ch _ hch s t hs ht
  obtain ⟨r1, r2, r3, m, ma, mn, g1, g2, g3, g4, _, _, hm⟩ := C30_C31_one_to_one heap on _ hon s t hs ht
  have key : ∀ c, ((c < 2147483647 ∧ IsDist (csrArcs firstOut head weight) s t c) ∨
      (c = 2147483647 ∧ ∀ p l, Walk (csrArcs firstOut head weight) s p t l → 2147483647 ≤ l)) → c = k := by
    rintro c (⟨l1, ⟨p, hp⟩, l3⟩ | ⟨rfl, l2⟩)
    · rcases hk with ⟨⟨p', hp'⟩, k2⟩ | ⟨k1, _⟩
      · exact Nat.le_antisymm (l3 _ _ (walk_all hp')) (k2 _ _ (walk_open hp l1))
      · exact absurd ⟨p, c, walk_open hp l1⟩ k1
    · rcases hk with hk | ⟨_, rfl⟩
      · obtain ⟨p', hp'⟩ := hk.1
        have h1 := l2 _ _ (walk_all hp')
        have h2 := isDist_le (A := openArcs firstOut head weight) (n := n) (W := W) (fun a x y w h' => h.csr.head_lt a y h'.1.2.1)
          (fun a x y w h => hW w (List.mem_of_getElem? h.1.2.2) (by have := h.2; unfold closed at this; exact this)) hs hk
        omega
      · rfl
  rw [show (⟨n, listArcs tail head weight⟩ : QGraph).arcs = csrArcs firstOut head weight from harcs] at hc hm
  have hck : c = k := key c (hc.imp (fun h => ⟨h.1, h.2.1⟩) fun h => ⟨h.1, h.2.1⟩)
  have hmk : m = k := key m (hm.imp (fun h => ⟨h.1, h.2.1⟩) fun h => ⟨h.1, h.2.1⟩)
  subst hck hmk
  refine ⟨m, ?_, ?_, ?_, hk⟩
  · simp [dijkstraDistance, e0, e1, e2, ek]
  · simp [chDistance, f1, f2, f3, f4]
  · simp [cchDistance, g1, g2, g3, g4]

theorem innerPath_last {E : Nat → Nat → Prop} {inner : Nat → Prop} {x y : Nat} (h : InnerPath E inner x y) : ∃ z, E z y := by
  induction h with
  | edge h => exact ⟨_, h⟩
  | step _ _ _ ih => exact ih

/-- C25 for graphs with less than 65536 nodes: the constructor succeeds. -/
theorem C25_succeeds_small (order tail head : List Nat) (callable filter : Bool) (junk : Nat → Nat → Word)
    (h : CchInput order tail head callable filter) (hn : order.length ≤ 65535) :
    ∃ c, Cch.build order tail head callable filter junk = some c := by
  obtain ⟨rank, hr, hiff⟩ := C25_succeeds_iff order tail head callable filter junk h
  refine hiff.2 ⟨(List.range order.length) ×ˢ (List.range order.length), ?_, ?_⟩
  · rw [List.length_product, List.length_range]
    calc order.length * order.length ≤ 65535 * 65535 := Nat.mul_le_mul hn hn
      _ < 2 ^ 32 := by decide
  · rintro x y ⟨hxy, hp⟩
    have hy : y < order.length := by
      obtain ⟨z, ⟨a, t, k, _, _, _, h4⟩ | ⟨a, t, k, _, _, h4, _⟩⟩ := innerPath_last hp
      · exact (List.getElem?_eq_some_iff.1 ((hr.2 _ _).2 h4)).1
      · exact (List.getElem?_eq_some_iff.1 ((hr.2 _ _).2 h4)).1
    exact List.mem_product.2 ⟨List.mem_range.2 (by omega), List.mem_range.2 hy⟩

/-- C81 from the input on: for every two orders both hierarchies are built, the metric is customized, and all distances agree. The
construction of the contraction hierarchy is known to return in the cases of C78. -/
theorem built_agree {n : Nat} {firstOut tail head weight : List Nat} (h : PlainGraph n firstOut tail head weight) (hn : n ≤ 65535) (hpos : n ≠ 0)
    (hw : ∀ w ∈ weight, w ≤ 2 * lightArc) {ch : Ch} (hch : BuiltFor ch ⟨n, listArcs tail head weight⟩)
    (order : List Nat) (hp : IsPermutation order) (hl : order.length = n) (callable filter : Bool) (hlog : callable = true ∨ filter = true)
    (junk : Nat → Nat → Word) :
    ∃ c m, Cch.build order tail head callable filter junk = some c ∧ (Metric.new c).customize c weight = some m ∧
      ∀ addr s t, s < n → t < n → ∃ d, dijkstraDistance n firstOut tail head weight s t = some d ∧ chDistance ch s t = some d ∧
        cchDistance ⟨addr, c, m, weight⟩ s t = some d ∧
        (IsDist (openArcs firstOut head weight) s t d ∨ ¬ Reachable (openArcs firstOut head weight) s t ∧ d = 2147483647) := by
  have hi : CchInput order tail head callable filter :=
    ⟨hp, by intro e; subst e; simp at hl; omega, h.tails, by rw [hl]; exact isTail_lt h.csr ⟨h.tails, h.own⟩,
      fun x hx => by
        obtain ⟨a, ha⟩ := List.getElem?_of_mem hx
        rw [hl]
        exact h.csr.head_lt a x ha,
      by rw [h.tails]; exact h.size, hlog⟩
  obtain ⟨c, ec⟩ := C25_succeeds_small order tail head callable filter junk hi (by omega)
  have hw' : ∀ w ∈ weight, w ≤ infWeight := fun w hx => by
    have h1 := hw w hx
    have h2 : lightArc = 357913941 := rfl
    have h3 : infWeight = 2147483647 := rfl
    omega
  obtain ⟨m, em, _⟩ := C27_customized_weights order tail head callable filter junk c hi ec weight (by rw [h.weights, h.tails]) hw' (Metric.new c)
    (by simp [Metric.new]) (by simp [Metric.new])
  refine ⟨c, m, ec, em, fun addr s t hs ht => ?_⟩
  exact C81_same_distance n firstOut tail head weight h ch hch (fun _ => c) ⟨addr, c, m, weight⟩
    ⟨order, tail, head, callable, filter, junk, Metric.new c, hi, by omega, ec, by rw [h.weights, h.tails], hw', hl.symm, rfl, by simp [Metric.new],
      by simp [Metric.new], em, rfl⟩ s t hs ht

/-- C81 for all small graphs: everything is built, and all distances agree. -/
theorem C81_small_graphs (n : Nat) (firstOut tail head weight : List Nat) (csr : IsCSR n firstOut head) (htails : tail.length = head.length)
    (hown : ∀ (x a : Nat), OutArc firstOut x a → tail[a]? = some x) (hweights : weight.length = head.length) (hsize : head.length < 2 ^ 31)
    (W : Nat) (hW : ∀ w ∈ weight, w ≤ W) (hpos : n ≠ 0) (hn : n ≤ 26) (hfit : 2 ^ n * W ≤ lightArc)
    (asserts : Bool) (maxPop : Nat) (junkF junkB : Nat → Word) (hne : asserts = true → tail ≠ [])
    (chOrder : List Nat) (hp1 : IsPermutation chOrder) (hl1 : chOrder.length = n)
    (cchOrder : List Nat) (hp2 : IsPermutation cchOrder) (hl2 : cchOrder.length = n)
    (callable filter : Bool) (hlog : callable = true ∨ filter = true) (junk : Nat → Nat → Word) :
    ∃ ch c m, Ch.buildGivenOrder asserts chOrder tail head weight maxPop junkF junkB = some ch ∧
      Cch.build cchOrder tail head callable filter junk = some c ∧ (Metric.new c).customize c weight = some m ∧
      ∀ addr s t, s < n → t < n → ∃ d, dijkstraDistance n firstOut tail head weight s t = some d ∧ chDistance ch s t = some d ∧
        cchDistance ⟨addr, c, m, weight⟩ s t = some d ∧
        (IsDist (openArcs firstOut head weight) s t d ∨ ¬ Reachable (openArcs firstOut head weight) s t ∧ d = 2147483647) := by
  have hla : lightArc = 357913941 := rfl
  have hWs : W ≤ lightArc := Nat.le_trans (Nat.le_mul_of_pos_left W (by positivity)) hfit
  have hnW : n * W ≤ lightArc := Nat.le_trans (Nat.mul_le_mul_right W (Nat.le_of_lt (Nat.lt_two_pow_self (n := n)))) hfit
  have hw : ∀ w ∈ weight, w ≤ 2 * lightArc := fun w hx => by have := hW w hx; omega
  have h : PlainGraph n firstOut tail head weight :=
    ⟨csr, by omega, hsize, htails, hown, hweights, W, fun w hx _ => hW w hx, by omega⟩
  have hin : GraphInput ⟨n, listArcs tail head weight⟩ tail head weight :=
    ⟨rfl, htails.symm, by rw [hweights, htails], isTail_lt csr ⟨htails, hown⟩,
      fun x hx => by
        obtain ⟨a, ha⟩ := List.getElem?_of_mem hx
        exact csr.head_lt a x ha,
      hw, h.nodes, by rw [htails]; omega⟩
  obtain ⟨_, h2⟩ := C78_small_graphs ⟨n, listArcs tail head weight⟩ tail head weight hin asserts maxPop W junkF junkB hne hW hn hfit
  obtain ⟨_, ch, e, hch⟩ := h2 chOrder hp1 hl1
  obtain ⟨c, m, e1, e2, e3⟩ := built_agree h (by omega) hpos hw hch cchOrder hp2 hl2 callable filter hlog junk
  exact ⟨ch, c, m, e, e1, e2, e3⟩

/-- C81 for all graphs whose arcs are shortest paths (up to parallel arcs), if the witness searches are not cut off. -/
theorem C81_tight_graphs (n : Nat) (firstOut tail head weight : List Nat) (csr : IsCSR n firstOut head) (htails : tail.length = head.length)
    (hown : ∀ (x a : Nat), OutArc firstOut x a → tail[a]? = some x) (hweights : weight.length = head.length) (hsize : head.length < 2 ^ 31)
    (htight : TightArcs (listArcs tail head weight))
    (W : Nat) (hW : ∀ w ∈ weight, w ≤ W) (hpos : n ≠ 0) (hn : n ≤ 65535) (hfit : n * W ≤ lightArc)
    (asserts : Bool) (maxPop : Nat) (hpop : 2 * n ≤ maxPop) (junkF junkB : Nat → Word) (hne : asserts = true → tail ≠ [])
    (chOrder : List Nat) (hp1 : IsPermutation chOrder) (hl1 : chOrder.length = n)
    (cchOrder : List Nat) (hp2 : IsPermutation cchOrder) (hl2 : cchOrder.length = n)
    (callable filter : Bool) (hlog : callable = true ∨ filter = true) (junk : Nat → Nat → Word) :
    ∃ ch c m, Ch.buildGivenOrder asserts chOrder tail head weight maxPop junkF junkB = some ch ∧
      Cch.build cchOrder tail head callable filter junk = some c ∧ (Metric.new c).customize c weight = some m ∧
      ∀ addr s t, s < n → t < n → ∃ d, dijkstraDistance n firstOut tail head weight s t = some d ∧ chDistance ch s t = some d ∧
        cchDistance ⟨addr, c, m, weight⟩ s t = some d ∧
        (IsDist (openArcs firstOut head weight) s t d ∨ ¬ Reachable (openArcs firstOut head weight) s t ∧ d = 2147483647) := by
  have hla : lightArc = 357913941 := rfl
  have hWs : W ≤ lightArc := Nat.le_trans (Nat.le_mul_of_pos_left W (by omega)) hfit
  have hw : ∀ w ∈ weight, w ≤ 2 * lightArc := fun w hx => by have := hW w hx; omega
  have h : PlainGraph n firstOut tail head weight :=
    ⟨csr, by omega, hsize, htails, hown, hweights, W, fun w hx _ => hW w hx, by omega⟩
  have hin : GraphInput ⟨n, listArcs tail head weight⟩ tail head weight :=
    ⟨rfl, htails.symm, by rw [hweights, htails], isTail_lt csr ⟨htails, hown⟩,
      fun x hx => by
        obtain ⟨a, ha⟩ := List.getElem?_of_mem hx
        exact csr.head_lt a x ha,
      hw, h.nodes, by rw [htails]; omega⟩
  obtain ⟨h2, _⟩ := C78_tight_graphs ⟨n, listArcs tail head weight⟩ tail head weight hin htight asserts maxPop W junkF junkB hne hpop hW hn hfit
  obtain ⟨_, ch, e, hch⟩ := h2 chOrder hp1 hl1
  obtain ⟨c, m, e1, e2, e3⟩ := built_agree h hn hpos hw hch cchOrder hp2 hl2 callable filter hlog junk
  exact ⟨ch, c, m, e, e1, e2, e3⟩

/-- The hypotheses are satisfiable: two paths of the same length, a heavier parallel arc and a loop. The two orders differ. -/
example : PlainGraph 4 [0, 3, 4, 6, 6] [0, 0, 0, 1, 2, 2] [1, 1, 2, 3, 3, 2] [1, 9, 1, 2, 2, 3] ∧
    TightArcs (listArcs [0, 0, 0, 1, 2, 2] [1, 1, 2, 3, 3, 2] [1, 9, 1, 2, 2, 3]) ∧ 2 ^ 4 * 9 ≤ lightArc ∧ 2 * 4 ≤ 500 ∧
    IsPermutation [1, 2, 0, 3] ∧ IsPermutation [3, 1, 0, 2] := by
  refine ⟨⟨(csr_iff rfl).2 (by decide), by decide, by decide, rfl, ?_, rfl, 9, by decide, by decide⟩, tightSample_tight, by decide, by decide,
    by unfold IsPermutation; decide, by unfold IsPermutation; decide⟩
  rintro x a ⟨b, e, h1, h2, h3, h4⟩
  match x with
  | 0 => simp at h1 h2; subst h1 h2; have : a = 0 ∨ a = 1 ∨ a = 2 := by omega
         rcases this with rfl | rfl | rfl <;> rfl
  | 1 => simp at h1 h2; subst h1 h2; have : a = 3 := by omega
         subst this; rfl
  | 2 => simp at h1 h2; subst h1 h2; have : a = 4 ∨ a = 5 := by omega
         rcases this with rfl | rfl <;> rfl
  | 3 => simp at h1 h2; omega
  | x + 4 => simp at h1 h2

end RK.Props
