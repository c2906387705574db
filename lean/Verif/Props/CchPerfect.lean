import Verif.Proof.PerfectCh
import Verif.Proof.History
import Verif.Props.ChQuery
/-! # Property theorems C48 and C50 (perfect witness search on customizable contraction hierarchies; checking a hierarchy) -/
namespace RK.Props
open Spec RK

/-! ### C50: `check_contraction_hierarchy_for_errors` -/

/-- C50. If the order is a permutation then the check never leaves the vectors, and it returns without an exception
exactly if the hierarchy is well-formed. `OF` and `OB` are the contents of the bit vectors.
Partial: the order is a permutation, see `C50_bad_order_aborts`. -/
theorem C50_check_contraction_hierarchy_partial (ch : Ch) (OF OB : List Bool) (hp : IsPermutation ch.order)
    (hn : ch.rank.length < 2 ^ 32 - 1) (hF : HoldsBits ch.forward.isOriginal OF) (hB : HoldsBits ch.backward.isOriginal OB) :
    ∃ r, checkCh ch = some r ∧
      (r = true ↔ ValidHierarchy ch.rank ch.order (ch.forward.contents OF) (ch.backward.contents OB)) :=
  checkCh_spec (isPerm_iff_perm.2 hp) (by rw [invalidId_val]; omega) hF hB

/-- C50 is violated for a broken order: if the order is not a permutation then the check does not report the error but
fails an assertion (in release builds it may write out of bounds), although it is meant to detect errors in hierarchies
that were read from files. -/
theorem C50_bad_order_aborts (ch : Ch) (h : ¬ IsPermutation ch.order) : checkCh ch = none := by
  have : checkPerm ch.order = none := by
    cases e : checkPerm ch.order with
    | none => rfl
    | some u => exact absurd (isPerm_iff_perm.1 (checkPerm_iff.1 e)) h
  unfold checkCh invertPermutation
  simp only [this, Option.bind_eq_bind, Option.bind_none]

/-! ### C48 -/

/-- `c` was built, with (`filter`) or without filtering, for the arcs of `G` with any node order and any content of
uninitialised memory, and `w` are the weights of the arcs of `G`, all at most `inf_weight`; `old` are the vectors of a
metric object for `c` with any content. -/
def CchFor (filter : Bool) (c : Cch) (w : List Nat) (old : Metric) (G : QGraph) : Prop :=
  ∃ (order tail head : List Nat) (callable : Bool) (junk : Nat → Nat → Word),
    CchInput order tail head callable filter ∧ order.length ≤ 2 ^ 30 ∧
    Cch.build order tail head callable filter junk = some c ∧
    w.length = tail.length ∧ (∀ v ∈ w, v ≤ unreachable) ∧ G.n = order.length ∧ G.arcs = listArcs tail head w ∧
    old.forward.length = c.cchArcCount ∧ old.backward.length = c.cchArcCount

/-- `v` is the distance from `s` to `t`, or `inf_weight` if there is no walk shorter than that. -/
def DistOrInf (A : ArcRel) (s t v : Nat) : Prop :=
  (v < 2147483647 ∧ IsDist A s t v) ∨ (v = 2147483647 ∧ ∀ p l, Walk A s p t l → 2147483647 ≤ l)

/-- The weights `v` of the arcs of `c` are the distances between their endpoints, in direction `tail` to `head`. The
endpoints are stored by rank. -/
def DistancesAlong (A : ArcRel) (order tail head v : List Nat) : Prop :=
  v.length = tail.length ∧ ∀ a x y s t d : Nat, tail[a]? = some x → head[a]? = some y → order[x]? = some s → order[y]? = some t →
    v[a]? = some d → DistOrInf A s t d

/-- The arcs of a direction of the result: exactly those of the customizable hierarchy whose weight `v` is finite and
equal to the distance from `from` to `to`. -/
def KeepsExactly (A : ArcRel) (order tail head v : List Nat) (swap : Bool) (firstOut head' weight : List Nat) : Prop :=
  ∀ x y d : Nat, (∃ i, csrArcs firstOut head' weight i x y d) ↔
    ∃ a s t : Nat, tail[a]? = some x ∧ head[a]? = some y ∧ v[a]? = some d ∧ d < 2147483647 ∧ order[x]? = some s ∧ order[y]? = some t ∧
      (if swap then IsDist A t s d else IsDist A s t d)

/-- The arcs of the result are numbered as in the customizable hierarchy: by tail, then by head, without parallel arcs. -/
def SortedWithoutDuplicates (firstOut head : List Nat) : Prop :=
  ∀ x a a' y y' : Nat, OutArc firstOut x a → OutArc firstOut x a' → a < a' → head[a]? = some y → head[a']? = some y' → y < y'

/-- A hierarchy that the perfect witness search built for `G`. -/
def PerfectFor (ch : Ch) (G : QGraph) : Prop :=
  ∃ asserts c w old m, CchFor false c w old G ∧ old.buildPerfect asserts c w = some (ch, m)

/-- Hierarchies from any of the construction functions. -/
def HierarchyFor (ch : Ch) (G : QGraph) : Prop := BuiltFor ch G ∨ PerfectFor ch G

/-- The preconditions for query objects. -/
abbrev AnyChPre : QState → QOp Ch → Prop := QPre HierarchyFor (fun n k => k ≤ n)

theorem perfect_spec {c : Cch} {w : List Nat} {old : Metric} {G : QGraph} (h : CchFor false c w old G) (asserts : Bool) :
    ∃ ch m0 m1, old.customize c w = some m0 ∧ old.buildPerfect asserts c w = some (ch, m1) ∧
      DistancesAlong G.arcs c.order c.upTail c.upHead m1.forward ∧ DistancesAlong G.arcs c.order c.upHead c.upTail m1.backward ∧
      KeepsExactly G.arcs c.order c.upTail c.upHead m0.forward false ch.forward.firstOut ch.forward.head ch.forward.weight ∧
      KeepsExactly G.arcs c.order c.upTail c.upHead m0.backward true ch.backward.firstOut ch.backward.head ch.backward.weight ∧
      SortedWithoutDuplicates ch.forward.firstOut ch.forward.head ∧ SortedWithoutDuplicates ch.backward.firstOut ch.backward.head ∧
      ch.rank = c.rank ∧ ch.order = c.order ∧ HierOk ch G := by
  obtain ⟨order, tail, head, callable, junk, hi, hn, hb, hwl, hw, gn, ga, l1, l2⟩ := h
  obtain ⟨rt, rh, U, T, H, h1, h2, h3, h4, h5, h6, h7, h8, _⟩ := cch_built hi hb
  obtain ⟨hT, hH⟩ := h8 rfl
  have hlen := h7.graph.up.sorted.1
  have hwl' : w.length = rt.length := by rw [hwl, h2.1]
  have hsz : rt.length ≤ invalidId := by have := hi.size; rw [h2.1, invalidId_val]; omega
  have hinv : AreInverse c.order c.rank := by rw [h6]; exact h1
  have hpo : IsPerm c.order := by rw [h6]; exact isPerm_iff_perm.2 hi.perm
  have hpr : IsPerm c.rank := by
    obtain ⟨q, e, q1, q2⟩ := invert_areInverse hi.perm
    have : c.rank = q := by
      apply list_ext_rd (by rw [← h1.1, q2.1])
      intro i hi
      obtain ⟨x, hx⟩ := rd_isSome (v := c.rank) hi
      rw [hx]
      exact ((q2.2 x i).1 ((h1.2 x i).2 hx)).symm
    rw [this]; exact isPerm_iff_perm.2 q1
  obtain ⟨ch, m0, m1, k, BF, BB, f0, b0, f, b, e0, e1, hd⟩ := buildPerfect_spec h7
    (by rw [hT, hH]; exact h5) hwl' (fun _ _ hi => hw _ (List.mem_of_getElem? hi)) hsz
    (by rw [invalidId_val]; omega) hinv hpo (l1.trans hlen.symm) (l2.trans hlen.symm) asserts
  have toRank : ∀ i x y w', G.arcs i x y w' → x < order.length ∧ y < order.length ∧ listArcs rt rh w i (fn c.rank x) (fn c.rank y) w' := by
    intro i x y w' hxy
    rw [ga] at hxy
    have hx := hi.tail_lt x (List.mem_of_getElem? hxy.1)
    have hy := hi.head_lt y (List.mem_of_getElem? hxy.2.1)
    have r1 : rd c.rank x = some (fn c.rank x) := rd_fn (by rw [h7.nodes]; exact hx)
    have r2 : rd c.rank y = some (fn c.rank y) := rd_fn (by rw [h7.nodes]; exact hy)
    exact ⟨hx, hy, (h2.2 i x hxy.1).trans r1, (h3.2 i y hxy.2.1).trans r2, hxy.2.2⟩
  have ofRank : ∀ i x y w', listArcs rt rh w i x y w' → G.arcs i (fn c.order x) (fn c.order y) w' := by
    rintro i x y w' ⟨q1, q2, q3⟩
    rw [ga]
    obtain ⟨t, ht⟩ := rd_isSome (v := tail) (i := i) (by rw [← h2.1]; exact rd_some_lt (v := rt) q1)
    obtain ⟨h, hh⟩ := rd_isSome (v := head) (i := i) (by rw [← h3.1]; exact rd_some_lt (v := rh) q2)
    have r1 : rd c.rank t = some x := (h2.2 i t ht).symm.trans q1
    have r2 : rd c.rank h = some y := (h3.2 i h hh).symm.trans q2
    have o1 : fn c.order x = t := fn_of_rd ((hinv.2 _ _).2 r1)
    have o2 : fn c.order y = h := fn_of_rd ((hinv.2 _ _).2 r2)
    rw [o1, o2]
    exact ⟨ht, hh, q3⟩
  -- walks by rank and by node id
  have walkTo : ∀ {s t l : Nat} {p : List Nat}, Walk G.arcs s p t l → WL (listArcs rt rh w) (fn c.rank s) (fn c.rank t) l := by
    intro s t l p hp
    induction hp with
    | nil s => exact ⟨[], .nil _⟩
    | cons ha _ ih =>
      obtain ⟨q, hq⟩ := ih
      exact ⟨_, .cons (toRank _ _ _ _ ha).2.2 hq⟩
  have walkOf : ∀ {x y l : Nat}, WL (listArcs rt rh w) x y l → ∃ p, Walk G.arcs (fn c.order x) p (fn c.order y) l := by
    rintro x y l ⟨p, hp⟩
    induction hp with
    | nil s => exact ⟨[], .nil _⟩
    | cons ha _ ih =>
      obtain ⟨q, hq⟩ := ih
      exact ⟨_, .cons (ofRank _ _ _ _ ha) hq⟩
  have hrk : ∀ {x s : Nat}, c.order[x]? = some s → fn c.order x = s ∧ fn c.rank s = x := fun hx =>
    ⟨fn_of_rd hx, fn_of_rd ((hinv.2 _ _).1 hx)⟩
  have hP := hd.perf
  have hinf : infWeight = 2147483647 := rfl
  have u := h7.graph.up
  -- the final weights are distances
  have dF : ∀ {a x y s t : Nat}, c.upTail[a]? = some x → c.upHead[a]? = some y → c.order[x]? = some s → c.order[y]? = some t →
      (∀ p l, Walk G.arcs s p t l → f a ≤ l) ∧ (f a < infWeight → ∃ p, Walk G.arcs s p t (f a)) := by
    intro a x y s t hx hy hs ht
    obtain ⟨s1, s2⟩ := hrk hs
    obtain ⟨t1, t2⟩ := hrk ht
    refine ⟨fun p l hp => hP.fin.distF hx hy (by have := walkTo hp; rwa [s2, t2] at this), fun hlt => ?_⟩
    have := walkOf ((hP.fin.inv.sound a x y hx hy).1 hlt)
    rwa [s1, t1] at this
  have dB : ∀ {a x y s t : Nat}, c.upTail[a]? = some x → c.upHead[a]? = some y → c.order[x]? = some s → c.order[y]? = some t →
      (∀ p l, Walk G.arcs t p s l → b a ≤ l) ∧ (b a < infWeight → ∃ p, Walk G.arcs t p s (b a)) := by
    intro a x y s t hx hy hs ht
    obtain ⟨s1, s2⟩ := hrk hs
    obtain ⟨t1, t2⟩ := hrk ht
    refine ⟨fun p l hp => hP.fin.distB hx hy (by have := walkTo hp; rwa [s2, t2] at this), fun hlt => ?_⟩
    have := walkOf ((hP.fin.inv.sound a x y hx hy).2 hlt)
    rwa [s1, t1] at this
  have ordOf : ∀ {x}, x < order.length → c.order[x]? = some (fn c.order x) := fun hx => rd_fn (by rw [h6]; exact hx)
  have sortedOf : ∀ {fo hd tl : List Nat}, UpOk order.length fo hd tl → SortedWithoutDuplicates fo hd := by
    intro fo hd tl u x a a' y y' ha ha' hlt hy hy'
    have h1 := (u.csr.2 a x).1 ha
    have h2 := (u.csr.2 a' x).1 ha'
    rcases u.sorted.2 a a' x x y y' hlt h1 h2 hy hy' with h | ⟨_, h⟩
    · omega
    · exact h
  refine ⟨ch, m0, m1, e0, e1, ⟨hP.is.lenF, ?_⟩, ⟨hP.is.lenB.trans hlen, ?_⟩, ?_, ?_, sortedOf hd.res.fwd.up, sortedOf hd.res.bwd.up,
    hd.res.rank, hd.res.order, hd.hierOk hinv hpr gn hn toRank ofRank⟩
  · intro a x y s t d hx hy hs ht hd'
    have ha := rd_some_lt (v := c.upTail) hx
    cases rd_congr_some hd' (hP.is.fwd a ha)
    obtain ⟨g1, g2⟩ := dF hx hy hs ht
    have := hP.fin.leF ha
    rcases Nat.lt_or_ge (f a) infWeight with hlt | hge
    · exact Or.inl ⟨by omega, g2 hlt, g1⟩
    · exact Or.inr ⟨by omega, fun p l hp => by have := g1 p l hp; omega⟩
  · intro a y x t s d hy hx ht hs hd'
    have ha := rd_some_lt (v := c.upTail) hx
    cases rd_congr_some hd' (hP.is.bwd a ha)
    obtain ⟨g1, g2⟩ := dB hx hy hs ht
    have := hP.fin.leB ha
    rcases Nat.lt_or_ge (b a) infWeight with hlt | hge
    · exact Or.inl ⟨by omega, g2 hlt, g1⟩
    · exact Or.inr ⟨by omega, fun p l hp => by have := g1 p l hp; omega⟩
  · intro x y d
    have hr := hP.relF hd.res.fwd x y d
    refine Iff.trans hr ?_
    constructor
    · rintro ⟨a, hx, hy, hk, rfl⟩
      obtain ⟨hxy, hyn⟩ := u.up x y ⟨a, hx, hy⟩
      have hs := ordOf (x := x) (by omega)
      have ht := ordOf hyn
      obtain ⟨g1, g2⟩ := dF hx hy hs ht
      exact ⟨a, _, _, hx, hy, (hd.start.fwd a (rd_some_lt hx)).trans (by rw [hk.1]), by omega, hs, ht, g2 (by omega), g1⟩
    · rintro ⟨a, s, t, hx, hy, hv, hlt, hs, ht, hdist⟩
      simp only [Bool.false_eq_true, if_false] at hdist
      obtain ⟨g1, g2⟩ := dF hx hy hs ht
      have ha := rd_some_lt (v := c.upTail) hx
      have e : d = f0 a := rd_congr_some hv (hd.start.fwd a ha)
      subst e
      have hle := hP.fin.leF ha
      obtain ⟨p, hp⟩ := g2 (by omega)
      have := hdist.2 p _ hp
      exact ⟨a, hx, hy, ⟨by omega, by omega⟩, by omega⟩
  · intro x y d
    have hr := hP.relB hd.res.bwd x y d
    refine Iff.trans hr ?_
    constructor
    · rintro ⟨a, hx, hy, hk, rfl⟩
      obtain ⟨hxy, hyn⟩ := u.up x y ⟨a, hx, hy⟩
      have hs := ordOf (x := x) (by omega)
      have ht := ordOf hyn
      obtain ⟨g1, g2⟩ := dB hx hy hs ht
      exact ⟨a, _, _, hx, hy, (hd.start.bwd a (rd_some_lt hx)).trans (by rw [hk.1]), by omega, hs, ht, g2 (by omega), g1⟩
    · rintro ⟨a, s, t, hx, hy, hv, hlt, hs, ht, hdist⟩
      simp only [if_true] at hdist
      obtain ⟨g1, g2⟩ := dB hx hy hs ht
      have ha := rd_some_lt (v := c.upTail) hx
      have e : d = b0 a := rd_congr_some hv (hd.start.bwd a ha)
      subst e
      have hle := hP.fin.leB ha
      obtain ⟨p, hp⟩ := g2 (by omega)
      have := hdist.2 p _ hp
      exact ⟨a, hx, hy, ⟨by omega, by omega⟩, by omega⟩

/-- C48 (partial: for hierarchies built without filtering, i.e. `filter_always_inf_arcs = false`, the default). In debug
and release builds the function returns a hierarchy: no assertion fails, no exception is thrown. It keeps exactly the
arcs whose customized weight (`m0`) is finite and equal to the distance of their endpoints; the metric is left with the
distances as weights (`m1`). See `C48_filtered_*` for what goes wrong with filtered hierarchies. -/
theorem C48_keeps_exactly_the_arcs_of_shortest_paths_partial (asserts : Bool) (c : Cch) (w : List Nat) (old : Metric) (G : QGraph)
    (h : CchFor false c w old G) :
    ∃ ch m0 m1, old.customize c w = some m0 ∧ old.buildPerfect asserts c w = some (ch, m1) ∧
      DistancesAlong G.arcs c.order c.upTail c.upHead m1.forward ∧ DistancesAlong G.arcs c.order c.upHead c.upTail m1.backward ∧
      KeepsExactly G.arcs c.order c.upTail c.upHead m0.forward false ch.forward.firstOut ch.forward.head ch.forward.weight ∧
      KeepsExactly G.arcs c.order c.upTail c.upHead m0.backward true ch.backward.firstOut ch.backward.head ch.backward.weight ∧
      SortedWithoutDuplicates ch.forward.firstOut ch.forward.head ∧ SortedWithoutDuplicates ch.backward.firstOut ch.backward.head ∧
      ch.rank = c.rank ∧ ch.order = c.order := by
  obtain ⟨ch, m0, m1, h1, h2, h3, h4, h5, h6, h7, h8, h9, h10, _⟩ := perfect_spec h asserts
  exact ⟨ch, m0, m1, h1, h2, h3, h4, h5, h6, h7, h8, h9, h10⟩

theorem HierarchyFor.hierOk {ch : Ch} {G : QGraph} (h : HierarchyFor ch G) : HierOk ch G := by
  rcases h with h | ⟨asserts, c, w, old, m, h, hb⟩
  · exact h.hierOk
  · obtain ⟨ch', m0, m1, _, e, _, _, _, _, _, _, _, _, ok⟩ := perfect_spec h asserts
    cases (hb.symm.trans e : some (ch, m) = some (ch', m1))
    exact ok

theorem anyChPre {s : QState} {op : QOp Ch} (h : AnyChPre s op) : QPre HierOk (fun n k => k ≤ n) s op := by
  cases op <;> first | exact h | exact HierarchyFor.hierOk h

/-- C48 (partial, as above), queries: every legal history of calls on a query object for the resulting hierarchy is
served without undefined behaviour and with correct answers (distances, paths, pinned nodes); hierarchies from all
construction functions can be mixed. -/
theorem C48_query_histories_partial (ch : Ch) (G : QGraph) (h : HierarchyFor ch G) :
    Implements chCall QStep AnyChPre (ChQuery.new ch) (QState.fresh G) :=
  implements_of_simulation QRep (chQuery_rep_new h.hierOk) (fun _ _ _ hc hp => chCall_spec hc (anyChPre hp))

/-! ### Samples -/

/-- Builds the hierarchy for a sample graph. -/
def samplePerfect (asserts filter : Bool) (order tail head w : List Nat) : Option (Ch × Metric) := do
  let c ← Cch.build order tail head true filter (fun _ _ => 0xAAAAAAAAAAAAAAAA)
  (Metric.new c).buildPerfect asserts c w

set_option maxRecDepth 10000 in
/-- Non-vacuity: the hypotheses hold for a sample. -/
example : ∃ c, CchFor false c [4, 1, 1, 5, 7, 1, 2, 2] (Metric.new c)
    ⟨5, listArcs [0, 0, 1, 1, 2, 3, 3, 4] [1, 2, 2, 3, 3, 4, 0, 3] [4, 1, 1, 5, 7, 1, 2, 2]⟩ := by
  have h : (Cch.build [2, 4, 1, 0, 3] [0, 0, 1, 1, 2, 3, 3, 4] [1, 2, 2, 3, 3, 4, 0, 3] true false (fun _ _ => 0)).isSome = true := by
    decide +kernel
  obtain ⟨c, hc⟩ := Option.isSome_iff_exists.1 h
  refine ⟨c, [2, 4, 1, 0, 3], [0, 0, 1, 1, 2, 3, 3, 4], [1, 2, 2, 3, 3, 4, 0, 3], true, _, ⟨?_, ?_, rfl, ?_, ?_, ?_, Or.inl rfl⟩, ?_, hc, rfl,
    ?_, rfl, rfl, ?_, ?_⟩
  · unfold IsPermutation; decide
  · decide
  · decide
  · decide
  · decide
  · decide
  · show ∀ w ∈ [4, 1, 1, 5, 7, 1, 2, 2], w ≤ unreachable; decide
  · simp [Metric.new]
  · simp [Metric.new]

set_option maxRecDepth 10000 in
/-- The arcs of a sample: the arc 0→2 (rank 3→0) of weight 10 is not a shortest path and is dropped. -/
example : ((samplePerfect true false [2, 4, 1, 0, 3] [0, 0, 1, 1, 2, 3, 3, 4] [1, 2, 2, 3, 3, 4, 0, 3] [4, 10, 1, 5, 7, 1, 2, 2]).map fun r =>
    ((r.1.forward.firstOut, r.1.forward.head, r.1.forward.weight), (r.1.backward.firstOut, r.1.backward.head, r.1.backward.weight))) =
    some (([0, 1, 2, 3, 4, 4], [4, 4, 4, 4], [7, 2, 5, 9]), ([0, 1, 2, 3, 4, 4], [2, 4, 3, 4], [1, 1, 4, 2])) := by decide +kernel

/-- A hierarchy with one arc passes the check; with the arc reversed it is rejected. -/
def sampleSide (n m : Nat) (first : List Nat) : Option ChSide := do
  let v ← BitVector.new m true
  some ⟨first, List.replicate m (n - 1), List.replicate m 3, List.replicate m 0, List.replicate m 0, v⟩

set_option maxRecDepth 10000 in
example : ((sampleSide 2 1 [0, 1, 1]).bind fun f => (sampleSide 2 0 [0, 0, 0]).bind fun b => checkCh ⟨[0, 1], [0, 1], f, b⟩) = some true ∧
    ((sampleSide 2 1 [0, 0, 1]).bind fun f => (sampleSide 2 0 [0, 0, 0]).bind fun b => checkCh ⟨[0, 1], [0, 1], f, b⟩) = some false := by
  decide +kernel

/-! ### Filtered hierarchies -/

theorem cchFor_of_build {order tail head w : List Nat} {c : Cch}
    (hc : Cch.build order tail head true true (fun _ _ => 0xAAAAAAAAAAAAAAAA) = some c)
    (hi : CchInput order tail head true true) (hn : order.length ≤ 2 ^ 30) (hl : w.length = tail.length)
    (hw : ∀ v ∈ w, v ≤ unreachable) : CchFor true c w (Metric.new c) ⟨order.length, listArcs tail head w⟩ :=
  ⟨order, tail, head, true, _, hi, hn, hc, hl, hw, rfl, rfl, by simp [Metric.new], by simp [Metric.new]⟩

set_option maxRecDepth 10000 in
/-- C48 is violated for filtered hierarchies (`filter_always_inf_arcs = true`), release builds: arcs that are not
shortest paths are kept. The graph has the arcs 0→1, 1→2, 2→3, 2→0 of weight 1 and 0→3 of weight 100; the order is the
identity. The arc 0→3 is kept with weight 100 but there is a path of length 3: filtering removed the arc between 1 and 3
that would have revealed it. In debug builds an assertion fails. -/
theorem C48_filtered_keeps_too_much_violated : ∃ c w old G ch m i,
    CchFor true c w old G ∧ old.buildPerfect false c w = some (ch, m) ∧ c.order = [0, 1, 2, 3] ∧
    csrArcs ch.forward.firstOut ch.forward.head ch.forward.weight i 0 3 100 ∧ (∃ p, Walk G.arcs 0 p 3 3) ∧
    old.buildPerfect true c w = none := by
  have h1 : ((samplePerfect false true [0, 1, 2, 3] [0, 1, 2, 2, 0] [1, 2, 3, 0, 3] [1, 1, 1, 1, 100]).map fun r =>
      (r.1.forward.firstOut, r.1.forward.head, r.1.forward.weight)) = some ([0, 2, 3, 4, 4], [1, 3, 2, 3], [1, 100, 1, 1]) := by
    decide +kernel
  have h2 : ((samplePerfect true true [0, 1, 2, 3] [0, 1, 2, 2, 0] [1, 2, 3, 0, 3] [1, 1, 1, 1, 100]).map fun r =>
      r.1.order) = none := by decide +kernel
  have h3 : ((Cch.build [0, 1, 2, 3] [0, 1, 2, 2, 0] [1, 2, 3, 0, 3] true true (fun _ _ => 0xAAAAAAAAAAAAAAAA)).map Cch.order) =
      some [0, 1, 2, 3] := by decide +kernel
  obtain ⟨c, hc, ho⟩ := Option.map_eq_some_iff.1 h3
  simp only [samplePerfect, hc, Option.bind_eq_bind, Option.bind_some] at h1 h2
  obtain ⟨⟨ch, m⟩, hb, he⟩ := Option.map_eq_some_iff.1 h1
  have e1 := congrArg (·.1) he
  have e2 := congrArg (·.2.1) he
  have e3 := congrArg (·.2.2) he
  simp only at e1 e2 e3
  refine ⟨c, [1, 1, 1, 1, 100], Metric.new c, ⟨4, listArcs [0, 1, 2, 2, 0] [1, 2, 3, 0, 3] [1, 1, 1, 1, 100]⟩, ch, m, 1,
    cchFor_of_build hc ⟨?_, ?_, rfl, ?_, ?_, ?_, Or.inl rfl⟩ ?_ rfl ?_, hb, ho, ?_, ?_, Option.map_eq_none_iff.1 h2⟩
  · unfold IsPermutation; decide
  · decide
  · decide
  · decide
  · decide
  · decide
  · show ∀ w ∈ [1, 1, 1, 1, 100], w ≤ unreachable; decide
  · rw [e1, e2, e3]
    exact ⟨⟨0, 2, rfl, rfl, by decide, by decide⟩, rfl, rfl⟩
  · exact ⟨[0, 1, 2], .cons (a := 0) (w := 1) ⟨rfl, rfl, rfl⟩ (.cons (a := 1) (w := 1) ⟨rfl, rfl, rfl⟩
      (.cons (a := 2) (w := 1) ⟨rfl, rfl, rfl⟩ (.nil 3)))⟩

set_option maxRecDepth 10000 in
/-- C48 is violated for filtered hierarchies: for the graph 1→0, 0→4, 0→2 of weight 100 and 3→0, 1→2, 2→3 of weight 1 no
hierarchy is built. In debug builds an assertion fails, in release builds the final check throws. -/
theorem C48_filtered_aborts_violated : ∃ c w old G, CchFor true c w old G ∧ ∀ asserts, old.buildPerfect asserts c w = none := by
  have h1 : ∀ asserts, ((samplePerfect asserts true [0, 1, 2, 3, 4] [1, 0, 0, 3, 1, 2] [0, 4, 2, 0, 2, 3] [100, 100, 100, 1, 1, 1]).map fun r =>
      r.1.order) = none := by decide +kernel
  have h3 : (Cch.build [0, 1, 2, 3, 4] [1, 0, 0, 3, 1, 2] [0, 4, 2, 0, 2, 3] true true (fun _ _ => 0xAAAAAAAAAAAAAAAA)).isSome = true := by
    decide +kernel
  obtain ⟨c, hc⟩ := Option.isSome_iff_exists.1 h3
  simp only [samplePerfect, hc, Option.bind_eq_bind, Option.bind_some] at h1
  refine ⟨c, [100, 100, 100, 1, 1, 1], Metric.new c, _, cchFor_of_build hc ⟨?_, ?_, rfl, ?_, ?_, ?_, Or.inl rfl⟩ ?_ rfl ?_,
    fun a => Option.map_eq_none_iff.1 (h1 a)⟩
  · unfold IsPermutation; decide
  · decide
  · decide
  · decide
  · decide
  · decide
  · show ∀ w ∈ [100, 100, 100, 1, 1, 1], w ≤ unreachable; decide

end RK.Props
