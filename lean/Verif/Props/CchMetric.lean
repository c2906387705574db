import Verif.Proof.CchPartial
import Verif.Spec.Vector
/-! # Property theorems C27, C29 and C33 (customizable_contraction_hierarchy.cpp, customization) -/
namespace RK.Props
open Spec RK

private theorem rankArcs_eq {rank tail head rt rh w : List Nat} (h1 : Ranked rank tail rt) (h2 : Ranked rank head rh) :
    rankArcs rank tail head w = listArcs rt rh w := by
  funext i x y v
  apply propext
  constructor
  · rintro ⟨t, h, q1, q2, q3, q4, q5⟩
    exact ⟨(h1.2 i t q1).trans q3, (h2.2 i h q2).trans q4, q5⟩
  · rintro ⟨q1, q2, q3⟩
    obtain ⟨t, ht⟩ := rd_isSome (v := tail) (i := i) (by rw [← h1.1]; exact rd_some_lt (v := rt) q1)
    obtain ⟨h, hh⟩ := rd_isSome (v := head) (i := i) (by rw [← h2.1]; exact rd_some_lt (v := rh) q2)
    exact ⟨t, h, ht, hh, (h1.2 i t ht).symm.trans q1, (h2.2 i h hh).symm.trans q2, q3⟩

private theorem weightsOk_of {w : List Nat} (h : ∀ v ∈ w, v ≤ infWeight) : WeightsOk w := fun _ _ hi =>
  h _ (List.mem_of_getElem? hi)

/-- C27. Customization always succeeds, whatever the metric contained before. The weight of the up arc from `x` to `y`
(ranks) is the length of a shortest path of the input graph from `x` to `y` that has only inner nodes below `x`, the
backward weight that of a shortest such path from `y` to `x`; it is `inf_weight` if there is no such path or none
shorter than `inf_weight`. This holds with and without filtering. -/
theorem C27_customized_weights (order tail head : List Nat) (callable filter : Bool) (junk : Nat → Nat → Word) (c : Cch)
    (h : CchInput order tail head callable filter) (hb : Cch.build order tail head callable filter junk = some c)
    (w : List Nat) (hwl : w.length = tail.length) (hw : ∀ v ∈ w, v ≤ infWeight)
    (m : Metric) (hf : m.forward.length = c.cchArcCount) (hbw : m.backward.length = c.cchArcCount) :
    ∃ m', m.customize c w = some m' ∧ m'.forward.length = c.cchArcCount ∧ m'.backward.length = c.cchArcCount ∧
      ∀ a x y : Nat, c.upTail[a]? = some x → c.upHead[a]? = some y →
        ∃ f b : Nat, m'.forward[a]? = some f ∧ m'.backward[a]? = some b ∧
          IsInnerMin (rankArcs c.rank tail head w) (fun z => z < x) infWeight x y f ∧
          IsInnerMin (rankArcs c.rank tail head w) (fun z => z < x) infWeight y x b := by
  obtain ⟨rt, rh, U, T, H, h1, h2, h3, h4, h5, h6, h7, _⟩ := cch_built h hb
  have hlen := h7.graph.up.sorted.1
  have hwl' : w.length = rt.length := by rw [hwl, h2.1]
  obtain ⟨m', f, b, e, hm, hc⟩ := customize_inv h7 hwl' (weightsOk_of hw) (m := m) (hf.trans hlen.symm) (hbw.trans hlen.symm)
  refine ⟨m', e, hm.lenF.trans hlen, hm.lenB.trans hlen, ?_⟩
  intro a x y hx hy
  have hmin := hc.isMin h7 hwl' hx hy
  rw [rankArcs_eq h2 h3]
  exact ⟨f a, b a, hm.fwd a (rd_some_lt hx), hm.bwd a (rd_some_lt hx), hmin.1, hmin.2⟩

/-- C27. Equivalently: each weight is the smallest among the weights of the input arcs between the two nodes in that
direction and the lengths of the two-arc detours over a common lower neighbour, at most `inf_weight`. -/
theorem C27_minimum_over_lower_triangles (order tail head : List Nat) (callable filter : Bool) (junk : Nat → Nat → Word)
    (c : Cch) (h : CchInput order tail head callable filter) (hb : Cch.build order tail head callable filter junk = some c)
    (w : List Nat) (hwl : w.length = tail.length) (hw : ∀ v ∈ w, v ≤ infWeight) (m m' : Metric)
    (hf : m.forward.length = c.cchArcCount) (hbw : m.backward.length = c.cchArcCount) (hm : m.customize c w = some m')
    (a x y f b : Nat) (hx : c.upTail[a]? = some x) (hy : c.upHead[a]? = some y) (ef : m'.forward[a]? = some f)
    (eb : m'.backward[a]? = some b) :
    let forwardCandidate := fun s => (∃ i, rankArcs c.rank tail head w i x y s) ∨
      ∃ zx zy z p q : Nat, c.upTail[zx]? = some z ∧ c.upHead[zx]? = some x ∧ c.upTail[zy]? = some z ∧ c.upHead[zy]? = some y ∧
        m'.backward[zx]? = some p ∧ m'.forward[zy]? = some q ∧ s = p + q
    let backwardCandidate := fun s => (∃ i, rankArcs c.rank tail head w i y x s) ∨
      ∃ zx zy z p q : Nat, c.upTail[zx]? = some z ∧ c.upHead[zx]? = some x ∧ c.upTail[zy]? = some z ∧ c.upHead[zy]? = some y ∧
        m'.backward[zy]? = some p ∧ m'.forward[zx]? = some q ∧ s = p + q
    (f ≤ infWeight ∧ (∀ s, forwardCandidate s → f ≤ s) ∧ (f = infWeight ∨ forwardCandidate f)) ∧
    (b ≤ infWeight ∧ (∀ s, backwardCandidate s → b ≤ s) ∧ (b = infWeight ∨ backwardCandidate b)) := by
  intro fc bc
  obtain ⟨rt, rh, U, T, H, h1, h2, h3, h4, h5, h6, h7, _⟩ := cch_built h hb
  have hlen := h7.graph.up.sorted.1
  have hwl' : w.length = rt.length := by rw [hwl, h2.1]
  obtain ⟨m'', f', b', e, hm', hc⟩ := customize_inv h7 hwl' (weightsOk_of hw) (m := m) (hf.trans hlen.symm) (hbw.trans hlen.symm)
  cases (hm.symm.trans e : some m' = some m'')
  have ha := rd_some_lt (v := c.upTail) hx
  have e1 : f = f' a := rd_congr_some ef (hm'.fwd a ha)
  have e2 : b = b' a := rd_congr_some eb (hm'.bwd a ha)
  have hcons := cons_of_cinv h7.graph.up hc (h7.keep' hwl') a x y hx hy
  subst e1; subst e2
  constructor
  · refine hcons.1.congr fun s => ?_
    show _ ↔ (_ ∨ _)
    rw [rankArcs_eq h2 h3]
    refine or_congr Iff.rfl ?_
    constructor
    · rintro ⟨T, z, rfl, hT, rfl⟩
      exact ⟨T.bottom, T.mid, z, _, _, hT.bt, hT.bh, hT.mt, hT.mh, hm'.bwd _ (rd_some_lt hT.bt), hm'.fwd _ (rd_some_lt hT.mt), rfl⟩
    · rintro ⟨zx, zy, z, p, q, q1, q2, q3, q4, q5, q6, rfl⟩
      refine ⟨⟨zx, zy, a⟩, z, rfl, ⟨q1, q2, q3, q4, hx, hy⟩, ?_⟩
      rw [rd_congr_some q5 (hm'.bwd _ (rd_some_lt (v := c.upTail) q1)), rd_congr_some q6 (hm'.fwd _ (rd_some_lt (v := c.upTail) q3))]
  · refine hcons.2.congr fun s => ?_
    show _ ↔ (_ ∨ _)
    rw [rankArcs_eq h2 h3]
    refine or_congr Iff.rfl ?_
    constructor
    · rintro ⟨T, z, rfl, hT, rfl⟩
      exact ⟨T.bottom, T.mid, z, _, _, hT.bt, hT.bh, hT.mt, hT.mh, hm'.bwd _ (rd_some_lt hT.mt), hm'.fwd _ (rd_some_lt hT.bt),
        Nat.add_comm _ _⟩
    · rintro ⟨zx, zy, z, p, q, q1, q2, q3, q4, q5, q6, rfl⟩
      refine ⟨⟨zx, zy, a⟩, z, rfl, ⟨q1, q2, q3, q4, hx, hy⟩, ?_⟩
      rw [rd_congr_some q5 (hm'.bwd _ (rd_some_lt (v := c.upTail) q3)), rd_congr_some q6 (hm'.fwd _ (rd_some_lt (v := c.upTail) q1)),
        Nat.add_comm]

/-- A square with a diagonal inserted by the elimination of node 3, some arcs in both directions, a loop and a
parallel arc. -/
private def exTail : List Nat := [0, 1, 2, 3, 0, 1, 1]
private def exHead : List Nat := [1, 2, 3, 0, 1, 1, 0]
private def exOrder : List Nat := [3, 1, 0, 2]

private theorem ex_input (filter : Bool) : CchInput exOrder exTail exHead true filter := by
  refine ⟨by unfold IsPermutation; decide, by decide, by decide, by decide, by decide, by decide, Or.inl rfl⟩

set_option maxRecDepth 10000 in
example : ((Cch.build exOrder exTail exHead true false (fun _ _ => 0xAAAAAAAAAAAAAAAA)).bind fun c =>
      (Metric.new c).customize c [5, 6, 7, 8, 4, 1, 9]) =
    some ⟨[8, infWeight, 9, 6, 10], [infWeight, 7, 4, infWeight, 15]⟩ := by decide +kernel

/-- Weights above `inf_weight` are not supported: sums of two weights wrap around and yield a weight below that of
the only path. Here the path from node 1 over node 0 to node 2 has length 2^32 + 1, the shortcut gets weight 1. -/
theorem C27_large_weights_wrap :
    ((Cch.build [0, 1, 2] [1, 0] [0, 2] true false (fun _ _ => 0)).bind fun c =>
      (extractAll c [4294967295, 2] (Metric.new c)).bind fun m =>
        (forRange 0 c.nodeCount (List.replicate c.nodeCount 0, m) (customizeNode c)).map fun s => (c.upTail, c.upHead, s.2.forward)) =
      some ([0, 0, 1], [1, 2, 2], [infWeight, 2, 1]) ∧
    InnerWalk (listArcs [1, 0] [0, 2] [4294967295, 2]) (fun z => z < 1) 1 [0, 1] 2 4294967297 := by
  constructor
  · decide +kernel
  · exact .step (z := 0) (w := 4294967295) (l := 2) ⟨rfl, rfl, rfl⟩ (by decide) (.edge ⟨rfl, rfl, rfl⟩)

/-- C33 (weights). Filtering changes no weight: an arc that is kept gets the same two weights as without filtering,
and the arcs that are removed would have had weight `inf_weight` in both directions. -/
theorem C33_same_weights (order tail head : List Nat) (callable callable' : Bool) (junk junk' : Nat → Nat → Word)
    (c c' : Cch) (h : CchInput order tail head callable true) (hb : Cch.build order tail head callable true junk = some c)
    (h' : CchInput order tail head callable' false) (hb' : Cch.build order tail head callable' false junk' = some c')
    (w : List Nat) (hwl : w.length = tail.length) (hw : ∀ v ∈ w, v ≤ infWeight) :
    ∃ m m', (Metric.new c).customize c w = some m ∧ (Metric.new c').customize c' w = some m' ∧
      ∀ a' x y : Nat, c'.upTail[a']? = some x → c'.upHead[a']? = some y →
        (∀ a : Nat, c.upTail[a]? = some x → c.upHead[a]? = some y →
          m.forward[a]? = m'.forward[a']? ∧ m.backward[a]? = m'.backward[a']?) ∧
        ((¬ ∃ a : Nat, c.upTail[a]? = some x ∧ c.upHead[a]? = some y) →
          m'.forward[a']? = some infWeight ∧ m'.backward[a']? = some infWeight) := by
  obtain ⟨m, e, _, _, hm⟩ := C27_customized_weights order tail head callable true junk c h hb w hwl hw (Metric.new c)
    (by simp [Metric.new]) (by simp [Metric.new])
  obtain ⟨m', e', _, _, hm'⟩ := C27_customized_weights order tail head callable' false junk' c' h' hb' w hwl hw (Metric.new c')
    (by simp [Metric.new]) (by simp [Metric.new])
  obtain ⟨rt, rh, U, T, H, h1, h2, h3, h4, h5, h6, h7, _, h8⟩ := cch_built h hb
  obtain ⟨_, _, _, _, _, h1', _⟩ := cch_built h' hb'
  have hrank : c.rank = c'.rank := by
    apply list_ext_rd
    · rw [← h1.1, ← h1'.1]
    · intro j _
      have hh : ∀ i, rd c.rank j = some i ↔ rd c'.rank j = some i := fun i => (h1.2 i j).symm.trans (h1'.2 i j)
      cases e : rd c.rank j with
      | none =>
        cases e' : rd c'.rank j with
        | none => rfl
        | some i => rw [(hh i).2 e'] at e; cases e
      | some i => exact ((hh i).1 e).symm
  refine ⟨m, m', e, e', ?_⟩
  intro a' x y hx' hy'
  obtain ⟨f', b', ef', eb', k1', k2'⟩ := hm' a' x y hx' hy'
  rw [← hrank] at k1' k2'
  constructor
  · intro a hx hy
    obtain ⟨f, b, ef, eb, k1, k2⟩ := hm a x y hx hy
    rw [ef, eb, ef', eb', isInnerMin_unique k1 k1', isInnerMin_unique k2 k2']
    exact ⟨rfl, rfl⟩
  · intro hno
    obtain ⟨_, _, _, _, _, _, _, _, _, _, _, g, _⟩ := cch_built h' hb'
    have hxy := (g.graph.up.up x y ⟨a', hx', hy'⟩).1
    have hwl' : w.length = rt.length := by rw [hwl, h2.1]
    have hpath : ∀ {I : Nat → Prop} {x y l : Nat} {p : List Nat}, InnerWalk (listArcs rt rh w) I x p y l →
        InnerPath (fun x y => ∃ i v, listArcs rt rh w i x y v) I x y :=
      fun hp => innerWalk_path (fun a x y w ha => ⟨a, w, ha⟩) hp
    rw [rankArcs_eq h2 h3] at k1' k2'
    rw [ef', eb']
    constructor
    · rcases k1'.2.2 with e | ⟨p, hp⟩
      · rw [e]
      · exact absurd (h7.keep' hwl' x y hxy (Or.inl (hpath hp))) hno
    · rcases k2'.2.2 with e | ⟨p, hp⟩
      · rw [e]
      · exact absurd (h7.keep' hwl' x y hxy (Or.inr (hpath hp))) hno

set_option maxRecDepth 10000 in
example : CchInput exOrder exTail exHead true true ∧ CchInput exOrder exTail exHead true false ∧
    (Cch.build exOrder exTail exHead true true (fun _ _ => 0)).isSome = true ∧
    (Cch.build exOrder exTail exHead true false (fun _ _ => 0)).isSome = true :=
  ⟨ex_input true, ex_input false, by decide +kernel, by decide +kernel⟩

/-- One round of a partial customization: report the changed arcs with `update_arc`, then call `customize`. -/
def partialRound (c : Cch) (s : IDSetMinQueue × Metric) (r : List Nat × List Nat) : Option (IDSetMinQueue × Metric) := do
  let q ← forEach r.1 s.1 (updateArc c)
  partialCustomize c r.2 q s.2

/-- C29. After a full customization for the weights `w`, any number of rounds of partial customization (report the
changed arcs in any order, any arc any number of times; then customize) leads to the same metric as a full
customization with the current weights; no round fails. -/
theorem C29_partial_equals_full (order tail head : List Nat) (callable filter : Bool) (junk : Nat → Nat → Word) (c : Cch)
    (h : CchInput order tail head callable filter) (hb : Cch.build order tail head callable filter junk = some c)
    (hsize : c.cchArcCount + 1 < 2 ^ 31) (w : List Nat) (hwl : w.length = tail.length) (hw : ∀ v ∈ w, v ≤ infWeight)
    (rounds : List (List Nat × List Nat)) (hr : Reported infWeight w rounds) :
    ∃ q m q' m', partialNew c = some q ∧ (Metric.new c).customize c w = some m ∧
      forEach rounds (q, m) (partialRound c) = some (q', m') ∧
      (Metric.new c).customize c (finalWeights w rounds) = some m' ∧ q'.empty = true := by
  obtain ⟨rt, rh, U, T, H, h1, h2, h3, h4, h5, h6, h7, _⟩ := cch_built h hb
  have hlen := h7.graph.up.sorted.1
  have hN : c.cchArcCount = c.upTail.length := hlen.symm
  obtain ⟨q, eq, hq⟩ := IDSetMinQueue.rep_new (n := c.cchArcCount) hsize
  rw [hN] at hq
  have hl1 : (Metric.new c).forward.length = c.upTail.length := by simp [Metric.new, hN]
  have hl2 : (Metric.new c).backward.length = c.upTail.length := by simp [Metric.new, hN]
  have main : ∀ (rounds : List (List Nat × List Nat)) (w : List Nat) (q : IDSetMinQueue) (m : Metric) (f b : Nat → Nat),
      w.length = rt.length → WeightsOk w → Reported infWeight w rounds →
      IDSetMinQueue.Rep q c.upTail.length (fun _ => false) → MetricIs m c.upTail.length f b →
      CusInv c.upTail c.upHead (listArcs rt rh w) (fun _ => True) f b →
      ∃ q' m' f' b', forEach rounds (q, m) (partialRound c) = some (q', m') ∧
        IDSetMinQueue.Rep q' c.upTail.length (fun _ => false) ∧ MetricIs m' c.upTail.length f' b' ∧
        (finalWeights w rounds).length = rt.length ∧ WeightsOk (finalWeights w rounds) ∧
        CusInv c.upTail c.upHead (listArcs rt rh (finalWeights w rounds)) (fun _ => True) f' b' := by
    intro rounds
    induction rounds with
    | nil =>
      intro w q m f b hl hok _ hq hm hc
      exact ⟨q, m, f, b, rfl, hq, hm, hl, hok, hc⟩
    | cons r rounds ih =>
      obtain ⟨is, w'⟩ := r
      intro w q m f b hl hok hrep hq hm hc
      obtain ⟨r1, r2, r3, r4, r5⟩ := hrep
      obtain ⟨q1, S, e1, hq1, hS⟩ := updateArcs_spec h7 (is := is) (fun i hi => by have := r3 i hi; omega) hq
      have hl' : w'.length = rt.length := by omega
      obtain ⟨q2, m2, f2, b2, e2, hq2, hm2, hc2⟩ := partialCustomize_spec h7 hl hl' (weightsOk_of r2) hm hc hq1
        (fun i a hd => hS i (r4 i hd) a)
      obtain ⟨q', m', f', b', e3, rest⟩ := ih w' q2 m2 f2 b2 hl' (weightsOk_of r2) r5 hq2 hm2 hc2
      refine ⟨q', m', f', b', ?_, rest⟩
      show (partialRound c (q, m) (is, w')).bind _ = _
      unfold partialRound
      simp only [e1, e2, Option.bind_eq_bind, Option.bind_some]
      exact e3
  have hwl' : w.length = rt.length := by rw [hwl, h2.1]
  obtain ⟨m, f, b, em, hm, hc⟩ := customize_inv h7 hwl' (weightsOk_of hw) hl1 hl2
  obtain ⟨q', m', f', b', e, hq', hm', g1, g2, hc'⟩ := main rounds w q m f b hwl' (weightsOk_of hw) hr hq hm hc
  obtain ⟨m'', f'', b'', em'', hm'', hc''⟩ := customize_inv h7 g1 g2 hl1 hl2
  have hmm : m' = m'' := metricIs_eq hm' hm'' fun a ha => hc'.unique h7 g1 hc'' ha
  subst hmm
  exact ⟨q, m, q', m', eq, em, e, em'', hq'.empty_iff.2 fun _ => rfl⟩

set_option maxRecDepth 10000 in
example : Reported infWeight [5, 6, 7, 8, 4, 1, 9] [([4, 4, 0], [2, 6, 7, 8, 1, 1, 9]), ([2], [2, 6, 3, 8, 1, 1, 9])] := by
  refine ⟨rfl, by decide, by decide, ?_, rfl, by decide, by decide, ?_, trivial⟩
  · intro i
    rcases i with _ | _ | _ | _ | _ | _ | _ | i <;> simp
  · intro i
    rcases i with _ | _ | _ | _ | _ | _ | _ | i <;> simp

set_option maxRecDepth 10000 in
example : ((Cch.build exOrder exTail exHead true false (fun _ _ => 0xAAAAAAAAAAAAAAAA)).bind fun c => do
      let q ← partialNew c
      let m ← (Metric.new c).customize c [5, 6, 7, 8, 4, 1, 9]
      let s ← forEach [([4, 4, 0], [2, 6, 7, 8, 1, 1, 9]), ([2], [2, 6, 3, 8, 1, 1, 9])] (q, m) (partialRound c)
      some s.2) =
    some ⟨[8, infWeight, 9, 6, 7], [infWeight, 3, 1, infWeight, 11]⟩ := by decide +kernel

end RK.Props
