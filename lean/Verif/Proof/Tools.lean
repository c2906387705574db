import Verif.Model.Tools
import Verif.Spec.Tools
import Verif.Proof.ChStored
import Verif.Props.Dijkstra
import Verif.Props.Verify
/-! Helper lemmas for the command line tools. -/
namespace RK
open Spec Props

theorem foldl_max_lt {k : Nat} : ∀ (l : List Nat) {x : Nat}, x < k → (∀ y ∈ l, y < k) →
    l.foldl (fun m y => if y > m then y else m) x < k
  | [], x, hx, _ => hx
  | y :: l, x, hx, h => by
    rw [List.foldl_cons]
    refine foldl_max_lt l ?_ (fun z hz => h z (by simp [hz]))
    split
    · exact h y (by simp)
    · exact hx

theorem maxElementOf_lt {k : Nat} {v : List Nat} (hne : v ≠ []) (h : ∀ y ∈ v, y < k) : ∃ m, maxElementOf v = some m ∧ m < k := by
  cases v with
  | nil => exact absurd rfl hne
  | cons x l => exact ⟨_, rfl, foldl_max_lt l (h x (by simp)) (fun y hy => h y (by simp [hy]))⟩

theorem checkToolInput_ok {n : Nat} {fo hd wt : List Nat} (h : IsCSR n fo hd) (hne : hd ≠ []) (hw : wt.length = hd.length) :
    checkToolInput fo hd wt = .ok () := by
  have hl := h.length
  have e1 : fo.head? = some 0 := by rw [List.head?_eq_getElem?]; exact h.first
  have e2 : fo.getLast? = some hd.length := by
    rw [List.getLast?_eq_getElem?, show fo.length - 1 = n by omega]; exact h.last
  obtain ⟨m, e3, hm⟩ := maxElementOf_lt (k := n) hne (fun y hy => by
    obtain ⟨a, ha⟩ := List.getElem?_of_mem hy
    exact h.head_lt a y ha)
  unfold checkToolInput
  have e4 : decide (m < fo.length - 1) = true := by rw [show fo.length - 1 = n by omega]; simpa using hm
  simp only [e1, e2, e3, e4, hw, Res.ofOption_some, Res.ok_bind, decide_true, Res.require_true]

theorem checkToolInput_length {n : Nat} {fo hd wt : List Nat} (h : IsCSR n fo hd) (hne : hd ≠ []) (hw : wt.length ≠ hd.length) :
    checkToolInput fo hd wt = .error := by
  have hl := h.length
  have e1 : fo.head? = some 0 := by rw [List.head?_eq_getElem?]; exact h.first
  have e2 : fo.getLast? = some hd.length := by
    rw [List.getLast?_eq_getElem?, show fo.length - 1 = n by omega]; exact h.last
  obtain ⟨m, e3, hm⟩ := maxElementOf_lt (k := n) hne (fun y hy => by
    obtain ⟨a, ha⟩ := List.getElem?_of_mem hy
    exact h.head_lt a y ha)
  unfold checkToolInput
  have e4 : decide (m < fo.length - 1) = true := by rw [show fo.length - 1 = n by omega]; simpa using hm
  simp only [e1, e2, e3, e4, hw, Res.ofOption_some, Res.ok_bind, decide_true, decide_false, Res.require_true, Res.require_false]

/-- `tail` as computed from the adjacency array. -/
structure IsTail (fo hd tail : List Nat) : Prop where
  length : tail.length = hd.length
  own : ∀ x a : Nat, OutArc fo x a → tail[a]? = some x

theorem csr_sorted {n : Nat} {fo hd : List Nat} (h : IsCSR n fo hd) : fo.Pairwise (· ≤ ·) :=
  ((csr_iff h.length).1 h).2.1

theorem invert_tail {n : Nat} {fo hd : List Nat} (h : IsCSR n fo hd) : ∃ tail, invertInverseVector fo = some tail ∧ IsTail fo hd tail := by
  obtain ⟨v, last, e, h1, h2, h3⟩ := invertInverseVector_spec h.first (csr_sorted h)
  refine ⟨v, e, ?_, ?_⟩
  · rw [show fo.length - 1 = n by have := h.length; omega] at h1
    have := h.last
    unfold rd at h1
    rw [h1] at this
    injection this with this
    omega
  · rintro x a ⟨b, f, hb, hf, l1, l2⟩
    exact h3 x b f a hb hf l1 l2

theorem isTail_unique {n : Nat} {fo hd t1 t2 : List Nat} (h : IsCSR n fo hd) (h1 : IsTail fo hd t1) (h2 : IsTail fo hd t2) : t1 = t2 := by
  have hlast : rd fo (fo.length - 1) = some hd.length := by
    rw [show fo.length - 1 = n by have := h.length; omega]; exact h.last
  apply List.ext_getElem?
  intro a
  by_cases ha : a < hd.length
  · obtain ⟨x, b, e, _, hb, he, l1, l2⟩ := exists_range h.first hlast ha
    have ho : OutArc fo x a := ⟨b, e, hb, he, l1, l2⟩
    rw [h1.own x a ho, h2.own x a ho]
  · rw [List.getElem?_eq_none (by rw [h1.length]; omega), List.getElem?_eq_none (by rw [h2.length]; omega)]

theorem isTail_arcs {n : Nat} {fo hd tail wt : List Nat} (h : IsCSR n fo hd) (ht : IsTail fo hd tail) :
    listArcs tail hd wt = csrArcs fo hd wt := by
  have hlast : rd fo (fo.length - 1) = some hd.length := by
    rw [show fo.length - 1 = n by have := h.length; omega]; exact h.last
  funext a x y w
  apply propext
  constructor
  · rintro ⟨h1, h2, h3⟩
    refine ⟨?_, h2, h3⟩
    obtain ⟨x', b, e, _, hb, he, l1, l2⟩ := exists_range h.first hlast (List.getElem?_eq_some_iff.1 h2).1
    have ho : OutArc fo x' a := ⟨b, e, hb, he, l1, l2⟩
    have := ht.own x' a ho
    rw [h1] at this
    injection this with this
    exact this ▸ ho
  · rintro ⟨h1, h2, h3⟩
    exact ⟨ht.own x a h1, h2, h3⟩

theorem isTail_lt {n : Nat} {fo hd tail : List Nat} (h : IsCSR n fo hd) (ht : IsTail fo hd tail) : ∀ x ∈ tail, x < n := by
  have hlast : rd fo (fo.length - 1) = some hd.length := by
    rw [show fo.length - 1 = n by have := h.length; omega]; exact h.last
  intro x hx
  obtain ⟨a, ha⟩ := List.getElem?_of_mem hx
  have hl := (List.getElem?_eq_some_iff.1 ha).1
  rw [ht.length] at hl
  obtain ⟨x', b, e, hx', hb, he, l1, l2⟩ := exists_range h.first hlast hl
  have := ht.own x' a ⟨b, e, hb, he, l1, l2⟩
  rw [ha] at this
  injection this with this
  have := h.length
  omega

/-! ### Dijkstra -/

theorem searchUntil_spec {wt : List Nat} {t : Nat} : ∀ {fuel : Nat} {d : Dijkstra} {s : Search}, DRep d s → s.NoOverflow →
    s.graph.time = scalarGetWeight wt → s.graph.n < fuel + s.settled.length →
    ∃ d' s', searchUntil wt t fuel d = some d' ∧ DRep d' s' ∧ s'.graph = s.graph ∧
      s'.sources = s.sources ∧ (s'.IsSettled t ∨ ∀ y k, s'.Arrives y k → s'.IsSettled y)
  | 0, d, s, h, _, _, hf => by have := h.settled_le; omega
  | fuel + 1, d, s, h, hno, ht, hf => by
    unfold searchUntil
    cases hfin : d.isFinished with
    | true =>
      simp only [if_true]
      exact ⟨d, s, rfl, h, rfl, rfl, Or.inr (h.finished_iff.1 hfin)⟩
    | false =>
      simp only [Bool.false_eq_true, if_false]
      have hne : ∃ y k, s.Arrives y k ∧ ¬ s.IsSettled y := by
        by_contra hc
        have : d.isFinished = true := h.finished_iff.2 (by
          intro y k ha
          by_contra hs
          exact hc ⟨y, k, ha, hs⟩)
        rw [hfin] at this; cases this
      obtain ⟨d', x, k, e, _, _, _, _, h'⟩ := h.settle hne hno
      rw [ht] at e
      simp only [e, Option.bind_eq_bind, Option.bind_some]
      by_cases hx : x = t
      · rw [if_pos hx]
        subst hx
        exact ⟨d', _, rfl, h', rfl, rfl, Or.inl ⟨k, by simp⟩⟩
      · rw [if_neg hx]
        obtain ⟨d'', s'', e2, h2, g1, g2, g3⟩ := searchUntil_spec (fuel := fuel) (t := t) h' hno ht (by simp; omega)
        exact ⟨d'', s'', e2, h2, g1, g2, g3⟩

theorem scalar_wf {n : Nat} {fo tail hd wt : List Nat} (csr : IsCSR n fo hd) (hn : n ≤ 2 ^ 30) (hm : hd.length < 2 ^ 32)
    (ht : IsTail fo hd tail) (hw : wt.length = hd.length) : (scalarGraph n fo tail hd wt).WF := by
  refine ⟨csr, ht.length, ht.own, hn, hm, ?_, ?_⟩
  · intro a t ha
    exact rd_isSome (v := wt) (i := a) (by have : a < hd.length := ha; omega)
  · intro a t t' w' h1 h2 h3
    exact ⟨w', h2, h3, by omega⟩

theorem scalar_arrives {n : Nat} {fo tail hd wt : List Nat} {l : List (Nat × Nat)} {s y k : Nat} :
    (⟨scalarGraph n fo tail hd wt, [(s, 0)], l⟩ : Search).Arrives y k ↔ ∃ p, Walk (openArcs fo hd wt) s p y k := by
  constructor
  · rintro ⟨src, h1, p, hj⟩
    simp only [List.mem_singleton] at h1
    subst h1
    obtain ⟨l, hl, hw⟩ := journey_walk hj
    simp only at hl
    exact ⟨p, by rw [hl]; simpa using hw⟩
  · rintro ⟨p, hw⟩
    exact ⟨(s, 0), by simp, p, by simpa using walk_journey (n := n) (tail := tail) (t := 0) hw⟩

theorem scalar_distance {n : Nat} {fo tail hd wt : List Nat} {l : List (Nat × Nat)} {s y k : Nat} :
    (⟨scalarGraph n fo tail hd wt, [(s, 0)], l⟩ : Search).Distance y k ↔ IsDist (openArcs fo hd wt) s y k := by
  unfold Search.Distance IsDist
  rw [scalar_arrives]
  constructor
  · rintro ⟨h1, h2⟩; exact ⟨h1, fun p l hw => h2 l (scalar_arrives.2 ⟨p, hw⟩)⟩
  · rintro ⟨h1, h2⟩
    exact ⟨h1, fun l hl => by obtain ⟨p, hw⟩ := scalar_arrives.1 hl; exact h2 p l hw⟩

theorem dijkstraQuery_spec {n : Nat} {fo tail hd wt source target dist : List Nat} {d : Dijkstra} {S : Search}
    (hrep : DRep d S) (hg : S.graph = scalarGraph n fo tail hd wt) {i s t : Nat} (hs : source[i]? = some s) (ht : target[i]? = some t)
    (hsn : s < n) (htn : t < n) (hi : i < dist.length)
    (hno : ∀ x k a y w, IsDist (openArcs fo hd wt) s x k → openArcs fo hd wt a x y w → k + w < 2 ^ 32) :
    ∃ d' S' k, dijkstraQuery n wt source target (d, dist) i = some (d', dist.set i k) ∧ DRep d' S' ∧
      S'.graph = scalarGraph n fo tail hd wt ∧ ExactDistance (openArcs fo hd wt) s t k := by
  obtain ⟨d1, e1, h1⟩ := hrep.reset
  rw [hg] at h1
  obtain ⟨d2, e2, h2⟩ := h1.addSource (id := s) (time := 0) hsn rfl (by simp [Search.fresh])
  have hst : ({ Search.fresh (scalarGraph n fo tail hd wt) with sources := (Search.fresh (scalarGraph n fo tail hd wt)).sources ++ [(s, 0)] } : Search) =
      ⟨scalarGraph n fo tail hd wt, [(s, 0)], []⟩ := rfl
  rw [hst] at h2
  obtain ⟨d3, ⟨G', srcs', settled⟩, e3, h3, g1, g2, g3⟩ := searchUntil_spec (wt := wt) (t := t) (fuel := n + 1) h2
    (by
      intro x k a y w hk ha
      exact hno x k a y w (scalar_distance.1 hk) (arc_scalar.1 ha)) rfl (by simp [scalarGraph])
  simp only at g1 g2
  subst g1; subst g2
  obtain ⟨k, e4, h4⟩ := h3.getDistanceTo (x := t) htn
  refine ⟨d3, _, k, ?_, h3, rfl, ?_⟩
  · unfold dijkstraQuery
    simp only [rd, hs, ht, e1, e2, e3, e4, wr_lt hi, Option.bind_eq_bind, Option.bind_some]
  · rcases h4 with ⟨_, h4⟩ | ⟨h4, rfl⟩
    · exact Or.inl (scalar_distance.1 h4)
    · right
      rcases g3 with g3 | g3
      · exact absurd g3 h4
      · exact ⟨fun ⟨p, l, hw⟩ => h4 (g3 t l (scalar_arrives.2 ⟨p, hw⟩)), rfl⟩

/-- Answers found so far. -/
def AnswersTo (R : Nat → Nat → Nat → Prop) (source target : List Nat) (k : Nat) (distance : List Nat) : Prop :=
  distance.length = source.length ∧
  ∀ i s t : Nat, i < k → source[i]? = some s → target[i]? = some t → ∃ d, distance[i]? = some d ∧ R s t d

theorem answersTo_set {R : Nat → Nat → Nat → Prop} {source target distance : List Nat} {i s t k : Nat}
    (h : AnswersTo R source target i distance) (hs : source[i]? = some s) (ht : target[i]? = some t) (hR : R s t k) :
    AnswersTo R source target (i + 1) (distance.set i k) := by
  have hi : i < distance.length := by rw [h.1]; exact (List.getElem?_eq_some_iff.1 hs).1
  refine ⟨by rw [List.length_set, h.1], fun j s' t' hj hs' ht' => ?_⟩
  by_cases hji : j = i
  · subst hji
    rw [hs] at hs'; rw [ht] at ht'
    injection hs' with hs'; injection ht' with ht'
    subst hs'; subst ht'
    exact ⟨k, by rw [List.getElem?_set_self hi], hR⟩
  · obtain ⟨d, hd1, hd2⟩ := h.2 j s' t' (by omega) hs' ht'
    exact ⟨d, by rw [List.getElem?_set_ne (by omega)]; exact hd1, hd2⟩

theorem answersTo_all {R : Nat → Nat → Nat → Prop} {source target distance : List Nat}
    (h : AnswersTo R source target source.length distance) : Answers R source target distance :=
  ⟨h.1, fun i s t hs ht => h.2 i s t (List.getElem?_eq_some_iff.1 hs).1 hs ht⟩

theorem toolRunDijkstra_spec {n : Nat} {fo hd wt source target : List Nat} (csr : IsCSR n fo hd) (hn : n ≤ 2 ^ 30)
    (hm : hd.length < 2 ^ 32) (hne : hd ≠ []) (hw : wt.length = hd.length) (hq : QueryFiles n source target)
    (hno : ∀ s ∈ source, ∀ x k a y w, IsDist (openArcs fo hd wt) s x k → openArcs fo hd wt a x y w → k + w < 2 ^ 32) :
    ∃ distance, toolRunDijkstra fo hd wt source target = .ok distance ∧
      Answers (ExactDistance (openArcs fo hd wt)) source target distance := by
  obtain ⟨tail, e1, ht⟩ := invert_tail csr
  have hG := scalar_wf csr hn hm ht hw
  obtain ⟨d, e2, hrep⟩ := rep_new hG
  have e2' : Dijkstra.new ⟨fo, tail, hd⟩ = some d := e2
  obtain ⟨⟨d', distance⟩, e3, ⟨_, _, _⟩, h3⟩ := forRange_inv (lo := 0) (hi := source.length)
    (s := (d, List.replicate source.length 0)) (f := dijkstraQuery n wt source target)
    (fun i r => (∃ S, DRep r.1 S ∧ S.graph = scalarGraph n fo tail hd wt) ∧
      AnswersTo (ExactDistance (openArcs fo hd wt)) source target i r.2) (Nat.zero_le _)
    ⟨⟨_, hrep, rfl⟩, by simp, fun i s t hi => absurd hi (by omega)⟩
    (by
      rintro i ⟨d, dist⟩ _ hi ⟨⟨S, h1, h2⟩, h3⟩
      obtain ⟨s, hs⟩ := rd_isSome hi
      obtain ⟨t, ht⟩ := rd_isSome (v := target) (i := i) (by rw [← hq.length]; exact hi)
      obtain ⟨d', S', k, g1, g2, g3, g4⟩ := dijkstraQuery_spec (dist := dist) h1 h2 hs ht (hq.source_lt s (List.mem_of_getElem? hs))
        (hq.target_lt t (List.mem_of_getElem? ht)) (by have := h3.1; simp only at this; omega) (hno s (List.mem_of_getElem? hs))
      exact ⟨_, g1, ⟨S', g2, g3⟩, answersTo_set h3 hs ht g4⟩)
  refine ⟨distance, ?_, answersTo_all h3⟩
  have hl : fo.length - 1 = n := by have := csr.length; omega
  have hne0 : decide (source.length ≠ 0) = true := by
    have := List.length_pos_iff.2 hq.nonempty
    simp only [decide_eq_true_eq]; omega
  unfold toolRunDijkstra
  simp only [(C66_graph_accepted_iff_partial fo hd).2 ⟨n, csr⟩, e1, checkToolInput_ok csr hne hw, e2', hq.length.symm, hl, e3, hne0, check_true,
    Res.ofOption_some, Res.ok_bind, decide_true, Res.require_true]

/-! ### Contraction Hierarchy -/

theorem chToolQuery_spec {q : ChQuery} {S : QState} (hc : QRep q S) {source target dist : List Nat} {i s t : Nat}
    (hs : source[i]? = some s) (ht : target[i]? = some t) (hsn : s < S.graph.n) (htn : t < S.graph.n) (hi : i < dist.length) :
    ∃ q' S' k, chToolQuery source target (q, dist) i = some (q', dist.set i k) ∧ QRep q' S' ∧ S'.graph = S.graph ∧
      CappedDistance S.graph.arcs s t k := by
  obtain ⟨q0, _, _, e0, ⟨_, rfl⟩, h0⟩ := chCall_spec (op := .reset) hc trivial
  simp only [chCall, Option.map_eq_some_iff, Prod.mk.injEq] at e0
  obtain ⟨q0', e0, rfl, _⟩ := e0
  obtain ⟨q1, e1, h1⟩ := addSourcesCh_spec [(s, 0)] h0 (Or.inl rfl) (by simpa [QState.fresh, unreachable] using hsn)
  obtain ⟨q2, e2, h2⟩ := addTargetsCh_spec [(t, 0)] h1 (Or.inl rfl) (by simpa [QState.fresh, unreachable] using htn)
  simp only [QState.fresh, List.nil_append] at h2
  obtain ⟨q3, out, s', e3, ⟨_, rfl⟩, h3⟩ := chCall_spec (op := .run) h2 ⟨rfl, by simp, by simp⟩
  simp only [chCall, Option.map_eq_some_iff, Prod.mk.injEq] at e3
  obtain ⟨q3', e3, rfl, rfl⟩ := e3
  obtain ⟨ch', c1, c2, c3⟩ := h3.ex
  obtain ⟨r, r1, r2, r3, r4, r5, r6⟩ := results_spec c2 c1 h3.srcLt h3.tgtLt c3
  have a1 : q0'.addSource s 0 = some q1 := by simpa [addSourcesCh] using e1
  have a2 : q1.addTarget t 0 = some q2 := by simpa [addTargetsCh] using e2
  refine ⟨q3', _, r.distance, ?_, h3, rfl, ?_⟩
  · unfold chToolQuery
    simp only [rd, hs, ht, e0, a1, a2, e3, r1, wr_lt hi, Option.bind_eq_bind, Option.bind_some]
  simp only at r6
  have low : ∀ k, NoRouteBelow S.graph.arcs [(s, 0)] [(t, 0)] k → ∀ p l, Walk S.graph.arcs s p t l → k ≤ l :=
    fun k hk p l hw => hk s t p l ⟨0, 0, l, by simp, by simp, hw, by omega⟩
  rcases r6 with ⟨h1, ⟨ds, dt, l, h2, h3, h4, h5⟩, h6, h7⟩ | ⟨h1, _, _, h4, h5, h6⟩
  · left
    simp only [List.mem_singleton, Prod.mk.injEq] at h2 h3
    obtain ⟨g1, rfl⟩ := h2
    obtain ⟨g2, rfl⟩ := h3
    rw [g1, g2] at h4
    have : r.distance = l := by omega
    rw [← this] at h4
    exact ⟨h1, ⟨⟨_, h4⟩, low _ h7⟩⟩
  · exact Or.inr ⟨h1, low _ h6⟩

theorem chToolQuery_target {source target : List Nat} {r r' : ChQuery × List Nat} {i : Nat}
    (h : chToolQuery source target r i = some r') : i < target.length := by
  unfold chToolQuery at h
  simp only [Option.bind_eq_bind, Option.bind_eq_some_iff] at h
  obtain ⟨_, _, _, _, _, _, t, ht, _⟩ := h
  exact rd_some_lt ht

theorem chQueries_spec {ch : Ch} {G : QGraph} (h : HierOk ch G) {source target : List Nat} (hq : QueryFiles G.n source target) :
    ∃ q distance, forRange 0 source.length (ChQuery.new ch, List.replicate source.length 0) (chToolQuery source target) = some (q, distance) ∧
      Answers (CappedDistance G.arcs) source target distance := by
  obtain ⟨⟨q, distance⟩, e, _, h3⟩ := forRange_inv (lo := 0) (hi := source.length)
    (s := (ChQuery.new ch, List.replicate source.length 0)) (f := chToolQuery source target)
    (fun i r => (∃ S, QRep r.1 S ∧ S.graph = G) ∧ AnswersTo (CappedDistance G.arcs) source target i r.2) (Nat.zero_le _)
    ⟨⟨_, chQuery_rep_new h, rfl⟩, by simp, fun i s t hi => absurd hi (by omega)⟩
    (by
      rintro i ⟨q, dist⟩ _ hi ⟨⟨S, h1, h2⟩, h3⟩
      subst h2
      obtain ⟨s, hs⟩ := rd_isSome hi
      obtain ⟨t, ht⟩ := rd_isSome (v := target) (i := i) (by rw [← hq.length]; exact hi)
      obtain ⟨q', S', k, g1, g2, g3, g4⟩ := chToolQuery_spec (dist := dist) h1 hs ht (hq.source_lt s (List.mem_of_getElem? hs))
        (hq.target_lt t (List.mem_of_getElem? ht)) (by have := h3.1; simp only at this; omega)
      exact ⟨_, g1, ⟨S', g2, g3⟩, answersTo_set h3 hs ht g4⟩)
  exact ⟨q, distance, e, answersTo_all h3⟩

end RK
