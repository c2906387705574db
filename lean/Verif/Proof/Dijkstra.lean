import Verif.Model.Dijkstra
import Verif.Spec.Dijkstra
import Verif.Proof.IdQueue
import Verif.Proof.TimestampFlags
import Verif.Proof.Csr
/-! # Proofs about Dijkstra's algorithm -/
namespace RK
open Spec

/-- the model's view of the graph -/
def toGraph (G : TGraph) : DijkstraGraph := ⟨G.firstOut, G.tail, G.head⟩

theorem arc_unique {G : TGraph} {a x y t w y' w' : Nat} (h : G.Arc a x y t w) (h' : G.Arc a x y' t w') :
    y = y' ∧ w = w' := by
  have h1 := h.2.1.symm.trans h'.2.1
  have h2 := h.2.2.1.symm.trans h'.2.2.1
  injection h1 with h1; injection h2 with h2
  exact ⟨h1, h2⟩

theorem arc_head_lt {G : TGraph} (hG : G.WF) {a x y t w : Nat} (h : G.Arc a x y t w) : y < G.n :=
  hG.csr.head_lt a y h.2.1

theorem arc_lt {G : TGraph} {a x y t w : Nat} (h : G.Arc a x y t w) : a < G.head.length :=
  rd_some_lt (v := G.head) h.2.1

/-- A reason for `y` having tentative distance `k`, using only the settled nodes `l`. -/
def Cand (s : Search) (l : List (Nat × Nat)) (y k : Nat) : Prop :=
  (y, k) ∈ s.sources ∨ ∃ a x d w, (x, d) ∈ l ∧ s.graph.Arc a x y d w ∧ k = d + w

/-- The predecessor array justifies the distance `k` of `y` by the settled nodes `l`. -/
def PredOk (s : Search) (pred : List Nat) (l : List (Nat × Nat)) (y k : Nat) : Prop :=
  (rd pred y = some invalidId ∧ (y, k) ∈ s.sources) ∨
  ∃ a x d w, rd pred y = some a ∧ (x, d) ∈ l ∧ s.graph.Arc a x y d w ∧ k = d + w

theorem PredOk.cand {s : Search} {pred : List Nat} {l : List (Nat × Nat)} {y k : Nat}
    (h : PredOk s pred l y k) : Cand s l y k := by
  rcases h with ⟨_, h⟩ | ⟨a, x, d, w, _, h1, h2, h3⟩
  · exact Or.inl h
  · exact Or.inr ⟨a, x, d, w, h1, h2, h3⟩

theorem PredOk.mono {s : Search} {pred pred' : List Nat} {l l' : List (Nat × Nat)} {y k : Nat}
    (h : PredOk s pred l y k) (hl : ∀ p ∈ l, p ∈ l') (hp : rd pred' y = rd pred y) :
    PredOk s pred' l' y k := by
  rcases h with ⟨h0, h⟩ | ⟨a, x, d, w, h0, h1, h2, h3⟩
  · exact Or.inl ⟨by rw [hp, h0], h⟩
  · exact Or.inr ⟨a, x, d, w, by rw [hp, h0], hl _ h1, h2, h3⟩

/-- Queue contents `m` agree with the candidates `C`. -/
structure QInv (s : Search) (S : List (Nat × Nat)) (C : Nat → Nat → Prop) (pred : List Nat)
    (m : Nat → Option Nat) (lo : Nat → Prop) : Prop where
  entry : ∀ y k, m y = some k → y < s.graph.n ∧ y ∉ S.map Prod.fst ∧ PredOk s pred S y k ∧ lo k
  low : ∀ y k, C y k → y ∉ S.map Prod.fst → ∃ k', k' ≤ k ∧ m y = some k'

/-- The object `d` represents the search `s`. -/
structure DRep (d : Dijkstra) (s : Search) : Prop where
  wf : s.graph.WF
  graph : d.graph = some (toGraph s.graph)
  lenT : d.tentative.length = s.graph.n
  lenP : d.predecessor.length = s.graph.n
  popped : d.wasPopped.Rep s.graph.n (fun x => decide (x ∈ s.settled.map Prod.fst))
  queue : ∃ m, d.queue.Rep s.graph.n m ∧
    QInv s s.settled (Cand s s.settled) d.predecessor m (fun k => ∀ p ∈ s.settled, p.2 ≤ k)
  src : ∀ p ∈ s.sources, p.1 < s.graph.n
  dist : ∀ p ∈ s.settled, rd d.tentative p.1 = some p.2 ∧ s.Distance p.1 p.2 ∧ p.1 < s.graph.n
  nodup : (s.settled.map Prod.fst).Nodup
  preds : ∀ l1 y k l2, s.settled = l1 ++ (y, k) :: l2 → PredOk s d.predecessor l1 y k

variable {d : Dijkstra} {s : Search}

theorem isSettled_iff {y : Nat} : s.IsSettled y ↔ y ∈ s.settled.map Prod.fst := by
  unfold Search.IsSettled
  constructor
  · rintro ⟨k, h⟩; exact List.mem_map.2 ⟨_, h, rfl⟩
  · intro h
    obtain ⟨⟨a, k⟩, h1, h2⟩ := List.mem_map.1 h
    exact ⟨k, by cases h2; exact h1⟩

theorem cand_arrives {l : List (Nat × Nat)} (hl : ∀ p ∈ l, s.Arrives p.1 p.2) {y k : Nat}
    (h : Cand s l y k) : s.Arrives y k := by
  rcases h with h | ⟨a, x, d, w, h1, h2, h3⟩
  · exact ⟨(y, k), h, [], .nil y k⟩
  · obtain ⟨src, hs, p, hj⟩ := hl _ h1
    exact ⟨src, hs, p ++ [a], by rw [h3]; exact hj.snoc h2⟩

/-- Every arrival is at a settled node not before its distance, or not before the smallest key. -/
theorem frontier (h : DRep d s) {m : Nat → Option Nat}
    (hq : QInv s s.settled (Cand s s.settled) d.predecessor m (fun k => ∀ p ∈ s.settled, p.2 ≤ k))
    {y t : Nat} (ha : s.Arrives y t) :
    y ∈ s.settled.map Prod.fst ∨ ∃ z k, m z = some k ∧ k ≤ t := by
  obtain ⟨src, hs, p, hj⟩ := ha
  induction hj with
  | nil =>
    by_cases hS : src.1 ∈ s.settled.map Prod.fst
    · exact Or.inl hS
    · obtain ⟨k', h1, h2⟩ := hq.low src.1 src.2 (Or.inl hs) hS
      exact Or.inr ⟨_, _, h2, h1⟩
  | @snoc p x t a y w hj harc ih =>
    rcases ih with hx | ⟨z, k, h1, h2⟩
    · by_cases hS : y ∈ s.settled.map Prod.fst
      · exact Or.inl hS
      · obtain ⟨⟨x', dx⟩, hm, hx'⟩ := List.mem_map.1 hx
        simp only at hx'
        subst hx'
        obtain ⟨_, hd, _⟩ := h.dist _ hm
        have hle := hd.2 t ⟨src, hs, p, hj⟩
        simp only at hle
        obtain ⟨w', hw1, hw2, hw3⟩ := h.wf.fifo a dx t w hle harc.2.2.1 harc.2.2.2
        obtain ⟨k', h1, h2⟩ := hq.low y (dx + w')
          (Or.inr ⟨a, x', dx, w', hm, ⟨harc.1, harc.2.1, hw1, hw2⟩, rfl⟩) hS
        exact Or.inr ⟨_, _, h2, by omega⟩
    · exact Or.inr ⟨z, k, h1, by omega⟩

theorem DRep.arrives (h : DRep d s) : ∀ p ∈ s.settled, s.Arrives p.1 p.2 :=
  fun p hp => (h.dist p hp).2.1.1

theorem DRep.finished_iff (h : DRep d s) :
    d.isFinished = true ↔ ∀ y k, s.Arrives y k → s.IsSettled y := by
  obtain ⟨m, hm, hq⟩ := h.queue
  unfold Dijkstra.isFinished
  rw [hm.empty_iff]
  constructor
  · intro he y k ha
    rw [isSettled_iff]
    rcases frontier h hq ha with h' | ⟨z, k, h1, _⟩
    · exact h'
    · rw [he z] at h1; cases h1
  · intro hall y
    cases hy : m y with
    | none => rfl
    | some k =>
      obtain ⟨_, h1, h2, _⟩ := hq.entry y k hy
      exact absurd (isSettled_iff.1 (hall y k (cand_arrives h.arrives h2.cand))) h1

/-! ### resetting and sources -/

theorem toGraph_len {G : TGraph} (hG : G.WF) : (toGraph G).firstOut.length - 1 = G.n := by
  have := hG.csr.length
  simp only [toGraph]; omega

theorem checkGraph_ok {G : TGraph} (hG : G.WF) : Dijkstra.checkGraph (toGraph G) = some () := by
  have h1 : rd (toGraph G).firstOut 0 = some 0 := hG.csr.first
  have h2 : rd (toGraph G).firstOut ((toGraph G).firstOut.length - 1) = some G.head.length := by
    rw [toGraph_len hG]; exact hG.csr.last
  have h3 : (toGraph G).tail.length = G.head.length := hG.tail_length
  have h4 : (toGraph G).head.length = G.head.length := rfl
  unfold Dijkstra.checkGraph
  simp only [h1, h2, h3, h4, Option.bind_eq_bind, Option.bind_some, decide_true, check_true]

/-- an empty search -/
theorem rep_fresh {G : TGraph} (hG : G.WF) {d : Dijkstra} (hg : d.graph = some (toGraph G))
    (hT : d.tentative.length = G.n) (hP : d.predecessor.length = G.n)
    (hpop : d.wasPopped.Rep G.n (fun _ => false)) (hq : d.queue.Rep G.n (fun _ => none)) :
    DRep d (Search.fresh G) := by
  refine ⟨hG, hg, hT, hP, ?_, ⟨_, hq, ?_⟩, ?_, ?_, ?_, ?_⟩
  · simpa [Search.fresh] using hpop
  · refine ⟨?_, ?_⟩
    · intro y k h; cases h
    · rintro y k (h | ⟨_, _, _, _, h, _⟩) _ <;> simp [Search.fresh] at h
  · intro p hp; simp [Search.fresh] at hp
  · intro p hp; simp [Search.fresh] at hp
  · simp [Search.fresh]
  · intro l1 y k l2 h; simp [Search.fresh] at h

theorem max_nodes {G : TGraph} (hG : G.WF) : G.n ≤ MinIDQueue.maxIds := hG.nodes

theorem rep_new {G : TGraph} (hG : G.WF) :
    ∃ d, Dijkstra.new (toGraph G) = some d ∧ DRep d (Search.fresh G) := by
  unfold Dijkstra.new
  simp only [checkGraph_ok hG, Option.bind_eq_bind, Option.bind_some, toGraph_len hG]
  exact ⟨_, rfl, rep_fresh hG rfl (by simp) (by simp) (TimestampFlags.rep_new _)
    (MinIDQueue.rep_new (max_nodes hG))⟩

theorem DRep.reset (h : DRep d s) : ∃ d', d.reset = some d' ∧ DRep d' (Search.fresh s.graph) := by
  obtain ⟨m, hm, _⟩ := h.queue
  obtain ⟨q, e, hq⟩ := hm.clear
  unfold Dijkstra.reset
  simp only [e, Option.bind_eq_bind, Option.bind_some]
  exact ⟨_, rfl, rep_fresh h.wf h.graph h.lenT h.lenP h.popped.resetAll hq⟩

theorem length_resizeVec (v : List Nat) (n : Nat) : (Dijkstra.resizeVec v n).length = n := by
  unfold Dijkstra.resizeVec
  simp only [List.length_append, List.length_take, List.length_replicate]; omega

theorem resetGraph_null {G : TGraph} (hG : G.WF) (hd : d.graph = none) :
    ∃ d', d.resetGraph (toGraph G) = some d' ∧ DRep d' (Search.fresh G) := by
  unfold Dijkstra.resetGraph
  simp only [checkGraph_ok hG, Option.bind_eq_bind, Option.bind_some, toGraph_len hG, hd]
  exact ⟨_, rfl, rep_fresh hG rfl (length_resizeVec _ _) (length_resizeVec _ _) (TimestampFlags.rep_new _)
    (MinIDQueue.rep_new (max_nodes hG))⟩

theorem DRep.resetGraph (h : DRep d s) {G : TGraph} (hG : G.WF) :
    ∃ d', d.resetGraph (toGraph G) = some d' ∧ DRep d' (Search.fresh G) := by
  unfold Dijkstra.resetGraph
  simp only [checkGraph_ok hG, Option.bind_eq_bind, Option.bind_some, toGraph_len hG, h.graph]
  by_cases hl : (toGraph G).firstOut.length = (toGraph s.graph).firstOut.length
  · rw [if_pos hl]
    obtain ⟨m, hm, _⟩ := h.queue
    obtain ⟨q, e, hq⟩ := hm.clear
    simp only [e, Option.bind_some]
    have hn : s.graph.n = G.n := by
      have h1 := toGraph_len hG
      have h2 := toGraph_len h.wf
      rw [hl] at h1; omega
    refine ⟨_, rfl, rep_fresh hG rfl ?_ ?_ ?_ ?_⟩
    · rw [← hn]; exact h.lenT
    · rw [← hn]; exact h.lenP
    · rw [← hn]; exact h.popped.resetAll
    · rw [← hn]; exact hq
  · rw [if_neg hl]
    exact ⟨_, rfl, rep_fresh hG rfl (length_resizeVec _ _) (length_resizeVec _ _) (TimestampFlags.rep_new _)
      (MinIDQueue.rep_new (max_nodes hG))⟩

theorem DRep.addSource (h : DRep d s) {id time : Nat} (hid : id < s.graph.n) (h0 : s.settled = [])
    (hnew : ∀ t, (id, t) ∉ s.sources) :
    ∃ d', d.addSource id time = some d' ∧ DRep d' { s with sources := s.sources ++ [(id, time)] } := by
  obtain ⟨m, hm, hq⟩ := h.queue
  have hmid : m id = none := by
    cases hc : m id with
    | none => rfl
    | some k =>
      obtain ⟨_, _, h2, _⟩ := hq.entry id k hc
      rcases h2.cand with h3 | ⟨_, _, _, _, h3, _⟩
      · exact absurd h3 (hnew k)
      · rw [h0] at h3; cases h3
  obtain ⟨q, e, hq'⟩ := hm.push (p := ⟨id, time⟩) hid hmid
  unfold Dijkstra.addSource
  have c : decide (id < (toGraph s.graph).firstOut.length - 1) = true := by
    rw [toGraph_len h.wf]; simpa using hid
  simp only [h.graph, Option.bind_eq_bind, Option.bind_some, c, check_true,
    wr_lt (show id < d.tentative.length by rw [h.lenT]; exact hid),
    wr_lt (show id < d.predecessor.length by rw [h.lenP]; exact hid), e]
  refine ⟨_, rfl, ⟨h.wf, rfl, by simpa using h.lenT, by simpa using h.lenP, h.popped, ⟨_, hq', ?_⟩, ?_, ?_,
    h.nodup, ?_⟩⟩
  · constructor
    · intro y k hy
      simp only at hy ⊢
      by_cases hyi : y = id
      · rw [if_pos hyi] at hy
        injection hy with hy
        subst hyi; subst hy
        refine ⟨hid, by rw [h0]; simp, Or.inl ⟨?_, by simp⟩, by rw [h0]; simp⟩
        rw [rd_set (by rw [h.lenP]; exact hid), if_pos rfl]
      · rw [if_neg hyi] at hy
        obtain ⟨h1, h2, h3, h4⟩ := hq.entry y k hy
        refine ⟨h1, h2, ?_, h4⟩
        have : rd (d.predecessor.set id invalidId) y = rd d.predecessor y := by
          rw [rd_set (by rw [h.lenP]; exact hid), if_neg hyi]
        rcases h3.mono (fun _ h => h) this with ⟨a1, a2⟩ | h3
        · exact Or.inl ⟨a1, by simp [a2]⟩
        · exact Or.inr h3
    · rintro y k hc hS
      simp only
      by_cases hyi : y = id
      · subst hyi
        rw [if_pos rfl]
        refine ⟨time, ?_, rfl⟩
        rcases hc with hc | ⟨_, _, _, _, h3, _⟩
        · simp only [List.mem_append, List.mem_singleton, Prod.mk.injEq] at hc
          rcases hc with hc | hc
          · exact absurd hc (hnew k)
          · omega
        · rw [h0] at h3; cases h3
      · rw [if_neg hyi]
        apply hq.low y k _ hS
        rcases hc with hc | hc
        · simp only [List.mem_append, List.mem_singleton, Prod.mk.injEq] at hc
          rcases hc with hc | hc
          · exact Or.inl hc
          · exact absurd hc.1 hyi
        · exact Or.inr hc
  · intro p hp
    simp only [List.mem_append, List.mem_singleton] at hp
    rcases hp with hp | rfl
    · exact h.src p hp
    · exact hid
  · intro p hp
    simp only [h0] at hp; cases hp
  · intro l1 y k l2 hl
    simp only [h0] at hl
    simp at hl

/-! ### settling a node -/

theorem relaxArc_spec (hwf : s.graph.WF) {S : List (Nat × Nat)} {x k : Nat} (hxk : (x, k) ∈ S)
    {popped : TimestampFlags} (hpop : popped.Rep s.graph.n (fun y => decide (y ∈ S.map Prod.fst)))
    {gw : WeightFn} (hgw : gw = s.graph.time)
    (hov : ∀ a y w, s.graph.Arc a x y k w → k + w < 2 ^ 32)
    {C : Nat → Nat → Prop} {q : MinIDQueue} {p : List Nat} {m : Nat → Option Nat} {a : Nat}
    (ha : OutArc s.graph.firstOut x a)
    (hq : q.Rep s.graph.n m) (hlen : p.length = s.graph.n)
    (hinv : QInv s S (fun y k' => C y k' ∨ ∃ a' w, a' < a ∧ s.graph.Arc a' x y k w ∧ k' = k + w) p m
      (fun k' => k ≤ k')) :
    ∃ q' p' m', Dijkstra.relaxArc (toGraph s.graph) popped gw k (q, p) a = some (q', p') ∧
      q'.Rep s.graph.n m' ∧ p'.length = s.graph.n ∧
      QInv s S (fun y k' => C y k' ∨ ∃ a' w, a' < a + 1 ∧ s.graph.Arc a' x y k w ∧ k' = k + w) p' m'
        (fun k' => k ≤ k') ∧
      ∀ y ∈ S.map Prod.fst, rd p' y = rd p y := by
  subst hgw
  have halt : a < s.graph.head.length := by
    obtain ⟨b, e, h1, h2, h3, h4⟩ := ha
    have hx : x < s.graph.n := by
      have := rd_some_lt (v := s.graph.firstOut) h2
      have := hwf.csr.length; omega
    obtain ⟨b', e', h1', h2', _, h5⟩ := hwf.csr.range hx
    rw [h2] at h2'; injection h2' with h2'; omega
  obtain ⟨y, hy⟩ := rd_isSome halt
  have hyn : y < s.graph.n := hwf.csr.head_lt a y hy
  obtain ⟨w, hw⟩ := hwf.time_defined a k halt
  -- candidates of the new arc
  have newcand : ∀ y' k', (C y' k' ∨ ∃ a' w, a' < a + 1 ∧ s.graph.Arc a' x y' k w ∧ k' = k + w) →
      (C y' k' ∨ ∃ a' w, a' < a ∧ s.graph.Arc a' x y' k w ∧ k' = k + w) ∨
      (y' = y ∧ w < closed ∧ k' = k + w) := by
    rintro y' k' (h | ⟨a', w', h1, h2, h3⟩)
    · exact Or.inl (Or.inl h)
    · by_cases ha' : a' < a
      · exact Or.inl (Or.inr ⟨a', w', ha', h2, h3⟩)
      · have : a' = a := by omega
        subst this
        have e1 : y' = y := by
          have := h2.2.1.symm.trans hy; injection this
        have e2 : w' = w := by
          have := h2.2.2.1.symm.trans hw; injection this
        subst e2
        exact Or.inr ⟨e1, h2.2.2.2, h3⟩
  unfold Dijkstra.relaxArc
  have hy' : rd (toGraph s.graph).head a = some y := hy
  simp only [hy', Option.bind_eq_bind, Option.bind_some, hpop.isSet hyn]
  by_cases hyS : y ∈ S.map Prod.fst
  · rw [decide_eq_true hyS]
    simp only [if_true]
    refine ⟨q, p, m, rfl, hq, hlen, ⟨hinv.entry, ?_⟩, fun _ _ => rfl⟩
    intro y' k' hc hS'
    rcases newcand y' k' hc with h | ⟨rfl, _⟩
    · exact hinv.low y' k' h hS'
    · exact absurd hyS hS'
  · rw [decide_eq_false hyS]
    simp only [Bool.false_eq_true, if_false, hw, Option.bind_some]
    by_cases hwc : w < infWeight
    · rw [if_pos hwc]
      have harc : s.graph.Arc a x y k w := ⟨ha, hy, hw, hwc⟩
      have hsum : add32 k w = k + w := by
        unfold add32 u32; exact Nat.mod_eq_of_lt (by have := hov a y w harc; omega)
      simp only [hq.containsId hyn, Option.bind_some, hsum]
      have predset : ∀ (hlen' : p.length = s.graph.n), rd (p.set y a) y = some a := by
        intro _; rw [rd_set (by omega), if_pos rfl]
      have predother : ∀ z, z ≠ y → rd (p.set y a) z = rd p z := by
        intro z hz; rw [rd_set (by omega), if_neg hz]
      have keepS : ∀ z ∈ S.map Prod.fst, rd (p.set y a) z = rd p z := by
        intro z hz; exact predother z (fun hzy => hyS (hzy ▸ hz))
      cases hmy : m y with
      | some k0 =>
        simp only [Option.isSome_some, if_true]
        obtain ⟨q', e, hq'⟩ := hq.decreaseKey (p := ⟨y, k + w⟩) hmy
        simp only [e, Option.bind_some]
        obtain ⟨h1, h2, h3, h4⟩ := hinv.entry y k0 hmy
        by_cases hdec : k + w < k0
        · rw [decide_eq_true hdec]
          simp only [if_true, wr_lt (show y < p.length by omega), Option.bind_some]
          refine ⟨q', p.set y a, _, rfl, hq', by simpa using hlen, ⟨?_, ?_⟩, keepS⟩
          · intro z k' hz
            simp only at hz
            by_cases hzy : z = y
            · subst hzy
              rw [if_pos rfl] at hz
              injection hz with hz
              have hk' : k' = k + w := by omega
              subst hk'
              exact ⟨hyn, hyS, Or.inr ⟨a, x, k, w, predset hlen, hxk, harc, rfl⟩, by omega⟩
            · rw [if_neg hzy] at hz
              obtain ⟨g1, g2, g3, g4⟩ := hinv.entry z k' hz
              exact ⟨g1, g2, g3.mono (fun _ h => h) (predother z hzy), g4⟩
          · intro z k' hc hS'
            simp only
            by_cases hzy : z = y
            · subst hzy
              rw [if_pos rfl]
              refine ⟨_, ?_, rfl⟩
              rcases newcand _ k' hc with h | ⟨_, _, h⟩
              · obtain ⟨k'', g1, g2⟩ := hinv.low _ k' h hS'
                rw [hmy] at g2; injection g2 with g2; omega
              · omega
            · rw [if_neg hzy]
              rcases newcand _ k' hc with h | ⟨h, _⟩
              · exact hinv.low _ k' h hS'
              · exact absurd h hzy
        · rw [decide_eq_false hdec]
          simp only [Bool.false_eq_true, if_false]
          refine ⟨q', p, _, rfl, hq', hlen, ⟨?_, ?_⟩, fun _ _ => rfl⟩
          · intro z k' hz
            simp only at hz
            by_cases hzy : z = y
            · subst hzy
              rw [if_pos rfl] at hz
              injection hz with hz
              have hk' : k' = k0 := by omega
              subst hk'
              exact ⟨h1, h2, h3, h4⟩
            · rw [if_neg hzy] at hz
              exact hinv.entry z k' hz
          · intro z k' hc hS'
            simp only
            by_cases hzy : z = y
            · subst hzy
              rw [if_pos rfl]
              refine ⟨_, ?_, rfl⟩
              rcases newcand _ k' hc with h | ⟨_, _, h⟩
              · obtain ⟨k'', g1, g2⟩ := hinv.low _ k' h hS'
                rw [hmy] at g2; injection g2 with g2; omega
              · omega
            · rw [if_neg hzy]
              rcases newcand _ k' hc with h | ⟨h, _⟩
              · exact hinv.low _ k' h hS'
              · exact absurd h hzy
      | none =>
        simp only [Option.isSome_none, Bool.false_eq_true, if_false]
        obtain ⟨q', e, hq'⟩ := hq.push (p := ⟨y, k + w⟩) hyn hmy
        simp only [e, Option.bind_some, wr_lt (show y < p.length by omega)]
        refine ⟨q', p.set y a, _, rfl, hq', by simpa using hlen, ⟨?_, ?_⟩, keepS⟩
        · intro z k' hz
          simp only at hz
          by_cases hzy : z = y
          · subst hzy
            rw [if_pos rfl] at hz
            injection hz with hz
            subst hz
            exact ⟨hyn, hyS, Or.inr ⟨a, x, k, w, predset hlen, hxk, harc, rfl⟩, by omega⟩
          · rw [if_neg hzy] at hz
            obtain ⟨g1, g2, g3, g4⟩ := hinv.entry z k' hz
            exact ⟨g1, g2, g3.mono (fun _ h => h) (predother z hzy), g4⟩
        · intro z k' hc hS'
          simp only
          by_cases hzy : z = y
          · subst hzy
            rw [if_pos rfl]
            refine ⟨_, ?_, rfl⟩
            rcases newcand _ k' hc with h | ⟨_, _, h⟩
            · obtain ⟨k'', g1, g2⟩ := hinv.low _ k' h hS'
              rw [hmy] at g2; cases g2
            · omega
          · rw [if_neg hzy]
            rcases newcand _ k' hc with h | ⟨h, _⟩
            · exact hinv.low _ k' h hS'
            · exact absurd h hzy
    · rw [if_neg hwc]
      refine ⟨q, p, m, rfl, hq, hlen, ⟨hinv.entry, ?_⟩, fun _ _ => rfl⟩
      intro y' k' hc hS'
      rcases newcand y' k' hc with h | ⟨rfl, h, _⟩
      · exact hinv.low y' k' h hS'
      · exact absurd h hwc

theorem DRep.settle (h : DRep d s) (hne : ∃ y k, s.Arrives y k ∧ ¬ s.IsSettled y) (hno : s.NoOverflow) :
    ∃ d' x k, d.settle s.graph.time = some (d', x, k) ∧ ¬ s.IsSettled x ∧ s.Distance x k ∧
      (∀ y d', (y, d') ∈ s.settled → d' ≤ k) ∧
      (∀ y d', s.Arrives y d' → ¬ s.IsSettled y → k ≤ d') ∧
      DRep d' { s with settled := s.settled ++ [(x, k)] } := by
  obtain ⟨m, hm, hq⟩ := h.queue
  have hfin : d.isFinished = false := by
    cases hc : d.isFinished with
    | false => rfl
    | true =>
      obtain ⟨y, k, h1, h2⟩ := hne
      exact absurd (h.finished_iff.1 hc y k h1) h2
  have hmne : ∃ id, m id ≠ none := by
    obtain ⟨y, k, h1, h2⟩ := hne
    rcases frontier h hq h1 with h' | ⟨z, k, h1, _⟩
    · exact absurd (isSettled_iff.2 h') h2
    · exact ⟨z, by rw [h1]; simp⟩
  obtain ⟨q, ⟨x, k⟩, epop, hx, hmin, hq1⟩ := hm.pop hmne
  simp only at hx hmin hq1
  obtain ⟨hxn, hxS, hxP, hxlo⟩ := hq.entry x k hx
  have hlow : ∀ y t, s.Arrives y t → y ∉ s.settled.map Prod.fst → k ≤ t := by
    intro y t ha hS
    rcases frontier h hq ha with h' | ⟨z, k', h1, h2⟩
    · exact absurd h' hS
    · have := hmin z k' h1; omega
  have hdist : s.Distance x k :=
    ⟨cand_arrives h.arrives hxP.cand, fun t ht => hlow x t ht hxS⟩
  obtain ⟨popped, epp, hpp⟩ := h.popped.set hxn
  obtain ⟨b, f, hb, hf, hbf, hfl⟩ := h.wf.csr.range hxn
  have hpp' : popped.Rep s.graph.n (fun y => decide (y ∈ (s.settled ++ [(x, k)]).map Prod.fst)) := by
    have : (fun y => decide (y ∈ (s.settled ++ [(x, k)]).map Prod.fst)) =
        fun y => if y = x then true else decide (y ∈ s.settled.map Prod.fst) := by
      funext y
      by_cases hy : y = x <;> simp [hy]
    rw [this]; exact hpp
  have hxk : (x, k) ∈ s.settled ++ [(x, k)] := by simp
  obtain ⟨⟨q2, p2⟩, eloop, ⟨m2, hq2, hp2, hinv2⟩, hkeep⟩ := forRange_inv (lo := b) (hi := f)
    (s := (q, d.predecessor))
    (f := Dijkstra.relaxArc (toGraph s.graph) popped s.graph.time k)
    (fun a st => (∃ m', st.1.Rep s.graph.n m' ∧ st.2.length = s.graph.n ∧
      QInv s (s.settled ++ [(x, k)])
        (fun y k' => Cand s s.settled y k' ∨ ∃ a' w, a' < a ∧ s.graph.Arc a' x y k w ∧ k' = k + w)
        st.2 m' (fun k' => k ≤ k')) ∧
      ∀ y ∈ (s.settled ++ [(x, k)]).map Prod.fst, rd st.2 y = rd d.predecessor y)
    hbf ⟨⟨_, hq1, h.lenP, by
      constructor
      · intro y k' hy
        by_cases hyx : y = x
        · rw [if_pos hyx] at hy; cases hy
        · rw [if_neg hyx] at hy
          obtain ⟨g1, g2, g3, g4⟩ := hq.entry y k' hy
          refine ⟨g1, ?_, g3.mono (by intro p hp; simp [hp]) rfl, hmin y k' hy⟩
          simp only [List.map_append, List.mem_append, not_or]
          exact ⟨g2, by simpa using hyx⟩
      · intro y k' hc hS
        simp only [List.map_append, List.mem_append, not_or] at hS
        have hyx : y ≠ x := by simpa using hS.2
        simp only [if_neg hyx]
        rcases hc with hc | ⟨a', w, h1, h2, _⟩
        · exact hq.low y k' hc hS.1
        · obtain ⟨b', e', hb', he', h3, h4⟩ := h2.1
          rw [hb] at hb'; injection hb' with hb'; omega⟩, fun _ _ => rfl⟩
    (by
      rintro a ⟨q', p'⟩ hba haf ⟨⟨m', hq', hp', hinv'⟩, hk'⟩
      obtain ⟨q'', p'', m'', e, g1, g2, g3, g4⟩ := relaxArc_spec h.wf hxk hpp' rfl
        (fun a y w harc => hno x k a y w hdist harc) ⟨b, f, hb, hf, hba, haf⟩ hq' hp' hinv'
      exact ⟨(q'', p''), e, ⟨m'', g1, g2, g3⟩, fun y hy => by rw [g4 y hy]; exact hk' y hy⟩)
  simp only at hq2 hp2 hinv2 hkeep
  unfold Dijkstra.settle
  rw [hfin]
  have hb' : rd (toGraph s.graph).firstOut x = some b := hb
  have hf' : rd (toGraph s.graph).firstOut (x + 1) = some f := hf
  simp only [Bool.not_false, check_true, Option.bind_eq_bind, Option.bind_some, h.graph, epop,
    wr_lt (show x < d.tentative.length by rw [h.lenT]; exact hxn), epp, hb', hf', eloop]
  refine ⟨_, x, k, rfl, fun hs => hxS (isSettled_iff.1 hs), hdist, ?_, ?_, ?_⟩
  · intro y d' hy; exact hxlo _ hy
  · intro y d' ha hs; exact hlow y d' ha (fun h' => hs (isSettled_iff.2 h'))
  · refine ⟨h.wf, rfl, by simpa using h.lenT, hp2, hpp', ⟨m2, hq2, ?_⟩, h.src, ?_, ?_, ?_⟩
    · constructor
      · intro y k' hy
        obtain ⟨g1, g2, g3, g4⟩ := hinv2.entry y k' hy
        refine ⟨g1, g2, g3, ?_⟩
        intro p hp
        simp only [List.mem_append, List.mem_singleton] at hp
        rcases hp with hp | rfl
        · have := hxlo p hp; omega
        · exact g4
      · intro y k' hc hS
        apply hinv2.low y k' _ hS
        rcases hc with hc | ⟨a, x', d', w, h1, h2, h3⟩
        · exact Or.inl (Or.inl hc)
        · simp only [List.mem_append, List.mem_singleton, Prod.mk.injEq] at h1
          rcases h1 with h1 | ⟨rfl, rfl⟩
          · exact Or.inl (Or.inr ⟨a, x', d', w, h1, h2, h3⟩)
          · obtain ⟨b', e', hb', he', _, h4⟩ := h2.1
            simp only at hb' he'
            rw [hf] at he'; injection he' with he'
            exact Or.inr ⟨a, w, by omega, h2, h3⟩
    · intro p hp
      simp only [List.mem_append, List.mem_singleton] at hp
      rcases hp with hp | rfl
      · obtain ⟨g1, g2, g3⟩ := h.dist p hp
        refine ⟨?_, g2, g3⟩
        simp only
        have : p.1 ≠ x := fun hpx => hxS (hpx ▸ List.mem_map.2 ⟨p, hp, rfl⟩)
        rw [rd_set (by rw [h.lenT]; exact hxn), if_neg this]; exact g1
      · refine ⟨?_, hdist, hxn⟩
        simp only
        rw [rd_set (by rw [h.lenT]; exact hxn), if_pos rfl]
    · simp only [List.map_append, List.map_cons, List.map_nil]
      rw [List.nodup_append]
      refine ⟨h.nodup, by simp, ?_⟩
      intro a ha b hb
      simp only [List.mem_singleton] at hb
      subst hb
      exact fun hab => hxS (hab ▸ ha)
    · intro l1 y k' l2 hl
      simp only at hl
      have hyS : y ∈ (s.settled ++ [(x, k)]).map Prod.fst := by
        rw [hl]; simp
      rcases List.eq_nil_or_concat l2 with rfl | ⟨l2', z, rfl⟩
      · obtain ⟨e1, e2⟩ := List.append_inj' hl rfl
        cases e2
        subst e1
        exact hxP.mono (fun _ h => h) (hkeep x hyS)
      · have hl' : s.settled ++ [(x, k)] = (l1 ++ (y, k') :: l2') ++ [z] := by rw [hl]; simp
        obtain ⟨e1, _⟩ := List.append_inj' hl' rfl
        exact (h.preds l1 y k' l2' e1).mono (fun _ h => h) (hkeep y hyS)

/-! ### queries -/

theorem DRep.wasNodeReached (h : DRep d s) {x : Nat} (hx : x < s.graph.n) :
    d.wasNodeReached x = some (decide (x ∈ s.settled.map Prod.fst)) := by
  unfold Dijkstra.wasNodeReached
  have c : decide (x < (toGraph s.graph).firstOut.length - 1) = true := by
    rw [toGraph_len h.wf]; simpa using hx
  simp only [h.graph, Option.bind_eq_bind, Option.bind_some, c, check_true, h.popped.isSet hx]

theorem DRep.getDistanceTo (h : DRep d s) {x : Nat} (hx : x < s.graph.n) :
    ∃ k, d.getDistanceTo x = some k ∧
      ((s.IsSettled x ∧ s.Distance x k) ∨ (¬ s.IsSettled x ∧ k = closed)) := by
  unfold Dijkstra.getDistanceTo
  have c : decide (x < (toGraph s.graph).firstOut.length - 1) = true := by
    rw [toGraph_len h.wf]; simpa using hx
  simp only [h.graph, Option.bind_eq_bind, Option.bind_some, c, check_true, h.popped.isSet hx]
  by_cases hS : x ∈ s.settled.map Prod.fst
  · rw [decide_eq_true hS]
    simp only [if_true]
    obtain ⟨k, hk⟩ := isSettled_iff.2 hS
    obtain ⟨h1, h2, _⟩ := h.dist _ hk
    exact ⟨k, h1, Or.inl ⟨⟨k, hk⟩, h2⟩⟩
  · rw [decide_eq_false hS]
    simp only [Bool.false_eq_true, if_false]
    exact ⟨_, rfl, Or.inr ⟨fun h' => hS (isSettled_iff.1 h'), rfl⟩⟩

theorem paths_spec (h : DRep d s) : ∀ {fuel : Nat} {l1 : List (Nat × Nat)} {y k : Nat}
    {l2 : List (Nat × Nat)} {acc acc' : List Nat}, s.settled = l1 ++ (y, k) :: l2 → l1.length < fuel →
    ∃ src ∈ s.sources, ∃ p, Journey s.graph src.1 src.2 p y k ∧
      (src.1 :: p.filterMap fun a => s.graph.head[a]?).Sublist ((l1 ++ [(y, k)]).map Prod.fst) ∧
      Dijkstra.arcPathLoop (toGraph s.graph) d.predecessor fuel y acc = some (p ++ acc) ∧
      Dijkstra.nodePathLoop (toGraph s.graph) d.predecessor fuel y acc' =
        some ((src.1 :: p.filterMap fun a => s.graph.head[a]?) ++ acc')
  | 0, l1, y, k, l2, acc, acc', _, hf => by omega
  | fuel + 1, l1, y, k, l2, acc, acc', hl, hf => by
    unfold Dijkstra.arcPathLoop Dijkstra.nodePathLoop
    rcases h.preds l1 y k l2 hl with ⟨h1, h2⟩ | ⟨a, x, dx, w, h1, h2, h3, h4⟩
    · refine ⟨(y, k), h2, [], .nil y k, by simp, ?_, ?_⟩
      · simp only [h1, Option.bind_eq_bind, Option.bind_some]
        rw [if_neg (by simp)]; rfl
      · simp only [h1, Option.bind_eq_bind, Option.bind_some]
        rw [if_neg (by simp)]; rfl
    · have ha : a ≠ invalidId := by
        have := arc_lt h3
        have := h.wf.arcs
        unfold invalidId; omega
      have ht : rd (toGraph s.graph).tail a = some x := h.wf.tail_eq x a h3.1
      obtain ⟨l1', l2', hs⟩ := List.append_of_mem h2
      obtain ⟨src, hsrc, p, hj, hsub, e1, e2⟩ := paths_spec h (fuel := fuel) (l1 := l1') (y := x) (k := dx)
        (l2 := l2' ++ (y, k) :: l2) (acc := a :: acc) (acc' := y :: acc') (by rw [hl, hs]; simp)
        (by rw [hs] at hf; simp at hf; omega)
      refine ⟨src, hsrc, p ++ [a], by rw [h4]; exact hj.snoc h3, ?_, ?_, ?_⟩
      · have e : (p ++ [a]).filterMap (fun a => s.graph.head[a]?) = (p.filterMap fun a => s.graph.head[a]?) ++ [y] := by
          rw [List.filterMap_append]; simp [h3.2.1]
        rw [e, ← List.cons_append, List.map_append]
        refine List.Sublist.append (hsub.trans ?_) (List.Sublist.refl _)
        rw [hs]
        exact List.Sublist.map _ (by simp)
      · simp only [h1, Option.bind_eq_bind, Option.bind_some]
        rw [if_pos ha, ht]
        simp only [Option.bind_some]
        rw [e1]; simp
      · simp only [h1, Option.bind_eq_bind, Option.bind_some]
        rw [if_pos ha, ht]
        simp only [Option.bind_some]
        rw [e2, List.filterMap_append]
        simp [h3.2.1]

theorem DRep.settled_le (h : DRep d s) : s.settled.length ≤ s.graph.n := by
  have h1 : (s.settled.map Prod.fst) ⊆ List.range s.graph.n := by
    intro x hx
    obtain ⟨p, hp, rfl⟩ := List.mem_map.1 hx
    exact List.mem_range.2 (h.dist p hp).2.2
  have := (h.nodup.subperm h1).length_le
  simpa using this

theorem DRep.getPathsTo (h : DRep d s) {x : Nat} (hx : x < s.graph.n) :
    ∃ arcs nodes, d.getArcPathTo x = some arcs ∧ d.getNodePathTo x = some nodes ∧
      ((¬ s.IsSettled x ∧ arcs = [] ∧ nodes = []) ∨
       ∃ src ∈ s.sources, ∃ k, Journey s.graph src.1 src.2 arcs x k ∧ s.Distance x k ∧
        s.IsSettled x ∧ NodesAlong s.graph src.1 arcs nodes ∧ nodes.Nodup) := by
  unfold Dijkstra.getArcPathTo Dijkstra.getNodePathTo
  have c : decide (x < (toGraph s.graph).firstOut.length - 1) = true := by
    rw [toGraph_len h.wf]; simpa using hx
  simp only [h.wasNodeReached hx, h.graph, Option.bind_eq_bind, Option.bind_some, c, check_true]
  by_cases hS : x ∈ s.settled.map Prod.fst
  · rw [decide_eq_true hS]
    simp only [if_true]
    obtain ⟨k, hk⟩ := isSettled_iff.2 hS
    obtain ⟨l1, l2, hl⟩ := List.append_of_mem hk
    have hle := h.settled_le
    have hlen := h.wf.csr.length
    obtain ⟨src, hsrc, p, hj, hsub, e1, e2⟩ := paths_spec h (fuel := (toGraph s.graph).firstOut.length)
      (acc := []) (acc' := []) hl (by
        rw [hl] at hle; simp at hle; simp only [toGraph]; omega)
    refine ⟨_, _, e1, e2, Or.inr ⟨src, hsrc, k, by simpa using hj, (h.dist _ hk).2.1, ⟨k, hk⟩, ?_, ?_⟩⟩
    · simp [NodesAlong]
    · have := h.nodup
      rw [hl] at this
      simp only [List.append_nil]
      exact (hsub.trans (List.Sublist.map _ (by simp))).nodup this
  · rw [decide_eq_false hS]
    simp only [Bool.false_eq_true, if_false]
    exact ⟨_, _, rfl, rfl, Or.inl ⟨fun h' => hS (isSettled_iff.1 h'), rfl, rfl⟩⟩

/-! ### running to completion -/

theorem runLoop_spec : ∀ {fuel : Nat} {d : Dijkstra} {s : Search}, DRep d s → s.NoOverflow →
    s.graph.n < fuel + s.settled.length →
    ∃ d' s', Dijkstra.runLoop s.graph.time fuel d = some d' ∧ DRep d' s' ∧ s'.graph = s.graph ∧
      s'.sources = s.sources ∧ ∀ y k, s'.Arrives y k → s'.IsSettled y
  | 0, d, s, h, _, hf => by have := h.settled_le; omega
  | fuel + 1, d, s, h, hno, hf => by
    unfold Dijkstra.runLoop
    cases hfin : d.isFinished with
    | true =>
      simp only [if_true]
      exact ⟨d, s, rfl, h, rfl, rfl, h.finished_iff.1 hfin⟩
    | false =>
      simp only [Bool.false_eq_true, if_false]
      have hne : ∃ y k, s.Arrives y k ∧ ¬ s.IsSettled y := by
        by_contra hc
        have : d.isFinished = true := h.finished_iff.2 (by
          intro y k ha
          by_contra hs
          exact hc ⟨y, k, ha, hs⟩)
        rw [hfin] at this; cases this
      obtain ⟨d', x, k, e, _, _, _, _, h'⟩ := h.settle hne hno
      simp only [e, Option.bind_eq_bind, Option.bind_some]
      obtain ⟨d'', s'', e2, h2, g1, g2, g3⟩ := runLoop_spec (fuel := fuel) h' hno (by simp; omega)
      exact ⟨d'', s'', e2, h2, g1, g2, g3⟩

/-! ### constant weights -/

theorem walk_snoc {A : ArcRel} {s x y a w l : Nat} {p : List Nat} (h : Walk A s p x l) (ha : A a x y w) :
    Walk A s (p ++ [a]) y (l + w) := by
  induction h with
  | nil s => simpa using Walk.cons ha (Walk.nil y)
  | cons h1 _ ih => rw [Nat.add_assoc]; exact Walk.cons h1 (ih ha)

/-- The graph with constant weights. -/
def scalarGraph (n : Nat) (firstOut tail head weight : List Nat) : TGraph :=
  ⟨n, firstOut, tail, head, scalarGetWeight weight⟩

theorem arc_scalar {n : Nat} {firstOut tail head weight : List Nat} {a x y t w : Nat} :
    (scalarGraph n firstOut tail head weight).Arc a x y t w ↔ openArcs firstOut head weight a x y w := by
  unfold TGraph.Arc openArcs csrArcs
  constructor
  · rintro ⟨h1, h2, h3, h4⟩; exact ⟨⟨h1, h2, h3⟩, h4⟩
  · rintro ⟨⟨h1, h2, h3⟩, h4⟩; exact ⟨h1, h2, h3, h4⟩

theorem journey_walk {n : Nat} {firstOut tail head weight p : List Nat} {s t y k : Nat}
    (h : Journey (scalarGraph n firstOut tail head weight) s t p y k) :
    ∃ l, k = t + l ∧ Walk (openArcs firstOut head weight) s p y l := by
  induction h with
  | nil => exact ⟨0, rfl, .nil _⟩
  | snoc h1 h2 ih =>
    obtain ⟨l, rfl, hw⟩ := ih
    exact ⟨_, by rw [Nat.add_assoc], walk_snoc hw (arc_scalar.1 h2)⟩

theorem journey_append {n : Nat} {firstOut tail head weight p p' : List Nat} {s t x y k l : Nat}
    (h : Journey (scalarGraph n firstOut tail head weight) s t p x k)
    (hw : Walk (openArcs firstOut head weight) x p' y l) :
    Journey (scalarGraph n firstOut tail head weight) s t (p ++ p') y (k + l) := by
  induction hw generalizing p k with
  | nil => simpa using h
  | @cons a s m t w l p' h1 _ ih =>
    have := ih (h.snoc (arc_scalar.2 h1))
    simpa [Nat.add_assoc] using this

theorem walk_journey {n : Nat} {firstOut tail head weight p : List Nat} {s t y l : Nat}
    (hw : Walk (openArcs firstOut head weight) s p y l) :
    Journey (scalarGraph n firstOut tail head weight) s t p y (t + l) := by
  simpa using journey_append (.nil s t) hw

end RK
